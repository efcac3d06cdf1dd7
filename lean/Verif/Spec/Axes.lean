import Verif.Spec.Image

/-!
# Specification vocabulary: exchanging the x and y axes
-/

namespace Meent.Spec

/-- The image with the x and y axes exchanged.  Columns follow `x`.  Rows follow `y`, or run against it if `flip`. -/
abbrev exchanged {ny nx : ℕ} (flip : Bool) (a : Fin ny → Fin nx → ℂ) : Fin nx → Fin ny → ℂ :=
  fun i j => a (revIdx flip j) (revIdx flip i)

/-- Every layer with its axes exchanged. -/
abbrev exchangeAll (flip : Bool) (u : Ucell) : Ucell := ⟨u.nx, u.ny, u.layers.map (exchanged flip)⟩

/-- The refractive index of a layer is a product of a function of `x` and a function of `y`.  Layers that vary along
one axis only are such layers. -/
def Separable {ny nx : ℕ} (a : Fin ny → Fin nx → ℂ) : Prop :=
  ∃ (f : Fin nx → ℂ) (g : Fin ny → ℂ), ∀ i j, a i j = f j * g i

/-- Light under `(θ', φ')` comes from the direction `(θ, φ)` with the axes exchanged; an azimuth that is not set is
zero. -/
structure ExchangedDirection (θ : ℂ) (φ : Option ℂ) (θ' : ℂ) (φ' : Option ℂ) : Prop where
  x : Complex.sin θ' * Complex.cos (φ'.getD 0) = Complex.sin θ * Complex.sin (φ.getD 0)
  y : Complex.sin θ' * Complex.sin (φ'.getD 0) = Complex.sin θ * Complex.cos (φ.getD 0)
  z : Complex.cos θ' = Complex.cos θ

/-- A polarization with angle `ψ'` is one with angle `ψ` after the axes are exchanged: exchanging them is a mirror, which
reverses the s part relative to the p part. -/
def ExchangedPsi (ψ ψ' : ℂ) : Prop :=
  ∃ c : ℂ, c ^ 2 = 1 ∧ Complex.sin ψ' = -(c * Complex.sin ψ) ∧ Complex.cos ψ' = c * Complex.cos ψ

/-- The problem with the axes of raster `u`, the periods and the numbers of orders exchanged, illuminated under
`(θ', φ')` with polarization `(pol', ψ')`.  The rows of a raster run against `y` for the continuous Fourier series. -/
abbrev exchangeAxes (s : Settings) (u : Ucell) (θ' : ℂ) (φ' : Option ℂ) (pol' : ℝ) (ψ' : ℂ) : Settings :=
  { s with
    ucell := .raster (exchangeAll (decide (s.fourier_type = 1)) u)
    p := { s.p with
      fto := (s.p.fto.2, s.p.fto.1)
      period := (s.p.period.2, s.p.period.1)
      theta := θ', phi := φ', pol := pol', psi := ψ' } }

/-- The efficiencies in `r'` are those in `r` with the two order indices exchanged. -/
structure ExchangedEff {a b : ℕ} (r : SubRes a b) (r' : SubRes b a) : Prop where
  de_ri_s : ∀ j i, r'.de_ri_s j i = r.de_ri_s i j
  de_ri_p : ∀ j i, r'.de_ri_p j i = r.de_ri_p i j
  de_ri : ∀ j i, r'.de_ri j i = r.de_ri i j
  de_ti_s : ∀ j i, r'.de_ti_s j i = r.de_ti_s i j
  de_ti_p : ∀ j i, r'.de_ti_p j i = r.de_ti_p i j
  de_ti : ∀ j i, r'.de_ti j i = r.de_ti i j

end Meent.Spec
