import Verif.Model.Rcwa

/-!
# Specification vocabulary: mirror images

`mx` says whether the x axis is reversed, `my` whether the y axis is.
-/

namespace Meent.Spec

/-- Index `i`, counted from the other end if `b`. -/
def revIdx {N : ℕ} (b : Bool) (i : Fin N) : Fin N := if b then i.rev else i

/-- The image with its columns reversed if `mx` and its rows reversed if `my`. -/
abbrev mirrored {ny nx : ℕ} (mx my : Bool) (a : Fin ny → Fin nx → ℂ) : Fin ny → Fin nx → ℂ :=
  fun i j => a (revIdx my i) (revIdx mx j)

/-- Every layer mirrored. -/
abbrev mirrorAll (mx my : Bool) (u : Ucell) : Ucell := ⟨u.ny, u.nx, u.layers.map (mirrored mx my)⟩

/-- The sign that an axis takes. -/
def sign (b : Bool) : ℂ := if b then -1 else 1

/-- Light under `(θ', φ')` comes from the mirror image of the direction `(θ, φ)`; an azimuth that is not set is zero. -/
structure MirrorDirection (mx my : Bool) (θ : ℂ) (φ : Option ℂ) (θ' : ℂ) (φ' : Option ℂ) : Prop where
  x : Complex.sin θ' * Complex.cos (φ'.getD 0) = sign mx * (Complex.sin θ * Complex.cos (φ.getD 0))
  y : Complex.sin θ' * Complex.sin (φ'.getD 0) = sign my * (Complex.sin θ * Complex.sin (φ.getD 0))
  z : Complex.cos θ' = Complex.cos θ

/-- A polarization with angle `ψ'` is the mirror image of one with angle `ψ`: mirroring one axis reverses the s part
relative to the p part. -/
def MirrorPsi (mx my : Bool) (ψ ψ' : ℂ) : Prop :=
  ∃ c : ℂ, c ^ 2 = 1 ∧ Complex.sin ψ' = c * (sign mx * sign my * Complex.sin ψ) ∧ Complex.cos ψ' = c * Complex.cos ψ

/-- The problem with raster `u` mirrored, illuminated under `(θ', φ')` with polarization `(pol', ψ')`. -/
abbrev image (mx my : Bool) (s : Settings) (u : Ucell) (θ' : ℂ) (φ' : Option ℂ) (pol' : ℝ) (ψ' : ℂ) : Settings :=
  { s with
    ucell := .raster (mirrorAll mx my u)
    p := { s.p with theta := θ', phi := φ', pol := pol', psi := ψ' } }

/-- The efficiencies in `r'` are those in `r` with the orders mirrored. -/
structure MirrorEff {a b : ℕ} (mx my : Bool) (r r' : SubRes a b) : Prop where
  de_ri_s : ∀ j i, r'.de_ri_s j i = r.de_ri_s (revIdx my j) (revIdx mx i)
  de_ri_p : ∀ j i, r'.de_ri_p j i = r.de_ri_p (revIdx my j) (revIdx mx i)
  de_ri : ∀ j i, r'.de_ri j i = r.de_ri (revIdx my j) (revIdx mx i)
  de_ti_s : ∀ j i, r'.de_ti_s j i = r.de_ti_s (revIdx my j) (revIdx mx i)
  de_ti_p : ∀ j i, r'.de_ti_p j i = r.de_ti_p (revIdx my j) (revIdx mx i)
  de_ti : ∀ j i, r'.de_ti j i = r.de_ti (revIdx my j) (revIdx mx i)

end Meent.Spec
