import Verif.Spec.Absorb
import Verif.Spec.Orders

/-!
# Specification vocabulary: gratings of transparent and absorbing layers
-/

open Matrix

namespace Meent.Spec

/-- A medium that does not absorb: `n > 0` and `k = 0`. -/
def TransparentMedium (n : ℂ) : Prop := 0 < n.re ∧ n.im = 0

/-- Real illumination of raster layers made of transparent and absorbing media (indices
`n - i k` with `n > 0` and `k ≥ 0`), with positive thicknesses and
no fewer layers than thicknesses.  The Fourier coefficients are the continuous ones or those of the enhanced discrete transform
(the default). -/
structure OrdinaryStack (s : Settings) (u : Ucell) : Prop extends RealIllumination s.p where
  raster : s.ucell = .raster u
  columns : 0 < u.nx
  coefficients : s.fourier_type = 1 ∨ s.fourier_type = 0 ∧ s.enhanced_dfs = true
  media : ∀ l ∈ u.layers, ∀ i j, OrdinaryMedium (l i j)
  thickness_pos : ∀ d ∈ s.p.thickness, 0 < d
  layers_enough : s.p.thickness.length ≤ u.layers.length

/-- The lowest of the layers that are used absorbs somewhere. -/
def LowestAbsorbs (s : Settings) (u : Ucell) : Prop :=
  ∃ l, (u.layers.take s.p.thickness.length).getLast? = some l ∧ ∃ i j, AbsorbingMedium (l i j)

/-- Every order that is kept leaves through the lossless substrate as a propagating wave. -/
def AllEscape (s : Settings) : Prop := ∀ i : Fin (2 * s.p.fto.1 + 1), inPlaneSq s.p (colOrder i) 0 < s.p.n_bot.re ^ 2

/-- None of the layers absorbs. -/
def AllTransparent (u : Ucell) : Prop := ∀ l ∈ u.layers, ∀ i j, TransparentMedium (l i j)

/-- A layer with a mode exactly at cut-off, which neither propagates nor decays: in TE a field annihilated by `Kx² - εy`, in TM one
annihilated by `Kx εz⁻¹ Kx - 1`. -/
def AtCutoff (s : Settings) (c : Conv (FlatIdx s.p.fto.1 s.p.fto.2)) : Prop :=
  let Kx := diagonal (kxOf s.p)
  (s.p.pol = 0 ∧ ∃ v, v ≠ 0 ∧ (Kx * Kx - c.epy) *ᵥ v = 0) ∨ (s.p.pol = 1 ∧ ∃ v, v ≠ 0 ∧ (Kx * c.epzi * Kx - 1) *ᵥ v = 0)

/-- The part of a conical calculation that decides: a layer for which one of the four matrices `Kx² - εy`, `Kx εz⁻¹ Kx - 1`,
`Ky² + Kx² - εy` and `Ky² + (Kx εz⁻¹ Kx - 1) εx` annihilates a field.  The last two are modes at cut-off; the first two are modes at
cut-off of the same grating without the component of the wave vector along its lines. -/
def AtCutoffConical (s : Settings) (c : Conv (FlatIdx s.p.fto.1 s.p.fto.2)) : Prop :=
  let Kx := diagonal (kxOf s.p)
  let Ky := diagonal (kyOf s.p)
  ∃ v, v ≠ 0 ∧ ((Kx * Kx - c.epy) *ᵥ v = 0 ∨ (Kx * c.epzi * Kx - 1) *ᵥ v = 0 ∨ (Ky * Ky + Kx * Kx - c.epy) *ᵥ v = 0 ∨
    (Ky * Ky + (Kx * c.epzi * Kx - 1) * c.epx) *ᵥ v = 0)

/-- The textbook matrix of the mode problem of a layer in 2D (see `LayerHasModes`), acting on the transverse electric field. -/
noncomputable def modeMatrix (s : Settings) (c : Conv (FlatIdx s.p.fto.1 s.p.fto.2)) :
    Matrix (FlatIdx s.p.fto.1 s.p.fto.2 ⊕ FlatIdx s.p.fto.1 s.p.fto.2) (FlatIdx s.p.fto.1 s.p.fto.2 ⊕ FlatIdx s.p.fto.1 s.p.fto.2) ℂ :=
  let Kx := diagonal (kxOf s.p)
  let Ky := diagonal (kyOf s.p)
  fromBlocks (Ky * Ky + (Kx * c.epzi * Kx - 1) * c.epx) (Kx * (c.epzi * Ky * c.epy - Ky))
    (Ky * (c.epzi * Kx * c.epx - Kx)) (Kx * Kx + (Ky * c.epzi * Ky - 1) * c.epy)

/-- A layer with a mode at cut-off in 2D. -/
def AtCutoff2D (s : Settings) (c : Conv (FlatIdx s.p.fto.1 s.p.fto.2)) : Prop := ∃ v, v ≠ 0 ∧ modeMatrix s c *ᵥ v = 0

/-- A layer with a backward wave: a mode `E exp(-iβz)` whose phase moves down and whose power, `E* (εx - Ky², Ky Kx; Kx Ky, εy - Kx²) E`
up to the positive factor `1/β`, moves up. -/
def BackwardMode (s : Settings) (c : Conv (FlatIdx s.p.fto.1 s.p.fto.2)) : Prop :=
  let Kx := diagonal (kxOf s.p)
  let Ky := diagonal (kyOf s.p)
  ∃ (E : FlatIdx s.p.fto.1 s.p.fto.2 ⊕ FlatIdx s.p.fto.1 s.p.fto.2 → ℂ) (β : ℝ), 0 < β ∧ modeMatrix s c *ᵥ E = (-(β : ℂ) ^ 2) • E ∧
    (star E ⬝ᵥ (fromBlocks (c.epx - Ky * Ky) (Ky * Kx) (Kx * Ky) (c.epy - Kx * Kx) *ᵥ E)).re < 0

/-- Every order that is kept leaves through the lossless substrate as a propagating wave: the version for both directions. -/
def AllEscape2D (s : Settings) : Prop := ∀ (i : Fin (2 * s.p.fto.1 + 1)) (j : Fin (2 * s.p.fto.2 + 1)),
  inPlaneSq s.p (colOrder i) (rowOrder j) < s.p.n_bot.re ^ 2

end Meent.Spec
