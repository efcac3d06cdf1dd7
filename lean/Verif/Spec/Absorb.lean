import Verif.Spec.Sides
import Verif.Spec.Normal
import Verif.Spec.Stacks

/-!
# Specification vocabulary: absorbing structures and their modes
-/

open Matrix

namespace Meent.Spec

/-- The matrix has a basis of eigenvectors. -/
def Diagonalisable {n : Type} [Fintype n] [DecidableEq n] (A : Matrix n n ℂ) : Prop :=
  ∃ (W : Matrix n n ℂ) (l : n → ℂ), IsUnit W.det ∧ A * W = W * diagonal l

/-- The x component of the wave vector of an order, in units of the vacuum wavenumber.  Orders are numbered row by row, those
along x first. -/
noncomputable def kxOf (p : Params) (i : FlatIdx p.fto.1 p.fto.2) : ℂ :=
  p.n_top * Complex.sin p.theta * Complex.cos (p.phi.getD 0)
    + ((i.val % (2 * p.fto.1 + 1) : ℕ) - (p.fto.1 : ℤ) : ℤ) * ((p.wavelength / p.period.1 : ℝ) : ℂ)

/-- The y component of the wave vector of an order. -/
noncomputable def kyOf (p : Params) (i : FlatIdx p.fto.1 p.fto.2) : ℂ :=
  p.n_top * Complex.sin p.theta * Complex.sin (p.phi.getD 0)
    + ((i.val / (2 * p.fto.1 + 1) : ℕ) - (p.fto.2 : ℤ) : ℤ) * ((p.wavelength / p.period.2 : ℝ) : ℂ)

/-- The textbook mode problem of a layer has a basis of modes.  With `Kx`, `Ky` the diagonal matrices of the wave vectors and
`εx`, `εy`, `εz⁻¹` the convolution matrices: in 1D TE the eigenvectors of `Kx² - εy`, in 1D TM those of `εx (Kx εz⁻¹ Kx - 1)`; in
the conical formulation those of `Ky² + Kx² - εy` and of `Ky² + (Kx εz⁻¹ Kx - 1) εx`; in 2D those of the block matrix
`[Ky² + (Kx εz⁻¹ Kx - 1) εx, Kx (εz⁻¹ Ky εy - Ky); Ky (εz⁻¹ Kx εx - Kx), Kx² + (Ky εz⁻¹ Ky - 1) εy]`. -/
def LayerHasModes (s : Settings) (c : Conv (FlatIdx s.p.fto.1 s.p.fto.2)) : Prop :=
  let Kx := diagonal (kxOf s.p)
  let Ky := diagonal (kyOf s.p)
  (gratingType s = 0 → s.p.pol = 0 → Diagonalisable (Kx * Kx - c.epy)) ∧
  (gratingType s = 0 → s.p.pol = 1 → Diagonalisable (c.epx * (Kx * c.epzi * Kx - 1))) ∧
  (gratingType s = 1 → Diagonalisable (Ky * Ky + Kx * Kx - c.epy) ∧
    Diagonalisable (Ky * Ky + (Kx * c.epzi * Kx - 1) * c.epx)) ∧
  (gratingType s = 2 → Diagonalisable (fromBlocks (Ky * Ky + (Kx * c.epzi * Kx - 1) * c.epx) (Kx * (c.epzi * Ky * c.epy - Ky))
    (Ky * (c.epzi * Kx * c.epx - Kx)) (Kx * Kx + (Ky * c.epzi * Ky - 1) * c.epy)))

/-- Every layer is made of transparent and absorbing media and absorbs somewhere. For rasters the Fourier coefficients are the
continuous ones or those of the enhanced discrete transform (the default); a vector structure can be drawn and its grid lines
ascend. -/
def AbsorbingLayers (s : Settings) : Prop :=
  match s.ucell with
  | .raster u => (s.fourier_type = 1 ∨ s.fourier_type = 0 ∧ s.enhanced_dfs = true) ∧
      ∀ l ∈ u.layers, (∀ i j, OrdinaryMedium (l i j)) ∧ ∃ i j, AbsorbingMedium (l i j)
  | .vector ls => GoodGeometry s.p.period ls ∧ (∀ l ∈ ls, ∀ n, Media l n → OrdinaryMedium n) ∧
      ∃ cells, modeling_vector_instruction s.p.period ls = .ok cells ∧ ∀ c ∈ cells, ∃ i j, AbsorbingMedium (c.val i j)

/-- An absorbing problem: real illumination of absorbing layers of positive thickness on a lossless substrate; at least one layer,
and no fewer layers than thicknesses. No order kept in a conical or 2D calculation is along the surface normal (property C52). -/
structure AbsorbingProblem (s : Settings) : Prop extends RealIllumination s.p where
  layers : AbsorbingLayers s
  thickness_pos : ∀ d ∈ s.p.thickness, 0 < d
  thickness_some : s.p.thickness ≠ []
  layers_enough : s.p.thickness.length ≤ layerCount s.ucell
  n_bot_real : IsReal s.p.n_bot
  n_bot_pos : 0 < s.p.n_bot.re
  not_normal : gratingType s = 0 ∨ ¬ SomeAlongNormal s.p
  orders : gratingType s = 1 → s.p.fto.2 = 0

end Meent.Spec
