import Verif.Model.Rcwa
import Verif.Spec.Conv

/-!
# Specification vocabulary: layers and their convolution matrices
-/

open Matrix

namespace Meent

/-- Discrete convolution matrices of one layer: there is some pixel repetition `img` of the layer with at least `4 fto + 1`
samples per axis, and the three matrices given by the Fourier coefficients of `img ** 2`. -/
structure Spec.DiscreteConv {ny nx fx fy : ℕ} (layer : Fin ny → Fin nx → ℂ)
    (c : Conv (Fin ((2 * fy + 1) * (2 * fx + 1)))) : Prop where
  spec : ∃ (Ny Nx : ℕ) (img : Fin Ny → Fin Nx → ℂ), Spec.IsRepeated layer img ∧
    4 * fy + 1 ≤ Ny ∧ 4 * fx + 1 ≤ Nx ∧
    (∃ epz, Spec.IsDirectConv (fun i j => img i j ^ 2) epz ∧ IsUnit epz.det ∧ c.epzi = epz⁻¹) ∧
    Spec.IsInverseYConv (fun i j => img i j ^ 2) c.epy ∧
    Spec.IsInverseXConv (fun i j => img i j ^ 2) c.epx

/-- The scalar convolution matrices of a homogeneous medium of refractive index `n`. -/
noncomputable def Spec.scalarConv (fx fy : ℕ) (n : ℂ) : Conv (Fin ((2 * fy + 1) * (2 * fx + 1))) where
  epx := n ^ 2 • 1
  epy := n ^ 2 • 1
  epzi := (n ^ 2)⁻¹ • 1

/-- A raster whose layers are homogeneous with indices `ns`. -/
def Spec.homogeneousRaster (ny nx : ℕ) (ns : List ℂ) : Ucell := ⟨ny, nx, ns.map fun n _ _ => n⟩

/-- A vector layer all of whose materials have index `n`. -/
def Spec.HomogeneousVLayer (n : ℂ) (l : VLayer) : Prop :=
  l.base = n ∧ ∀ v ∈ l.instrs, match v with
    | .rectangle _ _ _ _ m _ _ _ => m = n
    | .ellipse _ _ _ _ m _ _ _ => m = n
    | .unknown => True

/-- Every layer of the structure is filled with one material (of its own), of nonzero index. -/
def Spec.FlatStructure : Structure → Prop
  | .raster u => 0 < u.ny ∧ 0 < u.nx ∧ ∀ l ∈ u.layers, ∃ n : ℂ, n ≠ 0 ∧ ∀ i j, l i j = n
  | .vector ls => ∀ l ∈ ls, ∃ n : ℂ, n ≠ 0 ∧ Spec.HomogeneousVLayer n l

end Meent
