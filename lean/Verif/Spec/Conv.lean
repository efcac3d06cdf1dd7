import Verif.Spec.Fourier
import Mathlib.LinearAlgebra.Matrix.NonsingularInverse

/-!
# Specification: convolution matrices

Diffraction orders of a flattened index and the three convolution matrices of a permittivity image
written with discrete Fourier coefficients (Li's factorisation rules).  Independent of the model.
-/

open Matrix

namespace Meent.Spec

/-- x order of a flattened index: the fast axis, orders `-fx … fx`. -/
def orderX {fx fy : ℕ} (i : Fin ((2 * fy + 1) * (2 * fx + 1))) : ℤ := (i.val % (2 * fx + 1) : ℕ) - (fx : ℤ)

/-- y order of a flattened index: the slow axis, orders `-fy … fy`. -/
def orderY {fx fy : ℕ} (i : Fin ((2 * fy + 1) * (2 * fx + 1))) : ℤ := (i.val / (2 * fx + 1) : ℕ) - (fy : ℤ)

/-- y position (row of the output array) of a flattened index. -/
def rowOf {fx fy : ℕ} (i : Fin ((2 * fy + 1) * (2 * fx + 1))) : Fin (2 * fy + 1) := i.divNat

/-- Toeplitz matrix of Fourier coefficients of a sampled function along y. -/
noncomputable def toeplitzY {N : ℕ} (fy : ℕ) (g : Fin N → ℂ) :
    Matrix (Fin (2 * fy + 1)) (Fin (2 * fy + 1)) ℂ :=
  Matrix.of fun r c => dftCoeff g ((c.val : ℤ) - (r.val : ℤ))

/-- Direct convolution matrix of an image: entry `(r, c)` is the Fourier coefficient of order
`c - r`. -/
def IsDirectConv {Ny Nx fx fy : ℕ} (eps : Fin Ny → Fin Nx → ℂ)
    (M : Matrix (Fin ((2 * fy + 1) * (2 * fx + 1))) (Fin ((2 * fy + 1) * (2 * fx + 1))) ℂ) : Prop :=
  ∀ r c, M r c = dftCoeff2 eps (orderX c - orderX r) (orderY c - orderY r)

/-- Inverse rule along y, direct rule along x. -/
def IsInverseYConv {Ny Nx fx fy : ℕ} (eps : Fin Ny → Fin Nx → ℂ)
    (M : Matrix (Fin ((2 * fy + 1) * (2 * fx + 1))) (Fin ((2 * fy + 1) * (2 * fx + 1))) ℂ) : Prop :=
  (∀ x, IsUnit (toeplitzY fy fun y => 1 / eps y x).det) ∧
  ∀ r c, M r c = dftCoeff (fun x => (toeplitzY fy fun y => 1 / eps y x)⁻¹ (rowOf r) (rowOf c))
    (orderX c - orderX r)

/-- Direct rule along y, inverse rule along x. -/
def IsInverseXConv {Ny Nx fx fy : ℕ} (eps : Fin Ny → Fin Nx → ℂ)
    (M : Matrix (Fin ((2 * fy + 1) * (2 * fx + 1))) (Fin ((2 * fy + 1) * (2 * fx + 1))) ℂ) : Prop :=
  (∀ x, IsUnit (toeplitzY fy fun y => eps y x).det) ∧
  IsUnit M.det ∧
  ∀ r c, M⁻¹ r c = dftCoeff (fun x => (toeplitzY fy fun y => eps y x)⁻¹ (rowOf r) (rowOf c))
    (orderX c - orderX r)

/-- Pixel `(i, j)` of an image repeated `ky` times along y and `kx` times along x belongs to pixel
`(i / ky, j / kx)` of the original. -/
def IsRepeated {ny nx Ny Nx : ℕ} (a : Fin ny → Fin nx → ℂ) (b : Fin Ny → Fin Nx → ℂ) : Prop :=
  ∃ ky kx : ℕ, 0 < ky ∧ 0 < kx ∧ Ny = ny * ky ∧ Nx = nx * kx ∧
    ∀ i j (i' : Fin ny) (j' : Fin nx), i'.val = i.val / ky → j'.val = j.val / kx → b i j = a i' j'

/-- `b` is `a` with each pixel repeated `ky` times along y and `kx` times along x. -/
def IsRepeatedBy {ny nx Ny Nx : ℕ} (ky kx : ℕ) (a : Fin ny → Fin nx → ℂ) (b : Fin Ny → Fin Nx → ℂ) : Prop :=
  Ny = ny * ky ∧ Nx = nx * kx ∧
    ∀ i j (i' : Fin ny) (j' : Fin nx), i'.val = i.val / ky → j'.val = j.val / kx → b i j = a i' j'

end Meent.Spec
