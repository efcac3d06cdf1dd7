import Verif.Spec.Pieces
import Verif.Spec.Conv
import Verif.Model.Transfer1D

/-!
# Specification: convolution matrices of a permittivity function

Written with exact Fourier integrals (Li's factorisation rules).
-/

open Matrix

namespace Meent.Spec

/-- Toeplitz matrix of the Fourier coefficients of a function along y. -/
noncomputable def toeplitzOn (fy : ℕ) (g : ℝ → ℂ) (p : ℝ) : Matrix (Fin (2 * fy + 1)) (Fin (2 * fy + 1)) ℂ :=
  Matrix.of fun r c => fourierCoeffOn g p ((c.val : ℤ) - (r.val : ℤ))

/-- The three convolution matrices of the permittivity `f` (a function of `(y, x)`) on the cell `py × px`. -/
structure ContinuousConv {fx fy : ℕ} (f : ℝ → ℝ → ℂ) (py px : ℝ) (c : Conv (Fin ((2 * fy + 1) * (2 * fx + 1)))) : Prop where
  direct : ∃ epz, (∀ r k, epz r k = fourierCoeffOn2 f py px (orderX k - orderX r) (orderY k - orderY r)) ∧
    IsUnit epz.det ∧ c.epzi = epz⁻¹
  inverseY : ∀ r k, c.epy r k = fourierCoeffOn (fun t => (toeplitzOn fy (fun v => 1 / f v t) py)⁻¹ (rowOf r) (rowOf k)) px
    (orderX k - orderX r)
  inverseX : IsUnit c.epx.det ∧ ∀ r k, c.epx⁻¹ r k
    = fourierCoeffOn (fun t => (toeplitzOn fy (fun v => f v t) py)⁻¹ (rowOf r) (rowOf k)) px (orderX k - orderX r)

end Meent.Spec
