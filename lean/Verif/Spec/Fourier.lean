import Mathlib.Analysis.SpecialFunctions.Integrals.Basic
import Mathlib.Analysis.Complex.Trigonometric

/-!
# Specification: Fourier coefficients

Independent of the model.
-/

namespace Meent.Spec

open Complex

/-- Discrete Fourier coefficient of order `j` of `N` equidistant samples `a`. -/
noncomputable def dftCoeff {N : ℕ} (a : Fin N → ℂ) (j : ℤ) : ℂ :=
  (∑ y : Fin N, a y * exp (-(2 * Real.pi * I * (j : ℂ) * (y.val : ℂ) / (N : ℂ)))) / (N : ℂ)

/-- Discrete Fourier coefficient of order `(jx, jy)` of an `Ny × Nx` image. -/
noncomputable def dftCoeff2 {Ny Nx : ℕ} (a : Fin Ny → Fin Nx → ℂ) (jx jy : ℤ) : ℂ :=
  dftCoeff (fun x : Fin Nx => dftCoeff (fun y : Fin Ny => a y x) jy) jx

/-- Fourier coefficient of order `m` of a `p`-periodic function. -/
noncomputable def fourierCoeffOn (f : ℝ → ℂ) (p : ℝ) (m : ℤ) : ℂ :=
  (1 / p : ℂ) * ∫ x in (0 : ℝ)..p, f x * exp (-(2 * Real.pi * I * (m : ℂ) * (x : ℂ) / (p : ℂ)))

end Meent.Spec
