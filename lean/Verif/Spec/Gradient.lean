import Mathlib.Analysis.Calculus.FDeriv.Mul
import Mathlib.Analysis.Matrix.Normed
import Mathlib.LinearAlgebra.Matrix.ConjTranspose
import Mathlib.LinearAlgebra.Matrix.Trace
import Mathlib.Analysis.Complex.Basic
import Mathlib.Topology.Algebra.Module.FiniteDimension

/-!
# Specification: gradients of real losses with respect to complex tensors

PyTorch represents the gradient of a real loss with respect to a complex tensor `z` by
`∂L/∂Re z + i ∂L/∂Im z`, so that the first-order change of the loss is `Re Σ conj(grad) · dz`.
-/

open Matrix
open scoped Matrix.Norms.Operator

namespace Meent.Spec

variable {n : Type} [Fintype n] [DecidableEq n]

/-- First-order change `Re Σ conj(g_ij) D_ij` of a loss with gradient `g` when the matrix moves by `D`. -/
noncomputable def change (g : Matrix n n ℂ) (D : Matrix n n ℂ) : ℝ :=
  (∑ i, ∑ j, star (g i j) * D i j).re

/-- First-order change of a loss with gradient `g` when the vector moves by `d`. -/
noncomputable def changeVec (g d : n → ℂ) : ℝ := (∑ i, star (g i) * d i).re

/-- `g` is the gradient of the real loss `L` at the matrix `A`. -/
def IsGradient (L : Matrix n n ℂ → ℝ) (A g : Matrix n n ℂ) : Prop :=
  ∃ L' : Matrix n n ℂ →L[ℝ] ℝ, HasFDerivAt L L' A ∧ ∀ D, L' D = change g D

/-- `(g, G)` is the gradient of the real loss `L` of a vector and a matrix at `(v, W)`. -/
def IsGradient2 (L : (n → ℂ) × Matrix n n ℂ → ℝ) (v : n → ℂ) (W : Matrix n n ℂ) (g : n → ℂ)
    (G : Matrix n n ℂ) : Prop :=
  ∃ L' : ((n → ℂ) × Matrix n n ℂ) →L[ℝ] ℝ, HasFDerivAt L L' (v, W) ∧
    ∀ d D, L' (d, D) = changeVec g d + change G D

end Meent.Spec
