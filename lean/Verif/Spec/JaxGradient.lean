import Verif.Spec.Gradient

/-!
# Specification: the JAX convention for gradients of real losses

JAX represents the gradient of a real loss with respect to a complex array `z` by `∂L/∂Re z - i ∂L/∂Im z`, so that the
first-order change of the loss is `Re Σ grad · dz`.
-/

open Matrix
open scoped Matrix.Norms.Operator

namespace Meent.Spec

variable {n : Type} [Fintype n] [DecidableEq n]

/-- First-order change `Re Σ g_ij D_ij`. -/
noncomputable def jaxChange (g D : Matrix n n ℂ) : ℝ := (∑ i, ∑ j, g i j * D i j).re

/-- First-order change of a loss with gradient `g` when the vector moves by `d`. -/
noncomputable def jaxChangeVec (g d : n → ℂ) : ℝ := (∑ i, g i * d i).re

/-- `g` is the JAX gradient of the real loss `L` at the matrix `A`. -/
def IsJaxGradient (L : Matrix n n ℂ → ℝ) (A g : Matrix n n ℂ) : Prop :=
  ∃ L' : Matrix n n ℂ →L[ℝ] ℝ, HasFDerivAt L L' A ∧ ∀ D, L' D = jaxChange g D

/-- `(g, G)` is the JAX gradient of the real loss `L` of a vector and a matrix at `(v, W)`. -/
def IsJaxGradient2 (L : (n → ℂ) × Matrix n n ℂ → ℝ) (v : n → ℂ) (W : Matrix n n ℂ) (g : n → ℂ)
    (G : Matrix n n ℂ) : Prop :=
  ∃ L' : ((n → ℂ) × Matrix n n ℂ) →L[ℝ] ℝ, HasFDerivAt L L' (v, W) ∧
    ∀ d D, L' (d, D) = jaxChangeVec g d + jaxChange G D

end Meent.Spec
