import Verif.Model.TorchPrimitives
import Verif.Model.Jax

/-!
# The hand-written derivative rule of the JAX backend

/repo/meent/on_jax/emsolver/primitives.py:29-69 and the optimisation step /repo/meent/on_jax/optimizer/optimizer.py:42-50.
-/

open Matrix

namespace Meent.Jax

variable {n : Type} [Fintype n] [DecidableEq n]

/-- `eig_bwd`: `conj(inv(W_H) @ (conj(diag(g)) + Fij * (W_H @ conj(G))) @ W_H)`; the real part of it if the matrix was real.
`jnp.linalg.inv` of a singular matrix is NaN.
on_jax/emsolver/primitives.py:34-66 -/
noncomputable def eigBwd (perturbation : ℝ) (isComplex : Bool) (eig_val : n → ℂ) (eig_vector : Matrix n n ℂ)
    (grad_eigval : n → ℂ) (grad_eigvec : Matrix n n ℂ) : Res (Matrix n n ℂ) := do
  let W_H := eig_vectorᵀ.map star
  let inv ← inv W_H
  let Fij : Matrix n n ℂ := of fun i j => if i = j then 0
    else (eig_val j - eig_val i) / (((‖eig_val j - eig_val i‖ ^ 2 + perturbation : ℝ)) : ℂ)
  let grad := inv * ((diagonal grad_eigval).map star + Fij ⊙ (W_H * grad_eigvec.map star)) * W_H
  let grad := grad.map star
  .ok (if isComplex then grad else grad.map fun z => (z.re : ℂ))

/-- What `fit` hands to the optimizer: `grads = {k: v.conj()}`.
on_jax/optimizer/optimizer.py:45-46 -/
def fitGrad (grad : Matrix n n ℂ) : Matrix n n ℂ := grad.map star

end Meent.Jax
