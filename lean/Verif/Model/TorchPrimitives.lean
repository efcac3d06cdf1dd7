import Verif.Model.Basic
import Mathlib.LinearAlgebra.Matrix.Hadamard

/-!
# Hand-written backward passes of the PyTorch backend

/repo/meent/on_torch/emsolver/primitives.py.  Complex tensors only: for real matrices `Eig.backward` keeps
the real part, which is not modelled.
-/

open Matrix

namespace Meent

variable {n : Type} [Fintype n] [DecidableEq n]

/-- `RobustPinv.forward` (primitives.py:68-76).  Both branches compute the pseudo-inverse. -/
noncomputable def robustPinvForward (la : LinAlg) (x : Matrix n n ℂ) : Matrix n n ℂ := la.pinv x

/-- `RobustPinv.backward` (primitives.py:82-87): `-res_h @ grad_output @ res_h` where `res` is the saved
output of the forward pass. -/
noncomputable def robustPinvBackward (res grad_output : Matrix n n ℂ) : Matrix n n ℂ :=
  -resᴴ * grad_output * resᴴ

/-- `Fij` in `Eig.backward` (primitives.py:38-41): `Δ / (|Δ|² + perturbation)` with
`Δ = eig_val[j] - eig_val[i]`, zero on the diagonal. -/
noncomputable def eigF (perturbation : ℝ) (eig_val : n → ℂ) : Matrix n n ℂ :=
  of fun i j => if i = j then 0
    else (eig_val j - eig_val i) / (((‖eig_val j - eig_val i‖ ^ 2 + perturbation : ℝ)) : ℂ)

/-- `Eig.backward` (primitives.py:20-47): `inv(W_H) @ (diag(g) + Fij * (W_H @ G)) @ W_H`, where `*` is
entrywise; `torch.linalg.inv` raises on a singular matrix. -/
noncomputable def eigBackward (perturbation : ℝ) (eig_val : n → ℂ) (eig_vector : Matrix n n ℂ)
    (grad_eigval : n → ℂ) (grad_eigvec : Matrix n n ℂ) : Res (Matrix n n ℂ) := do
  let W_H := eig_vectorᴴ
  let inv ← npInv W_H
  .ok (inv * (diagonal grad_eigval + (eigF perturbation eig_val) ⊙ (W_H * grad_eigvec)) * W_H)

end Meent
