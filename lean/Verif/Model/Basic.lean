import Mathlib.LinearAlgebra.Matrix.NonsingularInverse
import Mathlib.Analysis.SpecialFunctions.Pow.Complex
import Mathlib.Analysis.SpecialFunctions.Complex.Arctan
import Mathlib.LinearAlgebra.Matrix.Hermitian
import Mathlib.Data.Complex.BigOperators

/-!
# Common vocabulary of the model

Exact arithmetic over `ℂ`/`ℝ`.  Python exceptions are values of `Err`.
-/

open Matrix

namespace Meent

/-- The Python exceptions the modelled code can raise, plus `nan` for the places where numpy
silently produces NaN (`0/0`) and every later number is NaN.
The `raise` statements of on_numpy/emsolver/_base.py:63-211, on_numpy/emsolver/rcwa.py:98-195, main.py:24, and what numpy raises there -/
inductive Err
  | valueError
  | typeError
  | keyError
  | indexError
  | linAlgError
  | notImplemented
  | attributeError
  | zeroDivision
  | overflow
  | nan
  deriving DecidableEq, Repr

/-- Results of a Python call: a value or an exception.
No counterpart in the code: Python returns or raises -/
abbrev Res (α : Type) := Except Err α

/-- External linear algebra (`numpy.linalg.eig`, `numpy.linalg.pinv`; likewise jax / torch).
The model assumes only the laws below.  Nothing is assumed about the order or the normalisation
of eigenvectors nor about their linear independence.
on_numpy/emsolver/transfer_method.py:36, 45, 178-179, 426 and on_numpy/emsolver/primitives.py:6 -/
structure LinAlg where
  /-- `np.linalg.eig`: eigenvalues and the matrix of column eigenvectors. -/
  eig : ∀ {n : Type} [Fintype n] [DecidableEq n], Matrix n n ℂ → (n → ℂ) × Matrix n n ℂ
  /-- each returned column is an eigenvector (or zero) -/
  eig_law : ∀ {n : Type} [Fintype n] [DecidableEq n] (A : Matrix n n ℂ),
    A * (eig A).2 = (eig A).2 * diagonal (eig A).1
  /-- `np.linalg.pinv` -/
  pinv : ∀ {n : Type} [Fintype n] [DecidableEq n], Matrix n n ℂ → Matrix n n ℂ
  /-- on invertible matrices the pseudo-inverse is the inverse -/
  pinv_law : ∀ {n : Type} [Fintype n] [DecidableEq n] (A : Matrix n n ℂ),
    IsUnit A.det → pinv A = A⁻¹

variable {n : Type} [Fintype n] [DecidableEq n]

open Classical in
/-- `np.linalg.inv`: raises `LinAlgError` exactly on singular matrices.
on_numpy/emsolver/primitives.py:8, on_numpy/emsolver/fourier_analysis.py:46, 58, 82, 94 -/
noncomputable def npInv (A : Matrix n n ℂ) : Res (Matrix n n ℂ) :=
  if IsUnit A.det then .ok A⁻¹ else .error .linAlgError

/-- `meeinv(x, use_pinv)`; /repo/meent/on_numpy/emsolver/primitives.py:4-10. -/
noncomputable def meeinv (la : LinAlg) (A : Matrix n n ℂ) (use_pinv : Bool) :
    Res (Matrix n n ℂ) :=
  if use_pinv then .ok (la.pinv A) else npInv A

/-- `z ** 0.5` for complex numpy arrays: the principal square root.
on_numpy/emsolver/transfer_method.py:9-10, 38, 48, 146-147 -/
noncomputable def csqrt (z : ℂ) : ℂ := z ^ (1 / 2 : ℂ)

/-- Python list indexing `l[i]` for a non-negative index: `IndexError` out of range.
on_numpy/emsolver/_base.py:248-252, 308-312, 368-372 -/
def getIdx {α : Type} (l : List α) (i : ℕ) : Res α :=
  match l[i]? with
  | some a => .ok a
  | none => .error .indexError

end Meent
