import Verif.Model.Basic

/-!
# Specification vocabulary: eigensolvers
-/

open Matrix

namespace Meent

/-- The eigensolver returns linearly independent eigenvectors for every diagonalisable matrix. -/
def Spec.ReturnsBasis (la : LinAlg) : Prop :=
  ∀ {n : Type} [Fintype n] [DecidableEq n] (A : Matrix n n ℂ),
    (∃ (W : Matrix n n ℂ) (l : n → ℂ), IsUnit W.det ∧ A * W = W * diagonal l) → IsUnit (la.eig A).2.det

end Meent
