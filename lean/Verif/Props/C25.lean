import Verif.Model.Object

/-!
# C25: backend selection
-/

namespace Meent

/-- **C25.** `call_mee(backend=b)` instantiates the NumPy, JAX or PyTorch class for `b` equal to 0, 1, 2. -/
theorem C25_supported : call_mee (.int 0) = .ok .numpy ∧ call_mee (.int 1) = .ok .jax ∧
    call_mee (.int 2) = .ok .torch := by
  simp [call_mee, BackendArg.eqInt]

/-- **C25.** For every other integer, and for everything that is not a number, it raises `ValueError`. -/
theorem C25_unsupported (i : ℤ) (h : i ≠ 0 ∧ i ≠ 1 ∧ i ≠ 2) :
    call_mee (.int i) = .error .valueError ∧ call_mee .other = .error .valueError := by
  simp [call_mee, BackendArg.eqInt, h.1, h.2.1, h.2.2]

/-- **C25**, other numbers: a float or a bool counts as the integer it equals in Python. -/
theorem C25_equal_numbers (b : BackendArg) (B : Backend) : call_mee b = .ok B ↔
    (B = .numpy ∧ (b = .int 0 ∨ b = .float 0 ∨ b = .bool false)) ∨
    (B = .jax ∧ (b = .int 1 ∨ b = .float 1 ∨ b = .bool true)) ∨
    (B = .torch ∧ (b = .int 2 ∨ b = .float 2)) := by
  unfold call_mee
  cases b with
  | int i =>
    simp only [BackendArg.eqInt, decide_eq_true_eq, BackendArg.int.injEq, reduceCtorEq, or_false]
    split_ifs with h0 h1 h2
    · subst h0; simp [eq_comm]
    · subst h1; simp [eq_comm]
    · subst h2; simp [eq_comm]
    · simp [h0, h1, h2]
  | float x =>
    simp only [BackendArg.eqInt, decide_eq_true_eq, BackendArg.float.injEq, reduceCtorEq, or_false, false_or,
      Int.cast_zero, Int.cast_one, Int.cast_ofNat]
    split_ifs with h0 h1 h2
    · subst h0; simp [eq_comm]
    · subst h1; simp [eq_comm]
    · subst h2; simp [eq_comm]
    · simp [h0, h1, h2]
  | bool b => cases b <;> simp [BackendArg.eqInt, eq_comm]
  | other => simp [BackendArg.eqInt]

example : call_mee (.int (-1)) = .error .valueError ∧ call_mee (.int 3) = .error .valueError :=
  ⟨(C25_unsupported (-1) (by decide)).1, (C25_unsupported 3 (by decide)).1⟩

#print axioms C25_supported
#print axioms C25_unsupported
#print axioms C25_equal_numbers

end Meent
