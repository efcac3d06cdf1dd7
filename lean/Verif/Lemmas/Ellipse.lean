import Verif.Model.Vector
import Mathlib.Algebra.Order.Archimedean.Real.Basic
import Mathlib.Data.List.Range

/-!
# The highest point of the contour of an ellipse
-/

set_option linter.unusedVariables false

namespace Meent

theorem argmaxY_isSome {N : ℕ} (hN : 0 < N) (p : ℕ → Pt) : ∃ h, argmaxY N p = some h := by
  cases e : argmaxY N p with
  | none =>
    have := List.argmax_eq_none.mp e
    simp at this
    omega
  | some h => exact ⟨h, rfl⟩

theorem argmaxY_lt {N h : ℕ} {p : ℕ → Pt} (e : argmaxY N p = some h) : h < N := by
  have := List.argmax_mem (Option.mem_def.mpr e)
  simpa using this

theorem argmaxY_le {N h : ℕ} {p : ℕ → Pt} (e : argmaxY N p = some h) {k : ℕ} (hk : k < N) : (p k).2 ≤ (p h).2 :=
  List.le_of_mem_argmax (f := fun k => (p k).2) (List.mem_range.mpr hk) (Option.mem_def.mpr e)

theorem idxOf_range {N k : ℕ} (hk : k < N) : (List.range N).idxOf k = k := by
  have h := List.Nodup.idxOf_getElem (List.nodup_range (n := N)) k (by simpa using hk)
  simpa using h

theorem argmaxY_first {N h : ℕ} {p : ℕ → Pt} (e : argmaxY N p = some h) {k : ℕ} (hk : k < N) (hle : (p h).2 ≤ (p k).2) :
    h ≤ k := by
  have := List.index_of_argmax (f := fun k => (p k).2) (Option.mem_def.mpr e) (List.mem_range.mpr hk) hle
  rwa [idxOf_range hk, idxOf_range (argmaxY_lt e)] at this

/-- The roll takes the point number `h` to the middle. -/
theorem rollTo_mid {N h : ℕ} (hh : h < N) (p : ℕ → Pt) : rollTo N h p (N / 2) = p h := by
  unfold rollTo
  have : N / 2 + h + (N - N / 2) = h + N := by omega
  rw [this, Nat.add_mod_right, Nat.mod_eq_of_lt hh]

/-- After the roll the first highest point is not past the middle. -/
theorem rolled_top {N h0 h : ℕ} {p : ℕ → Pt} (e0 : argmaxY N p = some h0) (e : argmaxY N (rollTo N h0 p) = some h) :
    h ≤ N / 2 := by
  have hlt := argmaxY_lt e0
  refine argmaxY_first e (by omega) ?_
  rw [rollTo_mid hlt]
  unfold rollTo
  exact argmaxY_le e0 (Nat.mod_lt _ (by omega))

/-- After the roll the highest point is as high as before. -/
theorem rolled_eq {N h0 h : ℕ} {p : ℕ → Pt} (e0 : argmaxY N p = some h0) (e : argmaxY N (rollTo N h0 p) = some h) :
    (rollTo N h0 p h).2 = (p h0).2 := by
  have hlt := argmaxY_lt e0
  apply le_antisymm
  · unfold rollTo
    exact argmaxY_le e0 (Nat.mod_lt _ (by omega))
  · rw [← rollTo_mid hlt p]
    exact argmaxY_le e (by omega)

end Meent
