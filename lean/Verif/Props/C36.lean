import Verif.Lemmas.GridSorted

/-!
# C36: grid lines are sorted and end at the period
-/

namespace Meent

open Spec

/-- **C36 (partial: no two objects share an edge coordinate).** The edges of the drawn layer ascend
strictly, they are positive, and they are exactly the interior edges of the objects and the
period. -/
theorem C36_grid_partial (period : ℝ × ℝ) (base : ℂ) (objs : List VObj) (c : VCell)
    (h : drawLayer period base objs = .ok c) (hp : 0 < period.1) (hq : 0 < period.2)
    (hin : ∀ o ∈ objs, Inside period o) (hnr : (rowEdges objs).Nodup)
    (hnc : (colEdges objs).Nodup) :
    StrictMono c.x ∧ StrictMono c.y ∧
      (∀ v, (∃ j, c.x j = v) ↔ v = period.1 ∨ (0 < v ∧ v ∈ colEdges objs)) ∧
      (∀ v, (∃ i, c.y i = v) ↔ v = period.2 ∨ (0 < v ∧ v ∈ rowEdges objs)) := by
  have inv := freeInv objs hnr hnc
  obtain ⟨er, ec⟩ := draw_ok h
  obtain ⟨s1, m1⟩ := finish_sorted hq inv.rows (by
    intro v hv
    obtain ⟨o, ho, hv⟩ := List.mem_flatMap.mp ((inv.mrows v).mp hv)
    obtain ⟨-, -, -, h1, h2, h3⟩ := hin o ho
    simp only [List.mem_cons, List.not_mem_nil, or_false] at hv
    rcases hv with rfl | rfl <;> constructor <;> linarith)
  obtain ⟨s2, m2⟩ := finish_sorted hp inv.cols (by
    intro v hv
    obtain ⟨o, ho, hv⟩ := List.mem_flatMap.mp ((inv.mcols v).mp hv)
    obtain ⟨h1, h2, h3, -, -, -⟩ := hin o ho
    simp only [List.mem_cons, List.not_mem_nil, or_false] at hv
    rcases hv with rfl | rfl <;> constructor <;> linarith)
  rw [← er] at s1 m1
  rw [← ec] at s2 m2
  refine ⟨?_, ?_, ?_, ?_⟩
  · exact fun i j hij => List.pairwise_ofFn.mp s2 hij
  · exact fun i j hij => List.pairwise_ofFn.mp s1 hij
  · intro v
    rw [← inv.mcols, ← m2]
    simp [List.mem_ofFn]
  · intro v
    rw [← inv.mrows, ← m1]
    simp [List.mem_ofFn]

/-- **C36, end.** Whatever the objects, the last edge of the drawn layer is the period. -/
theorem C36_period (period : ℝ × ℝ) (base : ℂ) (objs : List VObj) (c : VCell)
    (h : drawLayer period base objs = .ok c) (hp : period.1 ≠ 0) (hq : period.2 ≠ 0) :
    (∃ j, (∀ k, k ≤ j) ∧ c.x j = period.1) ∧ ∃ i, (∀ k, k ≤ i) ∧ c.y i = period.2 := by
  obtain ⟨er, ec⟩ := draw_ok h
  have lr := finish_last (gridLayer objs).rows hq
  have lc := finish_last (gridLayer objs).cols hp
  rw [← er] at lr
  rw [← ec] at lc
  exact ⟨last_of_ofFn lc, last_of_ofFn lr⟩

/-- **C36 fails for shared edges.** For any two objects inside the unit cell, the second beginning
where the first one ends, the edges of the drawn layer do not ascend: the edge of the second object
is moved to the right but inserted to the left of the one it coincided with. -/
theorem C36_negation (period : ℝ × ℝ) (base : ℂ) (a b : VObj) (c : VCell)
    (h : drawLayer period base [a, b] = .ok c) (ha : Inside period a) (hab : a.c1 = b.c0) :
    ¬ StrictMono c.x := by
  intro hs
  obtain ⟨-, ec⟩ := draw_ok h
  have hp : (finishEdges (gridLayer [a, b]).cols period.1).Pairwise (· < ·) := by
    rw [← ec]
    exact List.pairwise_ofFn.mpr fun i j hij => hs hij
  obtain ⟨w, hw, hsub⟩ := shared_sublist a b ha.1 ha.2.1 hab
  have h1 := hp.sublist (finish_sublist hsub (by
    have := ha.1
    have := ha.2.1
    linarith) period.1)
  simp only [List.pairwise_cons, List.mem_singleton, forall_eq] at h1
  linarith [h1.1]

/-- Two rectangles side by side meet the hypotheses of the negation. -/
example :
    let a : VObj := ⟨1, 1, 3, 2, 2⟩
    let b : VObj := ⟨2, 2, 4, 3, 5⟩
    Inside (6, 6) a ∧ Inside (6, 6) b ∧ a.c1 = b.c0 ∧ ∃ c, drawLayer (6, 6) 1 [a, b] = .ok c := by
  intro a b
  refine ⟨by norm_num [Inside, a], by norm_num [Inside, b], rfl, ?_⟩
  refine draw_exists 1 (by norm_num) (by norm_num) (by simp [a, b]) ?_
  have hb := (gridInv [a, b]).bound
  unfold pertUnit at hb
  norm_num at hb
  linarith

/-- Two overlapping rectangles without shared edges meet the hypotheses of the partial theorem. -/
example :
    let a : VObj := ⟨1, 0, 3, 2, 2⟩
    let b : VObj := ⟨2, 1, 4, 3, 5⟩
    Inside (6, 6) a ∧ Inside (6, 6) b ∧ (colEdges [a, b]).Nodup ∧ (rowEdges [a, b]).Nodup ∧
      ∃ c, drawLayer (6, 6) 1 [a, b] = .ok c := by
  intro a b
  refine ⟨by norm_num [Inside, a], by norm_num [Inside, b], by norm_num [colEdges, a, b],
    by norm_num [rowEdges, a, b], ?_⟩
  refine draw_exists 1 (by norm_num) (by norm_num) (by simp [a, b]) ?_
  have hb := (gridInv [a, b]).bound
  unfold pertUnit at hb
  norm_num at hb
  linarith

#print axioms C36_grid_partial
#print axioms C36_period
#print axioms C36_negation

end Meent
