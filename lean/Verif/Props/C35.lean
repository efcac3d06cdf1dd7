import Verif.Lemmas.GridSorted

/-!
# C35: objects paint in list order
-/

namespace Meent

open Spec

/-- **C35.** A point of the unit cell that is not within rounding distance of an edge lies in
exactly one cell of the drawn layer, and that cell holds the index of the last listed object
covering the point, or the base index if no object covers it.  The objects may overlap, share edges
and reach beyond the unit cell. -/
theorem C35_paint (period : ℝ × ℝ) (base : ℂ) (objs : List VObj) (c : VCell)
    (h : drawLayer period base objs = .ok c) (x y : ℝ) (hx : 0 < x ∧ x < period.1)
    (hy : 0 < y ∧ y < period.2)
    (hr : ∀ v ∈ rowEdges objs, Clear objs.length v y)
    (hc : ∀ v ∈ colEdges objs, Clear objs.length v x) :
    ∃ i j, InCell c x y i j ∧ (∀ i' j', InCell c x y i' j' → i' = i ∧ j' = j) ∧
      PaintedAs base objs x y (c.val i j) := by
  obtain ⟨i, j, h1, h2⟩ := draw_value h hx hy (fun o ho =>
    ⟨clear_far (hr _ (List.mem_flatMap.mpr ⟨o, ho, by simp⟩)),
      clear_far (hr _ (List.mem_flatMap.mpr ⟨o, ho, by simp⟩)),
      clear_far (hc _ (List.mem_flatMap.mpr ⟨o, ho, by simp⟩)),
      clear_far (hc _ (List.mem_flatMap.mpr ⟨o, ho, by simp⟩))⟩)
  exact ⟨i, j, h1, fun i' j' h' => inCell_unique h1 h', h2⟩

/-- **C35, exact.** When no two edges coincide the same holds for every point that is not on an
edge, however near. -/
theorem C35_exact (period : ℝ × ℝ) (base : ℂ) (objs : List VObj) (c : VCell)
    (h : drawLayer period base objs = .ok c) (x y : ℝ) (hx : 0 < x ∧ x < period.1)
    (hy : 0 < y ∧ y < period.2) (hnr : (rowEdges objs).Nodup) (hnc : (colEdges objs).Nodup)
    (hr : y ∉ rowEdges objs) (hc : x ∉ colEdges objs) :
    ∃ i j, InCell c x y i j ∧ (∀ i' j', InCell c x y i' j' → i' = i ∧ j' = j) ∧
      PaintedAs base objs x y (c.val i j) := by
  have hp := (freeInv objs hnr hnc).pert
  obtain ⟨i, j, h1, h2⟩ := draw_value h hx hy (fun o ho => by
    rw [hp]
    refine ⟨far_zero ?_, far_zero ?_, far_zero ?_, far_zero ?_⟩
    · rintro rfl; exact hr (List.mem_flatMap.mpr ⟨o, ho, by simp⟩)
    · rintro rfl; exact hr (List.mem_flatMap.mpr ⟨o, ho, by simp⟩)
    · rintro rfl; exact hc (List.mem_flatMap.mpr ⟨o, ho, by simp⟩)
    · rintro rfl; exact hc (List.mem_flatMap.mpr ⟨o, ho, by simp⟩))
  exact ⟨i, j, h1, fun i' j' h' => inCell_unique h1 h', h2⟩

/-- **C35, success.** Drawing succeeds for all objects whose lower and right edges are positive, up
to ten million million of them. -/
theorem C35_success (period : ℝ × ℝ) (base : ℂ) (objs : List VObj) (hp : 0 < period.1)
    (hq : 0 < period.2) (ho : ∀ o ∈ objs, 0 < o.r1 ∧ 0 < o.c1) (hn : objs.length ≤ 10 ^ 13) :
    ∃ c, drawLayer period base objs = .ok c := by
  refine draw_exists base hp.ne' hq.ne' ho ?_
  have hb := (gridInv objs).bound
  have : (objs.length : ℝ) ≤ 10 ^ 13 := by exact_mod_cast hn
  unfold pertUnit at hb
  linarith

/-- **C35, layers.** Every layer of a list of instructions is drawn from the objects its own
instructions give. -/
theorem C35_layers (period : ℝ × ℝ) (ls : List VLayer) (cells : List VCell)
    (h : modeling_vector_instruction period ls = .ok cells) :
    cells.length = ls.length ∧
    ∀ (k : ℕ) (c : VCell), cells[k]? = some c →
      ∃ l objs, ls[k]? = some l ∧ l.objs = .ok objs ∧
        ∀ x y, 0 < x ∧ x < period.1 → 0 < y ∧ y < period.2 →
          (∀ v ∈ rowEdges objs, Clear objs.length v y) →
          (∀ v ∈ colEdges objs, Clear objs.length v x) →
          ∃ i j, InCell c x y i j ∧ (∀ i' j', InCell c x y i' j' → i' = i ∧ j' = j) ∧
            PaintedAs l.base objs x y (c.val i j) := by
  unfold modeling_vector_instruction at h
  cases hm : (ls.mapM fun l => do
      let o ← l.objs
      .ok (l.base, o) : Res (List (ℂ × List VObj))) with
  | error e => rw [hm] at h; cases h
  | ok os =>
    rw [hm] at h
    change os.mapM (fun bo => drawLayer period bo.1 bo.2) = _ at h
    refine ⟨(mapM_length h).trans (mapM_length hm), ?_⟩
    intro k c hk
    obtain ⟨bo, h1, h2⟩ := mapM_getElem h k c hk
    obtain ⟨l, h3, h4⟩ := mapM_getElem hm k bo h1
    cases ho : l.objs with
    | error e => rw [ho] at h4; cases h4
    | ok objs =>
      rw [ho] at h4
      cases h4
      exact ⟨l, objs, h3, ho, fun x y hx hy hr hc => C35_paint period l.base objs c h2 x y hx hy hr hc⟩

/-- **C35, rectangles.** An unrotated rectangle is one object, which covers the points closer to its
centre than half its sides. -/
theorem C35_rectangle (cx cy lx ly : ℝ) (n : ℂ) (nt np : ℕ) :
    ∃ o, (VInstr.rectangle cx cy lx ly n 0 nt np).run = .ok [o] ∧ o.n = n ∧
      ∀ x y, Covers o x y ↔ |x - cx| < lx / 2 ∧ |y - cy| < ly / 2 := by
  refine ⟨_, rectangle_zero cx cy lx ly n nt np, rfl, ?_⟩
  intro x y
  unfold Covers
  rw [abs_lt, abs_lt]
  constructor
  · rintro ⟨h1, h2, h3, h4⟩
    simp only at h1 h2 h3 h4
    exact ⟨⟨by linarith, by linarith⟩, ⟨by linarith, by linarith⟩⟩
  · rintro ⟨⟨h1, h2⟩, ⟨h3, h4⟩⟩
    exact ⟨by linarith, by linarith, by linarith, by linarith⟩

/-- **C35, right angles.** A rectangle turned by any multiple of a right angle is one object, which covers the inside
of the turned rectangle. -/
theorem C35_rectangle_right_angle (cx cy lx ly : ℝ) (n : ℂ) (k : ℤ) (nt np : ℕ) :
    ∃ o, (VInstr.rectangle cx cy lx ly n (k * (Real.pi / 2)) nt np).run = .ok [o] ∧ o.n = n ∧
      ∀ x y, Covers o x y ↔
        |Real.cos (k * (Real.pi / 2)) * (x - cx) + Real.sin (k * (Real.pi / 2)) * (y - cy)| < lx / 2 ∧
        |-Real.sin (k * (Real.pi / 2)) * (x - cx) + Real.cos (k * (Real.pi / 2)) * (y - cy)| < ly / 2 := by
  have key : ∀ a b : ℝ, ∀ x y, Covers ⟨cy - b / 2, cx - a / 2, cy + b / 2, cx + a / 2, n⟩ x y
      ↔ |x - cx| < a / 2 ∧ |y - cy| < b / 2 := by
    intro a b x y
    unfold Covers
    rw [abs_lt, abs_lt]
    constructor
    · rintro ⟨h1, h2, h3, h4⟩
      simp only at h1 h2 h3 h4
      exact ⟨⟨by linarith, by linarith⟩, ⟨by linarith, by linarith⟩⟩
    · rintro ⟨⟨h1, h2⟩, ⟨h3, h4⟩⟩
      exact ⟨by linarith, by linarith, by linarith, by linarith⟩
  have hr : (VInstr.rectangle cx cy lx ly n (k * (Real.pi / 2)) nt np).run = _ := rectangle_quarter cx cy lx ly n k nt np
  rw [hr]
  by_cases h : k % 2 = 0
  · obtain ⟨hs, hc⟩ := quarter_even h
    rw [if_pos h]
    refine ⟨_, rfl, rfl, fun x y => (key lx ly x y).trans ?_⟩
    rw [hs]
    simp only [zero_mul, add_zero, neg_zero, zero_add, abs_mul, hc, one_mul]
  · obtain ⟨hs, hc⟩ := quarter_odd h
    rw [if_neg h]
    refine ⟨_, rfl, rfl, fun x y => (key ly lx x y).trans ?_⟩
    rw [hs]
    simp only [zero_mul, add_zero, neg_mul, zero_add, abs_neg, abs_mul, hc, one_mul]
    exact and_comm

/-- Non-vacuity: a quarter turn moves the point `(0, 1)` of a flat rectangle outside it, and a half turn does not. -/
example : ∃ o o', (VInstr.rectangle 0 0 1 3 2 ((1 : ℤ) * (Real.pi / 2)) 1 1).run = .ok [o] ∧
    (VInstr.rectangle 0 0 1 3 2 ((2 : ℤ) * (Real.pi / 2)) 1 1).run = .ok [o'] ∧ ¬Covers o 0 1 ∧ Covers o' 0 1 := by
  obtain ⟨o, h, -, hc⟩ := C35_rectangle_right_angle 0 0 1 3 2 1 1 1
  obtain ⟨o', h', -, hc'⟩ := C35_rectangle_right_angle 0 0 1 3 2 2 1 1
  refine ⟨o, o', h, h', ?_, ?_⟩
  · rw [hc]; norm_num
  · rw [hc', show ((2 : ℤ) : ℝ) * (Real.pi / 2) = Real.pi by push_cast; ring, Real.sin_pi, Real.cos_pi]; norm_num

/-- Two rectangles sharing an edge, the second over the first: the layer is drawn, and both
rectangles and the base are visible where they should be. -/
example :
    let a : VObj := ⟨1, 1, 3, 3, 2⟩
    let b : VObj := ⟨1, 2, 3, 4, 5⟩
    ∃ c, drawLayer (6, 6) 1 [a, b] = .ok c ∧
      (∃ i j, InCell c (3 / 2) 2 i j ∧ c.val i j = 2) ∧
      (∃ i j, InCell c (5 / 2) 2 i j ∧ c.val i j = 5) ∧
      (∃ i j, InCell c 5 2 i j ∧ c.val i j = 1) := by
  intro a b
  obtain ⟨c, hc⟩ := C35_success (6, 6) 1 [a, b] (by norm_num) (by norm_num)
    (by simp [a, b]) (by simp)
  have key : ∀ x : ℝ, x = 3 / 2 ∨ x = 5 / 2 ∨ x = 5 →
      ∃ i j, InCell c x 2 i j ∧ PaintedAs 1 [a, b] x 2 (c.val i j) := by
    intro x hx
    obtain ⟨i, j, h1, -, h2⟩ := C35_paint (6, 6) 1 [a, b] c hc x 2
      (by rcases hx with rfl | rfl | rfl <;> norm_num) (by norm_num)
      (by simp [rowEdges, a, b, Clear]; norm_num)
      (by
        intro v hv
        simp only [colEdges, a, b, List.flatMap_cons, List.flatMap_nil, List.append_nil,
          List.cons_append, List.nil_append, List.mem_cons, List.not_mem_nil, or_false] at hv
        rcases hx with rfl | rfl | rfl <;> rcases hv with rfl | rfl | rfl | rfl <;>
          (unfold Clear; norm_num [abs_of_pos, abs_of_neg]))
    exact ⟨i, j, h1, h2⟩
  refine ⟨c, hc, ?_, ?_, ?_⟩
  · obtain ⟨i, j, h1, h2⟩ := key _ (.inl rfl)
    refine ⟨i, j, h1, ?_⟩
    rcases painted_pair h2 with ⟨h, -⟩ | ⟨-, -, h⟩ | ⟨-, h, -⟩
    · unfold Covers at h; norm_num [b] at h
    · exact h
    · unfold Covers at h; norm_num [a] at h
  · obtain ⟨i, j, h1, h2⟩ := key _ (.inr (.inl rfl))
    refine ⟨i, j, h1, ?_⟩
    rcases painted_pair h2 with ⟨-, h⟩ | ⟨h, -, -⟩ | ⟨h, -, -⟩
    · exact h
    · unfold Covers at h; norm_num [b] at h
    · unfold Covers at h; norm_num [b] at h
  · obtain ⟨i, j, h1, h2⟩ := key _ (.inr (.inr rfl))
    refine ⟨i, j, h1, ?_⟩
    rcases painted_pair h2 with ⟨h, -⟩ | ⟨-, h, -⟩ | ⟨-, -, h⟩
    · unfold Covers at h; norm_num [b] at h
    · unfold Covers at h; norm_num [a] at h
    · exact h

#print axioms C35_paint
#print axioms C35_exact
#print axioms C35_success
#print axioms C35_layers
#print axioms C35_rectangle
#print axioms C35_rectangle_right_angle

end Meent
