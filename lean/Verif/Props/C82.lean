import Verif.Props.C36

/-!
# C82: drawing objects again
-/

namespace Meent

open Spec

/-- **C82 (partial: no two objects share an edge coordinate).** Drawing leaves the objects as they were.  Layers drawn from one list
of objects come out as if each of them had a list of its own, however many there are, and exceptions included. -/
theorem C82_redraw_partial (period : ℝ × ℝ) (objs : List VObj) (hr : (rowEdges objs).Nodup) (hc : (colEdges objs).Nodup) :
    objsAfter objs = objs ∧ ∀ bases, drawShared period bases objs = bases.mapM fun b => drawLayer period b objs := by
  have e : objsAfter objs = objs := (freeInv objs hr hc).objs
  refine ⟨e, fun bases => ?_⟩
  induction bases with
  | nil => rfl
  | cons b bs ih =>
    rw [List.mapM_cons, drawShared, e, ih]
    rfl

/-- **C82, how far.** Whatever the objects, drawing moves each edge by at most four parts in `10 ^ 14` for every object, and leaves
the refractive indices and the number of objects. -/
theorem C82_drift (objs : List VObj) : List.Forall₂ (fun o o' => o'.n = o.n ∧
    Drift objs.length o.r0 o'.r0 ∧ Drift objs.length o.r1 o'.r1 ∧ Drift objs.length o.c0 o'.c0 ∧ Drift objs.length o.c1 o'.c1)
    objs (objsAfter objs) := by
  have inv := gridInv objs
  have k : ∀ {v w : ℝ}, Near (gridLayer objs).pert v w → Drift objs.length v w := by
    intro v w h
    have := h.mono inv.bound
    unfold Near pertUnit at this
    unfold Drift
    calc _ ≤ _ := this
      _ = _ := by ring
  exact inv.near.imp fun o o' h => ⟨h.n, k h.r0, k h.r1, k h.c0, k h.c1⟩

private theorem shared_after (a b : VObj) (h1 : a.c0 < a.c1) (h0 : 0 < a.c1) (ha : a.r0 ≠ a.r1) (hab : b.c0 = a.c1)
    (hr : (rowEdges [a, b]).Nodup) (hb : b.c1 ≠ a.c0 ∧ b.c1 ≠ a.c1 ∧ b.c1 ≠ a.c1 + a.c1 * pertUnit) :
    objsAfter [a, b] = [a, { b with c0 := a.c1 + a.c1 * pertUnit }] := by
  have hf : FreeInv [a] (gridLayer [a]) := freeInv [a] (by simpa [rowEdges] using ha) (by simpa [colEdges] using h1.ne)
  have hg : objsAfter [a, b] = (gridStep (gridLayer [a]) b).objs := rfl
  rw [hg]
  have ec : (gridLayer [a]).cols = [a.c0, a.c1] := by
    have hs := hf.cols
    have hm := hf.mcols
    have e : gridLayer [a] = gridStep ⟨[], [], 0, []⟩ a := rfl
    rw [e]
    unfold gridStep
    simp only
    have t : ∀ p, (insertTop [] p a.c0).1 = [a.c0] := by
      intro p
      have hp : bisectLeft [] a.c0 0 0 = 0 := by rw [bisectLeft]; simp
      simp [insertTop, hp]
    unfold insertBot
    simp only [t]
    have hp : bisectLeft [a.c0] a.c1 0 [a.c0].length = 1 :=
      le_antisymm (pos_le _ _) (cut_le_pos (A := [a.c0]) (B := []) (by simpa using h1))
    rw [hp]
    simp
  simp only [rowEdges, List.flatMap_cons, List.flatMap_nil, List.cons_append, List.nil_append, List.append_nil, List.nodup_cons,
    List.mem_cons, List.not_mem_nil, or_false, not_or] at hr
  unfold gridStep
  simp only
  have i1 := insertTop_ins (gridLayer [a]).rows (gridLayer [a]).pert b.r0 (by rw [hf.pert])
  have n1 : b.r0 ∉ (gridLayer [a]).rows := by
    rw [hf.mrows]
    simp only [rowEdges, List.flatMap_cons, List.flatMap_nil, List.append_nil, List.mem_cons, List.not_mem_nil, or_false, not_or]
    exact ⟨Ne.symm hr.1.2.1, Ne.symm hr.2.1.1⟩
  obtain ⟨p1, v1⟩ := i1.free n1
  have i2 := insertBot_ins (insertTop (gridLayer [a]).rows (gridLayer [a]).pert b.r0).1
    (insertTop (gridLayer [a]).rows (gridLayer [a]).pert b.r0).2.1 b.r1 (by rw [p1, hf.pert])
  have n2 : b.r1 ∉ (insertTop (gridLayer [a]).rows (gridLayer [a]).pert b.r0).1 := by
    rw [i1.mem, v1, hf.mrows]
    simp only [rowEdges, List.flatMap_cons, List.flatMap_nil, List.append_nil, List.mem_cons, List.not_mem_nil, or_false, not_or]
    exact ⟨Ne.symm hr.2.2.1, Ne.symm hr.1.2.2, Ne.symm hr.2.1.2⟩
  obtain ⟨p2, v2⟩ := i2.free n2
  rw [v1, v2, p2, p1, hf.pert, hf.objs, ec]
  have e3 : insertTop [a.c0, a.c1] 0 b.c0 = ([a.c0, a.c1 + a.c1 * pertUnit, a.c1], pertUnit, a.c1 + a.c1 * pertUnit) := by
    unfold insertTop
    simp only
    rw [hab]
    have hp : bisectLeft [a.c0, a.c1] a.c1 0 [a.c0, a.c1].length = 1 :=
      le_antisymm (pos_le_cut (A := [a.c0]) (B := [a.c1]) (by simp))
        (cut_le_pos (A := [a.c0]) (B := [a.c1]) (by simpa using h1))
    rw [hp, if_pos (by simp), if_neg h0.ne', zero_add]
    rfl
  rw [e3]
  have i4 := insertBot_ins [a.c0, a.c1 + a.c1 * pertUnit, a.c1] pertUnit b.c1 pertUnit_pos.le
  obtain ⟨-, v4⟩ := i4.free (by
    simp only [List.mem_cons, List.not_mem_nil, or_false, not_or]
    exact ⟨hb.1, hb.2.2, hb.2.1⟩)
  rw [v4]
  rfl

/-- **C82 fails for shared edges.** Two rectangles side by side, drawn twice.  The second drawing differs from the first, because the
first one moved an edge of the second rectangle. -/
theorem C82_negation : ∃ (objs : List VObj) (c c' : VCell), (∀ o ∈ objs, Inside (6, 6) o) ∧ objsAfter objs ≠ objs ∧
    drawShared (6, 6) [1, 1] objs = .ok [c, c'] ∧ ¬ StrictMono c.x ∧ StrictMono c'.x := by
  have hu : pertUnit = 1 / 10 ^ 14 := rfl
  let a : VObj := ⟨1, 1, 3, 2, 2⟩
  let b : VObj := ⟨2, 2, 4, 3, 5⟩
  have e : objsAfter [a, b] = [a, { b with c0 := 2 + 2 * pertUnit }] :=
    shared_after a b (by norm_num [a]) (by norm_num [a]) (by norm_num [a]) rfl (by norm_num [rowEdges, a, b])
      (by rw [hu]; norm_num [a, b])
  have pb : ∀ o o' : VObj, (gridLayer [o, o']).pert < 1 := by
    intro o o'
    have hb := (gridInv [o, o']).bound
    rw [hu] at hb
    norm_num at hb
    linarith
  obtain ⟨c, hc⟩ := draw_exists (period := (6, 6)) (objs := [a, b]) 1 (by norm_num) (by norm_num) (by simp [a, b]) (pb _ _)
  obtain ⟨c', hc'⟩ := draw_exists (period := (6, 6)) (objs := [a, { b with c0 := 2 + 2 * pertUnit }]) 1 (by norm_num) (by norm_num)
    (by simp [a, b]) (pb _ _)
  refine ⟨[a, b], c, c', by norm_num [Inside, a, b], ?_, ?_, C36_negation (6, 6) 1 a b c hc (by norm_num [Inside, a]) rfl, ?_⟩
  · rw [e]
    intro h
    have h1 := (List.cons.inj (List.cons.inj h).2).1
    have h2 := congrArg VObj.c0 h1
    rw [hu] at h2
    norm_num [b] at h2
  · simp only [drawShared, hc, e, hc']
    rfl
  · refine (C36_grid_partial (6, 6) 1 _ c' hc' (by norm_num) (by norm_num) ?_ ?_ ?_).1
    · rw [hu]
      norm_num [Inside, a, b]
    · norm_num [rowEdges, a, b]
    · rw [hu]
      norm_num [colEdges, a, b]

/-- Two overlapping rectangles without shared edges, drawn in three layers, meet the hypotheses of the partial theorem, and the
layers exist. -/
example :
    let objs : List VObj := [⟨1, 0, 3, 2, 2⟩, ⟨2, 1, 4, 3, 5⟩]
    (rowEdges objs).Nodup ∧ (colEdges objs).Nodup ∧ ∃ c, drawShared (6, 6) [1, 1, 1] objs = .ok [c, c, c] := by
  intro objs
  have hr : (rowEdges objs).Nodup := by norm_num [rowEdges, objs]
  have hc : (colEdges objs).Nodup := by norm_num [colEdges, objs]
  obtain ⟨c, h⟩ := draw_exists (period := (6, 6)) (objs := objs) 1 (by norm_num) (by norm_num) (by simp [objs]) (by
    rw [(freeInv objs hr hc).pert]; norm_num)
  refine ⟨hr, hc, c, ?_⟩
  rw [(C82_redraw_partial (6, 6) objs hr hc).2]
  simp only [List.mapM_cons, List.mapM_nil, h]
  rfl

end Meent

#print axioms Meent.C82_redraw_partial
#print axioms Meent.C82_drift
#print axioms Meent.C82_negation
