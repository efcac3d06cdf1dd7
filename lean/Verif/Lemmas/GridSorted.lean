import Verif.Lemmas.GridPaint

/-!
# Grids without shared edges (helper lemmas)
-/

set_option linter.unusedSimpArgs false
set_option linter.unusedVariables false

namespace Meent

open Spec

theorem sorted_insert {l : List ℝ} {v : ℝ} (hs : l.Pairwise (· < ·)) (hv : v ∉ l) :
    (l.insertIdx (pos l v) v).Pairwise (· < ·) := by
  have cut : ∃ A B, l = A ++ B ∧ (∀ a ∈ A, a < v) ∧ ∀ b ∈ B, v < b := by
    induction l with
    | nil => exact ⟨[], [], rfl, by simp, by simp⟩
    | cons a l ih =>
      rw [List.pairwise_cons] at hs
      simp only [List.mem_cons, not_or] at hv
      rcases lt_or_gt_of_ne hv.1 with h | h
      · refine ⟨[], a :: l, rfl, by simp, ?_⟩
        intro b hb
        rcases List.mem_cons.mp hb with rfl | hb
        · exact h
        · exact h.trans (hs.1 b hb)
      · obtain ⟨A, B, rfl, hA, hB⟩ := ih hs.2 hv.2
        refine ⟨a :: A, B, rfl, ?_, hB⟩
        intro b hb
        rcases List.mem_cons.mp hb with rfl | hb
        · exact h
        · exact hA b hb
  obtain ⟨A, B, rfl, hA, hB⟩ := cut
  have hp : pos (A ++ B) v = A.length :=
    le_antisymm (pos_le_cut fun b hb => by linarith [hB b hb]) (cut_le_pos hA)
  rw [hp, insertIdx_right _ _ _ _ le_rfl, Nat.sub_self, List.insertIdx_zero]
  rw [List.pairwise_append] at hs ⊢
  refine ⟨hs.1, List.pairwise_cons.mpr ⟨hB, hs.2.1⟩, ?_⟩
  intro a ha b hb
  rcases List.mem_cons.mp hb with rfl | hb
  · exact hA a ha
  · exact hs.2.2 a ha b hb

structure FreeInv (os : List VObj) (g : GridAcc) : Prop where
  pert : g.pert = 0
  objs : g.objs = os
  rows : g.rows.Pairwise (· < ·)
  cols : g.cols.Pairwise (· < ·)
  mrows : ∀ v, v ∈ g.rows ↔ v ∈ rowEdges os
  mcols : ∀ v, v ∈ g.cols ↔ v ∈ colEdges os

theorem Ins.sorted {l : List ℝ} {p v : ℝ} {r : List ℝ × ℝ × ℝ} (h : Ins l p v r)
    (hv : v ∉ l) (hs : l.Pairwise (· < ·)) : r.1.Pairwise (· < ·) := by
  rw [h.list, (h.free hv).2]
  exact sorted_insert hs hv

theorem freeInv (os : List VObj) (hr : (rowEdges os).Nodup) (hc : (colEdges os).Nodup) :
    FreeInv os (gridLayer os) := by
  induction os using List.reverseRecOn with
  | nil =>
    exact ⟨rfl, rfl, by simp [gridLayer], by simp [gridLayer], by simp [gridLayer, rowEdges],
      by simp [gridLayer, colEdges]⟩
  | append_singleton os o ih =>
    have er : rowEdges (os ++ [o]) = rowEdges os ++ [o.r0, o.r1] := by simp [rowEdges]
    have ec : colEdges (os ++ [o]) = colEdges os ++ [o.c0, o.c1] := by simp [colEdges]
    rw [er] at hr
    rw [ec] at hc
    rw [List.nodup_append] at hr hc
    obtain ⟨hr1, hr2, hr3⟩ := hr
    obtain ⟨hc1, hc2, hc3⟩ := hc
    have ih := ih hr1 hc1
    rw [gridLayer_snoc]
    set s := gridLayer os
    have n0 : o.r0 ∉ s.rows := fun h => hr3 _ ((ih.mrows _).mp h) o.r0 (by simp) rfl
    have n2 : o.c0 ∉ s.cols := fun h => hc3 _ ((ih.mcols _).mp h) o.c0 (by simp) rfl
    unfold gridStep
    simp only
    have ha := insertTop_ins s.rows s.pert o.r0 ih.pert.ge
    have fa := ha.free n0
    have sa := ha.sorted n0 ih.rows
    set a := insertTop s.rows s.pert o.r0
    have n1 : o.r1 ∉ a.1 := by
      rw [ha.mem, fa.2]
      rintro (h | h)
      · rw [h] at hr2; simp at hr2
      · exact hr3 _ ((ih.mrows _).mp h) o.r1 (by simp) rfl
    have hb := insertBot_ins a.1 a.2.1 o.r1 (ih.pert.ge.trans ha.lo)
    have fb := hb.free n1
    have sb := hb.sorted n1 sa
    set b := insertBot a.1 a.2.1 o.r1
    have hb0 : 0 ≤ b.2.1 := by rw [fb.1, fa.1]; exact ih.pert.ge
    have hc' := insertTop_ins s.cols b.2.1 o.c0 hb0
    have fc := hc'.free n2
    have sc := hc'.sorted n2 ih.cols
    set c := insertTop s.cols b.2.1 o.c0
    have n3 : o.c1 ∉ c.1 := by
      rw [hc'.mem, fc.2]
      rintro (h | h)
      · rw [h] at hc2; simp at hc2
      · exact hc3 _ ((ih.mcols _).mp h) o.c1 (by simp) rfl
    have hd := insertBot_ins c.1 c.2.1 o.c1 (hb0.trans hc'.lo)
    have fd := hd.free n3
    have sd := hd.sorted n3 sc
    set d := insertBot c.1 c.2.1 o.c1
    refine ⟨?_, ?_, sb, sd, ?_, ?_⟩
    · simp only
      rw [fd.1, fc.1, fb.1, fa.1]; exact ih.pert
    · simp only
      rw [ih.objs, fa.2, fb.2, fc.2, fd.2]
    · intro v
      simp only
      rw [hb.mem, ha.mem, fa.2, fb.2, ih.mrows, er]
      simp only [List.mem_append, List.mem_cons, List.not_mem_nil, or_false]
      tauto
    · intro v
      simp only
      rw [hd.mem, hc'.mem, fc.2, fd.2, ih.mcols, ec]
      simp only [List.mem_append, List.mem_cons, List.not_mem_nil, or_false]
      tauto

theorem finish_sorted {period : ℝ} {l : List ℝ} (hp : 0 < period) (hs : l.Pairwise (· < ·))
    (hl : ∀ v ∈ l, 0 ≤ v ∧ v ≤ period) :
    (finishEdges l period).Pairwise (· < ·) ∧
      ∀ v, v ∈ finishEdges l period ↔ v = period ∨ (0 < v ∧ v ∈ l) := by
  unfold finishEdges
  simp only
  have h1 : (if l.getLast? = some period then l else l ++ [period]).Pairwise (· < ·) ∧
      ∀ v, v ∈ (if l.getLast? = some period then l else l ++ [period]) ↔ v = period ∨ v ∈ l := by
    split_ifs with h
    · refine ⟨hs, fun v => ⟨.inr, ?_⟩⟩
      rintro (rfl | hv)
      · exact List.mem_of_mem_getLast? h
      · exact hv
    · refine ⟨?_, fun v => by simp [or_comm]⟩
      rw [List.pairwise_append]
      refine ⟨hs, by simp, ?_⟩
      intro a ha b hb
      rw [List.mem_singleton.mp hb]
      refine lt_of_le_of_ne (hl a ha).2 ?_
      rintro rfl
      apply h
      -- the largest entry is the last one
      obtain ⟨A, B, rfl⟩ := List.append_of_mem ha
      cases B with
      | nil => simp
      | cons c B =>
        exfalso
        rw [List.pairwise_append, List.pairwise_cons] at hs
        have h2 := hs.2.1.1 c (by simp)
        have h3 := (hl c (by simp)).2
        linarith
  generalize (if l.getLast? = some period then l else l ++ [period]) = l1 at h1
  obtain ⟨h1, h2⟩ := h1
  split_ifs with hh
  · cases l1 with
    | nil => simp at hh
    | cons a l1 =>
      simp only [List.head?_cons, Option.some.injEq] at hh
      subst hh
      rw [List.pairwise_cons] at h1
      refine ⟨h1.2, fun v => ?_⟩
      rw [List.tail_cons]
      constructor
      · intro hv
        rcases (h2 v).mp (by simp [hv]) with h | h
        · exact .inl h
        · exact .inr ⟨h1.1 v hv, h⟩
      · intro hv
        have h0 : v ≠ 0 := by
          rcases hv with rfl | h
          · exact hp.ne'
          · exact h.1.ne'
        have := (h2 v).mpr (hv.imp_right (·.2))
        simpa [h0] using this
  · refine ⟨h1, fun v => ?_⟩
    rw [h2]
    constructor
    · rintro (h | h)
      · exact .inl h
      · refine .inr ⟨lt_of_le_of_ne (hl v h).1 ?_, h⟩
        rintro rfl
        apply hh
        cases l1 with
        | nil => simpa using (h2 0).mpr (.inr h)
        | cons a l1 =>
          rcases List.mem_cons.mp ((h2 0).mpr (.inr h)) with h' | h'
          · simp [h']
          · have h3 := (List.pairwise_cons.mp h1).1 0 h'
            rcases (h2 a).mp (by simp) with h4 | h4
            · linarith
            · linarith [(hl a h4).1]
    · rintro (h | h)
      · exact .inl h
      · exact .inr h.2

/-- What a drawn layer is. -/
theorem draw_ok {period : ℝ × ℝ} {base : ℂ} {objs : List VObj} {c : VCell}
    (h : drawLayer period base objs = .ok c) :
    List.ofFn c.y = finishEdges (gridLayer objs).rows period.2 ∧
      List.ofFn c.x = finishEdges (gridLayer objs).cols period.1 := by
  unfold drawLayer at h
  cases hv : vectorPerLayer period base objs with
  | error e => rw [hv] at h; cases h
  | ok r =>
  rw [hv] at h
  change toVCell r.1 r.2.1 r.2.2 = _ at h
  unfold vectorPerLayer at hv
  simp only at hv
  cases hp : paintAll (finishEdges (gridLayer objs).rows period.2)
      (finishEdges (gridLayer objs).cols period.1) (gridLayer objs).objs (fun _ _ => base) with
  | error e => rw [hp] at hv; cases hv
  | ok m =>
  rw [hp] at hv
  cases hv
  unfold toVCell at h
  split_ifs at h with hh
  cases h
  simp only
  constructor
  · exact List.ofFn_get _
  · exact List.ofFn_get _

/-- Drawing succeeds when all lower and right edges are positive. -/
theorem draw_exists {period : ℝ × ℝ} (base : ℂ) {objs : List VObj} (hp1 : period.1 ≠ 0)
    (hp2 : period.2 ≠ 0) (ho : ∀ o ∈ objs, 0 < o.r1 ∧ 0 < o.c1)
    (hn : (gridLayer objs).pert < 1) : ∃ c, drawLayer period base objs = .ok c := by
  have inv := gridInv objs
  obtain ⟨m, hm⟩ := paint_ok (rows := finishEdges (gridLayer objs).rows period.2)
    (cols := finishEdges (gridLayer objs).cols period.1) (gridLayer objs).objs (by
      intro o' ho'
      obtain ⟨o, h1, h2⟩ := forall₂_right inv.near o' ho'
      have p1 := h2.sr (ho o h1).1 hn
      have p2 := h2.sc (ho o h1).2 hn
      exact ⟨mem_finish (inv.mrows o' ho').1, mem_finish (inv.mrows o' ho').2 p1.ne',
        mem_finish (inv.mcols o' ho').1, mem_finish (inv.mcols o' ho').2 p2.ne'⟩) (fun _ _ => base)
  have lr := finish_last (gridLayer objs).rows hp2
  have lc := finish_last (gridLayer objs).cols hp1
  have nr : (finishEdges (gridLayer objs).rows period.2).length ≠ 0 := by
    intro h
    rw [List.length_eq_zero_iff.mp h] at lr
    simp at lr
  have nc : (finishEdges (gridLayer objs).cols period.1).length ≠ 0 := by
    intro h
    rw [List.length_eq_zero_iff.mp h] at lc
    simp at lc
  unfold drawLayer vectorPerLayer
  simp only
  rw [hm]
  change ∃ c, toVCell _ _ _ = _
  unfold toVCell
  rw [dif_pos ⟨nr, nc⟩]
  exact ⟨_, rfl⟩

theorem inCell_unique {c : VCell} {x y : ℝ} {i i' : Fin c.ny} {j j' : Fin c.nx}
    (h : InCell c x y i j) (h' : InCell c x y i' j') : i' = i ∧ j' = j := by
  obtain ⟨h1, h2, h3, h4⟩ := h
  obtain ⟨k1, k2, k3, k4⟩ := h'
  constructor
  · rcases lt_trichotomy i' i with hl | hl | hl
    · linarith [h1 i' hl, k2 i' le_rfl]
    · exact hl
    · linarith [k1 i hl, h2 i le_rfl]
  · rcases lt_trichotomy j' j with hl | hl | hl
    · linarith [h3 j' hl, k4 j' le_rfl]
    · exact hl
    · linarith [k3 j hl, h4 j le_rfl]

theorem clear_far {objs : List VObj} {v x : ℝ} (h : Clear objs.length v x) :
    Far (gridLayer objs).pert v x := by
  have hb := (gridInv objs).bound
  have h1 : (1 : ℝ) ≤ max 1 |v| := le_max_left _ _
  unfold Clear at h
  unfold Far
  have h2 : (gridLayer objs).pert ≤ 4 * (objs.length : ℝ) / 10 ^ 14 := by
    rw [div_eq_mul_one_div]
    exact hb
  nlinarith

theorem far_zero {v x : ℝ} (h : x ≠ v) : Far 0 v x := by
  unfold Far
  rw [mul_zero]
  exact abs_pos.mpr (sub_ne_zero.mpr h.symm)

theorem mapM_getElem {α β : Type} {f : α → Res β} {l : List α} {r : List β}
    (h : l.mapM f = .ok r) (k : ℕ) (b : β) (hb : r[k]? = some b) :
    ∃ a, l[k]? = some a ∧ f a = .ok b := by
  induction l generalizing r k with
  | nil => cases h; simp at hb
  | cons a l ih =>
    rw [List.mapM_cons] at h
    cases ha : f a with
    | error e => rw [ha] at h; cases h
    | ok b0 =>
      rw [ha] at h
      cases hl : l.mapM f with
      | error e => rw [hl] at h; cases h
      | ok bs =>
        rw [hl] at h
        change Except.ok _ = _ at h
        cases h
        cases k with
        | zero =>
          simp only [List.getElem?_cons_zero, Option.some.injEq] at hb
          subst hb
          exact ⟨a, by simp, ha⟩
        | succ k => simpa using ih hl k (by simpa using hb)

theorem mapM_length {α β : Type} {f : α → Res β} {l : List α} {r : List β}
    (h : l.mapM f = .ok r) : r.length = l.length := by
  induction l generalizing r with
  | nil => cases h; rfl
  | cons a l ih =>
    rw [List.mapM_cons] at h
    cases ha : f a with
    | error e => rw [ha] at h; cases h
    | ok b0 =>
      rw [ha] at h
      cases hl : l.mapM f with
      | error e => rw [hl] at h; cases h
      | ok bs =>
        rw [hl] at h
        change Except.ok _ = _ at h
        cases h
        simp [ih hl]

theorem painted_pair {base z : ℂ} {a b : VObj} {x y : ℝ} (h : PaintedAs base [a, b] x y z) :
    (Covers b x y ∧ z = b.n) ∨ (¬ Covers b x y ∧ Covers a x y ∧ z = a.n) ∨
      (¬ Covers b x y ∧ ¬ Covers a x y ∧ z = base) := by
  rcases h with ⟨bf, o, af, he, hc, ha, hz⟩ | ⟨hn, hz⟩
  · rcases bf with _ | ⟨b0, _ | ⟨b1, bf⟩⟩
    · simp only [List.nil_append, List.cons.injEq] at he
      obtain ⟨rfl, rfl⟩ := he
      exact .inr (.inl ⟨ha b (by simp), hc, hz⟩)
    · simp only [List.cons_append, List.nil_append, List.cons.injEq] at he
      obtain ⟨rfl, rfl, rfl⟩ := he
      exact .inl ⟨hc, hz⟩
    · simp at he
  · exact .inr (.inr ⟨hn b (by simp), hn a (by simp), hz⟩)

theorem rectangle_zero (cx cy lx ly : ℝ) (n : ℂ) (nt np : ℕ) :
    (VInstr.rectangle cx cy lx ly n 0 nt np).run =
      .ok [{ r0 := cy - ly / 2, c0 := cx - lx / 2, r1 := cy + ly / 2, c1 := cx + lx / 2, n := n }] := by
  unfold VInstr.run
  simp only
  unfold rectangle
  simp only
  rw [if_pos]
  · rfl
  · have : pyMod 0 (2 * Real.pi) = 0 := by simp [pyMod]
    rw [this, abs_zero, this]
    norm_num

theorem pyMod_quarter (k : ℤ) : pyMod (k * (Real.pi / 2)) (2 * Real.pi) = ((k % 4 : ℤ) : ℝ) * (Real.pi / 2) := by
  have hp := Real.pi_pos
  unfold pyMod
  have h : (k : ℝ) = 4 * ((k / 4 : ℤ) : ℝ) + ((k % 4 : ℤ) : ℝ) := by
    exact_mod_cast (Int.mul_ediv_add_emod k 4).symm
  have h0 : (0 : ℝ) ≤ ((k % 4 : ℤ) : ℝ) := by exact_mod_cast Int.emod_nonneg k (by norm_num)
  have h1 : ((k % 4 : ℤ) : ℝ) < 4 := by exact_mod_cast Int.emod_lt_of_pos k (by norm_num)
  have hf : ⌊k * (Real.pi / 2) / (2 * Real.pi)⌋ = k / 4 := by
    rw [Int.floor_eq_iff]
    have : k * (Real.pi / 2) / (2 * Real.pi) = (k : ℝ) / 4 := by field_simp; ring
    rw [this, h]
    constructor <;> linarith
  rw [hf]
  linear_combination (Real.pi / 2) * h

theorem rectangle_quarter (cx cy lx ly : ℝ) (n : ℂ) (k : ℤ) (nt np : ℕ) :
    rectangle cx cy lx ly n (k * (Real.pi / 2)) nt np
      = .ok (if k % 2 = 0 then rectNoApprox cx cy lx ly n else rectNoApprox cx cy ly lx n) := by
  have hp := Real.two_le_pi
  unfold rectangle
  simp only
  rw [pyMod_quarter]
  have h0 : (0 : ℤ) ≤ k % 4 := Int.emod_nonneg k (by norm_num)
  have h1 : k % 4 < 4 := Int.emod_lt_of_pos k (by norm_num)
  have ha : |((k % 4 : ℤ) : ℝ) * (Real.pi / 2)| = ((k % 4 : ℤ) : ℝ) * (Real.pi / 2) :=
    abs_of_nonneg (mul_nonneg (by exact_mod_cast h0) (by linarith))
  rw [ha, pyMod_quarter, Int.emod_emod_of_dvd k (dvd_refl 4)]
  have : k % 4 = 0 ∨ k % 4 = 1 ∨ k % 4 = 2 ∨ k % 4 = 3 := by omega
  rcases this with h | h | h | h <;> rw [h]
  · rw [if_pos (by constructor <;> norm_num), if_pos (by omega)]
  · rw [if_neg (by rintro ⟨-, h2⟩; norm_num at h2; linarith), if_pos (by constructor <;> push_cast <;> linarith), if_neg (by omega)]
  · rw [if_neg (by rintro ⟨-, h2⟩; norm_num at h2; linarith), if_neg (by rintro ⟨-, h2⟩; norm_num at h2; linarith),
      if_pos (by constructor <;> push_cast <;> linarith), if_pos (by omega)]
  · rw [if_neg (by rintro ⟨-, h2⟩; norm_num at h2; linarith), if_neg (by rintro ⟨-, h2⟩; norm_num at h2; linarith),
      if_neg (by rintro ⟨-, h2⟩; norm_num at h2; linarith), if_pos (by constructor <;> push_cast <;> linarith), if_neg (by omega)]

theorem quarter_even {k : ℤ} (h : k % 2 = 0) :
    Real.sin (k * (Real.pi / 2)) = 0 ∧ |Real.cos (k * (Real.pi / 2))| = 1 := by
  obtain ⟨j, rfl⟩ := Int.dvd_of_emod_eq_zero h
  have hs : Real.sin (((2 * j : ℤ) : ℝ) * (Real.pi / 2)) = 0 := by
    rw [show ((2 * j : ℤ) : ℝ) * (Real.pi / 2) = j * Real.pi by push_cast; ring]
    exact Real.sin_int_mul_pi j
  refine ⟨hs, ?_⟩
  have := Real.sin_sq_add_cos_sq (((2 * j : ℤ) : ℝ) * (Real.pi / 2))
  rw [hs] at this
  rw [← sq_eq_sq₀ (abs_nonneg _) zero_le_one, sq_abs]
  linarith

theorem quarter_odd {k : ℤ} (h : k % 2 ≠ 0) :
    Real.cos (k * (Real.pi / 2)) = 0 ∧ |Real.sin (k * (Real.pi / 2))| = 1 := by
  obtain ⟨j, rfl⟩ : ∃ j, k = 2 * j + 1 := ⟨k / 2, by omega⟩
  have hs : Real.cos (((2 * j + 1 : ℤ) : ℝ) * (Real.pi / 2)) = 0 := by
    rw [show ((2 * j + 1 : ℤ) : ℝ) * (Real.pi / 2) = j * Real.pi + Real.pi / 2 by push_cast; ring, Real.cos_add_pi_div_two,
      Real.sin_int_mul_pi, neg_zero]
  refine ⟨hs, ?_⟩
  have := Real.sin_sq_add_cos_sq (((2 * j + 1 : ℤ) : ℝ) * (Real.pi / 2))
  rw [hs] at this
  rw [← sq_eq_sq₀ (abs_nonneg _) zero_le_one, sq_abs]
  linarith

theorem last_of_ofFn {n : ℕ} {f : Fin n → ℝ} {v : ℝ} (h : (List.ofFn f).getLast? = some v) :
    ∃ j, (∀ k, k ≤ j) ∧ f j = v := by
  cases n with
  | zero => simp at h
  | succ n =>
    refine ⟨Fin.last n, Fin.le_last, ?_⟩
    rw [List.ofFn_succ', List.concat_eq_append, List.getLast?_append] at h
    simpa using h

theorem sublist_insert (l : List ℝ) (k : ℕ) (v : ℝ) : l.Sublist (l.insertIdx k v) := by
  induction l generalizing k with
  | nil => exact List.nil_sublist _
  | cons a l ih =>
    cases k with
    | zero => simp
    | succ k => simp [ih k]

theorem finish_sublist {l : List ℝ} {w v : ℝ} (h : [w, v].Sublist l) (h0 : 0 ≠ w) (period : ℝ) :
    [w, v].Sublist (finishEdges l period) := by
  unfold finishEdges
  simp only
  have h1 : [w, v].Sublist (if l.getLast? = some period then l else l ++ [period]) := by
    split_ifs
    · exact h
    · exact h.trans (List.sublist_append_left _ _)
  generalize (if l.getLast? = some period then l else l ++ [period]) = l1 at h1
  split_ifs with hh
  · cases l1 with
    | nil => simp at hh
    | cons a l1 =>
      simp only [List.head?_cons, Option.some.injEq] at hh
      subst hh
      cases h1 with
      | cons _ h1 => exact h1
      | cons_cons _ h1 => exact absurd rfl h0
  · exact h1

theorem shared_sublist (a b : VObj) (h0 : 0 ≤ a.c0) (h1 : a.c0 < a.c1) (hab : a.c1 = b.c0) :
    ∃ w, a.c1 < w ∧ [w, a.c1].Sublist (gridLayer [a, b]).cols := by
  have hg : gridLayer [a, b] = gridStep (gridStep ⟨[], [], 0, []⟩ a) b := rfl
  have e1 : (gridStep ⟨[], [], 0, []⟩ a).cols = [a.c0, a.c1] := by
    unfold gridStep
    simp only
    have t : ∀ p, (insertTop [] p a.c0).1 = [a.c0] := by
      intro p
      have hp : bisectLeft [] a.c0 0 0 = 0 := by rw [bisectLeft]; simp
      simp [insertTop, hp]
    unfold insertBot
    simp only [t]
    have hp : bisectLeft [a.c0] a.c1 0 [a.c0].length = 1 :=
      le_antisymm (pos_le _ _) (cut_le_pos (A := [a.c0]) (B := []) (by simpa using h1))
    rw [hp]
    simp
  have p1 : 0 ≤ (gridStep ⟨[], [], 0, []⟩ a).pert := by
    have := (gridInv [a]).nonneg
    exact this
  rw [hg]
  set s := gridStep ⟨[], [], 0, []⟩ a
  unfold gridStep
  simp only
  have ha := insertTop_ins s.rows s.pert b.r0 p1
  set t := insertTop s.rows s.pert b.r0
  have hb := insertBot_ins t.1 t.2.1 b.r1 (p1.trans ha.lo)
  set u := insertBot t.1 t.2.1 b.r1
  have p2 : 0 ≤ u.2.1 := (p1.trans ha.lo).trans hb.lo
  have hu := pertUnit_pos
  have hpos : 0 < a.c1 := by linarith
  have e2 : (insertTop s.cols u.2.1 b.c0).1 =
      [a.c0, a.c1 + a.c1 * (u.2.1 + pertUnit), a.c1] := by
    unfold insertTop
    simp only
    rw [e1, ← hab]
    have hp : bisectLeft [a.c0, a.c1] a.c1 0 [a.c0, a.c1].length = 1 :=
      le_antisymm (pos_le_cut (A := [a.c0]) (B := [a.c1]) (by simp))
        (cut_le_pos (A := [a.c0]) (B := [a.c1]) (by simpa using h1))
    rw [hp, if_pos (by simp), if_neg hpos.ne']
    simp
  refine ⟨a.c1 + a.c1 * (u.2.1 + pertUnit), ?_, ?_⟩
  · have : 0 < a.c1 * (u.2.1 + pertUnit) := mul_pos hpos (by linarith)
    linarith
  · have hc := insertTop_ins s.cols u.2.1 b.c0 p2
    have hd := insertBot_ins (insertTop s.cols u.2.1 b.c0).1 (insertTop s.cols u.2.1 b.c0).2.1 b.c1
      (p2.trans hc.lo)
    rw [hd.list]
    refine List.Sublist.trans ?_ (sublist_insert _ _ _)
    rw [e2]
    exact List.sublist_cons_self _ _

end Meent
