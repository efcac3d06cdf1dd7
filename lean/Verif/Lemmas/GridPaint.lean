import Verif.Lemmas.Grid

/-!
# Painting a vector layer (helper lemmas)
-/

set_option linter.unusedSimpArgs false
set_option linter.unusedVariables false

namespace Meent

open Spec

/-! ### The edge list -/

theorem cut_finish {x period : ℝ} {l : List ℝ} (h : Cut x l) (h0 : 0 < x) (hp : x < period) :
    Cut x (finishEdges l period) := by
  unfold finishEdges
  simp only
  have h1 : Cut x (if l.getLast? = some period then l else l ++ [period]) := by
    split_ifs with hl
    · exact h
    · obtain ⟨A, B, rfl, hA, hB⟩ := h
      refine ⟨A, B ++ [period], by simp, hA, ?_⟩
      intro b hb
      rcases List.mem_append.mp hb with hb | hb
      · exact hB b hb
      · rw [List.mem_singleton.mp hb]; exact hp
  generalize (if l.getLast? = some period then l else l ++ [period]) = l1 at h1
  split_ifs with hh
  · obtain ⟨A, B, rfl, hA, hB⟩ := h1
    cases A with
    | nil =>
      rw [List.nil_append] at hh
      have := hB 0 (List.mem_of_mem_head? hh)
      linarith
    | cons a A =>
      exact ⟨A, B, by simp, fun w hw => hA w (by simp [hw]), hB⟩
  · exact h1

theorem finish_last {period : ℝ} (l : List ℝ) (hp : period ≠ 0) :
    (finishEdges l period).getLast? = some period := by
  unfold finishEdges
  simp only
  have h1 : (if l.getLast? = some period then l else l ++ [period]).getLast? = some period := by
    split_ifs with hl
    · exact hl
    · simp
  generalize (if l.getLast? = some period then l else l ++ [period]) = l1 at h1
  split_ifs with hh
  · cases l1 with
    | nil => simp at hh
    | cons a l1 =>
      simp only [List.head?_cons, Option.some.injEq] at hh
      subst hh
      cases l1 with
      | nil => simp only [List.getLast?_singleton, Option.some.injEq] at h1; exact absurd h1.symm hp
      | cons b l1 => simpa using h1
  · exact h1

theorem mem_finish {period v : ℝ} {l : List ℝ} (h : v ∈ l) (h0 : v ≠ 0) :
    v ∈ finishEdges l period := by
  unfold finishEdges
  simp only
  have h1 : v ∈ (if l.getLast? = some period then l else l ++ [period]) := by
    split_ifs with hl
    · exact h
    · simp [h]
  generalize (if l.getLast? = some period then l else l ++ [period]) = l1 at h1
  split_ifs with hh
  · cases l1 with
    | nil => simp at h1
    | cons a l1 =>
      simp only [List.head?_cons, Option.some.injEq] at hh
      subst hh
      simpa [h0] using h1
  · exact h1

/-! ### Indices -/

theorem listIndex_ok {l : List ℝ} {v : ℝ} {i : ℕ} (h : listIndex l v = .ok i) :
    l[i]? = some v := by
  unfold listIndex at h
  cases hf : l.findIdx? (fun w => decide (w = v)) with
  | none => rw [hf] at h; cases h
  | some k =>
    rw [hf] at h
    cases h
    obtain ⟨hk, h1, -⟩ := List.findIdx?_eq_some_iff_getElem.mp hf
    rw [List.getElem?_eq_getElem hk]
    simpa using h1

theorem listIndex_mem {l : List ℝ} {v : ℝ} (h : v ∈ l) : ∃ i, listIndex l v = .ok i := by
  unfold listIndex
  cases hf : l.findIdx? (fun w => decide (w = v)) with
  | none =>
    have := List.findIdx?_eq_none_iff.mp hf v h
    simp at this
  | some k => exact ⟨k, rfl⟩

theorem index_cut {A B : List ℝ} {x v : ℝ} {i : ℕ} (hA : ∀ a ∈ A, a < x) (hB : ∀ b ∈ B, x < b)
    (h : listIndex (A ++ B) v = .ok i) : (i < A.length ↔ v < x) ∧ (A.length ≤ i ↔ x < v) := by
  have h1 := listIndex_ok h
  by_cases hi : i < A.length
  · rw [List.getElem?_append_left hi] at h1
    have := hA v (List.mem_of_getElem? h1)
    exact ⟨by simp [hi, this], by constructor <;> intro h' <;> [omega; linarith]⟩
  · rw [List.getElem?_append_right (by omega)] at h1
    have := hB v (List.mem_of_getElem? h1)
    exact ⟨by constructor <;> intro h' <;> [omega; linarith], by simp [this]; omega⟩

theorem begin_cut {A B : List ℝ} {x v : ℝ} {i : ℕ} (h0 : 0 < x) (hA : ∀ a ∈ A, a < x)
    (hB : ∀ b ∈ B, x < b) (h : beginIdx (A ++ B) v = .ok i) : i ≤ A.length ↔ v < x := by
  unfold beginIdx at h
  split_ifs at h with hv
  · cases h
    subst hv
    simp [h0]
  · cases hl : listIndex (A ++ B) v with
    | error e => rw [hl] at h; cases h
    | ok k =>
      rw [hl] at h
      cases h
      rw [← (index_cut hA hB hl).1]
      omega

theorem end_cut {A B : List ℝ} {x v : ℝ} {i : ℕ} (hA : ∀ a ∈ A, a < x)
    (hB : ∀ b ∈ B, x < b) (h : endIdx (A ++ B) v = .ok i) : A.length < i ↔ x < v := by
  unfold endIdx at h
  cases hl : listIndex (A ++ B) v with
  | error e => rw [hl] at h; cases h
  | ok k =>
    rw [hl] at h
    cases h
    rw [← (index_cut hA hB hl).2]
    omega

theorem paintAll_cons {rows cols : List ℝ} {o : VObj} {os : List VObj} {m r : ℕ → ℕ → ℂ}
    (h : paintAll rows cols (o :: os) m = .ok r) :
    ∃ r0 r1 c0 c1, beginIdx rows o.r0 = .ok r0 ∧ endIdx rows o.r1 = .ok r1 ∧
      beginIdx cols o.c0 = .ok c0 ∧ endIdx cols o.c1 = .ok c1 ∧
      paintAll rows cols os (paintSlice m r0 r1 c0 c1 o.n) = .ok r := by
  unfold paintAll at h
  cases h0 : beginIdx rows o.r0 with
  | error e => rw [h0] at h; cases h
  | ok r0 =>
  cases h1 : endIdx rows o.r1 with
  | error e => rw [h0, h1] at h; cases h
  | ok r1 =>
  cases h2 : beginIdx cols o.c0 with
  | error e => rw [h0, h1, h2] at h; cases h
  | ok c0 =>
  cases h3 : endIdx cols o.c1 with
  | error e => rw [h0, h1, h2, h3] at h; cases h
  | ok c1 =>
    rw [h0, h1, h2, h3] at h
    exact ⟨r0, r1, c0, c1, rfl, rfl, rfl, rfl, h⟩

/-- The cell that contains the point is painted as the specification says. -/
theorem paint_value {Ar Br Ac Bc : List ℝ} {x y : ℝ} (hx : 0 < x) (hy : 0 < y)
    (hAr : ∀ a ∈ Ar, a < y) (hBr : ∀ b ∈ Br, y < b) (hAc : ∀ a ∈ Ac, a < x)
    (hBc : ∀ b ∈ Bc, x < b) (os : List VObj) (m r : ℕ → ℕ → ℂ)
    (h : paintAll (Ar ++ Br) (Ac ++ Bc) os m = .ok r) :
    PaintedAs (m Ar.length Ac.length) os x y (r Ar.length Ac.length) := by
  induction os generalizing m with
  | nil =>
    cases h
    exact .inr ⟨by simp, rfl⟩
  | cons o os ih =>
    obtain ⟨r0, r1, c0, c1, h0, h1, h2, h3, h4⟩ := paintAll_cons h
    have hcov : (r0 ≤ Ar.length ∧ Ar.length < r1 ∧ c0 ≤ Ac.length ∧ Ac.length < c1) ↔
        Covers o x y := by
      rw [begin_cut hy hAr hBr h0, end_cut hAr hBr h1, begin_cut hx hAc hBc h2,
        end_cut hAc hBc h3]
      unfold Covers
      tauto
    rcases ih _ h4 with ⟨b, o', a, rfl, hc, ha, hz⟩ | ⟨hn, hz⟩
    · exact .inl ⟨o :: b, o', a, by simp, hc, ha, hz⟩
    · by_cases hc : Covers o x y
      · refine .inl ⟨[], o, os, by simp, hc, hn, ?_⟩
        rw [hz, paintSlice, if_pos (hcov.mpr hc)]
      · refine .inr ⟨?_, ?_⟩
        · intro o' ho'
          rcases List.mem_cons.mp ho' with rfl | ho'
          · exact hc
          · exact hn o' ho'
        · rw [hz, paintSlice, if_neg (fun h => hc (hcov.mp h))]

/-- Painting finds all edges when the lower and right edges are positive. -/
theorem paint_ok {rows cols : List ℝ} (os : List VObj)
    (hr : ∀ o ∈ os, (o.r0 ≠ 0 → o.r0 ∈ rows) ∧ o.r1 ∈ rows ∧ (o.c0 ≠ 0 → o.c0 ∈ cols) ∧
      o.c1 ∈ cols) (m : ℕ → ℕ → ℂ) : ∃ r, paintAll rows cols os m = .ok r := by
  have hb : ∀ (l : List ℝ) v, (v ≠ 0 → v ∈ l) → ∃ i, beginIdx l v = .ok i := by
    intro l v h
    unfold beginIdx
    by_cases hv : v = 0
    · rw [if_pos hv]; exact ⟨_, rfl⟩
    · rw [if_neg hv]
      obtain ⟨i, hi⟩ := listIndex_mem (h hv)
      rw [hi]
      exact ⟨_, rfl⟩
  have he : ∀ (l : List ℝ) v, v ∈ l → ∃ i, endIdx l v = .ok i := by
    intro l v h
    unfold endIdx
    obtain ⟨i, hi⟩ := listIndex_mem h
    rw [hi]
    exact ⟨_, rfl⟩
  induction os generalizing m with
  | nil => exact ⟨m, rfl⟩
  | cons o os ih =>
    obtain ⟨h0, h1, h2, h3⟩ := hr o (by simp)
    obtain ⟨r0, e0⟩ := hb _ _ h0
    obtain ⟨r1, e1⟩ := he _ _ h1
    obtain ⟨c0, e2⟩ := hb _ _ h2
    obtain ⟨c1, e3⟩ := he _ _ h3
    unfold paintAll
    rw [e0, e1, e2, e3]
    exact ih (fun o' ho' => hr o' (by simp [ho'])) _

theorem forall₂_left {α β : Type} {R : α → β → Prop} {l : List α} {l' : List β}
    (h : List.Forall₂ R l l') : ∀ a ∈ l, ∃ b ∈ l', R a b := by
  induction h with
  | nil => simp
  | cons h _ ih =>
    intro a ha
    rcases List.mem_cons.mp ha with rfl | ha
    · exact ⟨_, by simp, h⟩
    · obtain ⟨b, hb, hr⟩ := ih a ha
      exact ⟨b, by simp [hb], hr⟩

theorem forall₂_right {α β : Type} {R : α → β → Prop} {l : List α} {l' : List β}
    (h : List.Forall₂ R l l') : ∀ b ∈ l', ∃ a ∈ l, R a b := by
  induction h with
  | nil => simp
  | cons h _ ih =>
    intro a ha
    rcases List.mem_cons.mp ha with rfl | ha
    · exact ⟨_, by simp, h⟩
    · obtain ⟨b, hb, hr⟩ := ih a ha
      exact ⟨b, by simp [hb], hr⟩

/-- Moving the edges a little does not change which object covers a point out of their reach. -/
theorem painted_near {p x y : ℝ} {base z : ℂ} {os os' : List VObj}
    (hn : List.Forall₂ (NearObj p) os os')
    (hf : ∀ o ∈ os, Far p o.r0 y ∧ Far p o.r1 y ∧ Far p o.c0 x ∧ Far p o.c1 x)
    (h : PaintedAs base os' x y z) : PaintedAs base os x y z := by
  have hcov : ∀ o o', NearObj p o o' → (Far p o.r0 y ∧ Far p o.r1 y ∧ Far p o.c0 x ∧ Far p o.c1 x) →
      (Covers o' x y ↔ Covers o x y) := by
    rintro o o' hno ⟨f0, f1, f2, f3⟩
    have lt : ∀ {v w t : ℝ}, Near p v w → Far p v t → (w < t ↔ v < t) ∧ (t < w ↔ t < v) := by
      intro v w t h1 h2
      rcases same_side h1 h2 with ⟨ha, hb⟩ | ⟨ha, hb⟩
      · exact ⟨by simp [ha, hb], by constructor <;> intro <;> linarith⟩
      · exact ⟨by constructor <;> intro <;> linarith, by simp [ha, hb]⟩
    unfold Covers
    rw [(lt hno.c0 f2).1, (lt hno.c1 f3).2, (lt hno.r0 f0).1, (lt hno.r1 f1).2]
  induction hn with
  | nil => exact h
  | @cons o o' os os' hno hrest ih =>
    have hf' : ∀ o ∈ os, Far p o.r0 y ∧ Far p o.r1 y ∧ Far p o.c0 x ∧ Far p o.c1 x :=
      fun q hq => hf q (by simp [hq])
    have ho := hcov o o' hno (hf o (by simp))
    have none : (∀ q ∈ os', ¬ Covers q x y) → ∀ q ∈ os, ¬ Covers q x y := by
      intro hq q hq' hc
      obtain ⟨q', h1, h2⟩ := forall₂_left hrest q hq'
      exact hq q' h1 ((hcov q q' h2 (hf' q hq')).mpr hc)
    rcases h with ⟨b, q, a, hb, hc, ha, hz⟩ | ⟨hq, hz⟩
    · cases b with
      | nil =>
        simp only [List.nil_append, List.cons.injEq] at hb
        obtain ⟨rfl, rfl⟩ := hb
        exact .inl ⟨[], o, os, rfl, ho.mp hc, none ha, by rw [hz, hno.n]⟩
      | cons b0 b =>
        simp only [List.cons_append, List.cons.injEq] at hb
        obtain ⟨rfl, rfl⟩ := hb
        rcases ih hf' (.inl ⟨b, q, a, rfl, hc, ha, hz⟩) with ⟨b', q', a', rfl, h1, h2, h3⟩ | ⟨h1, h2⟩
        · exact .inl ⟨o :: b', q', a', rfl, h1, h2, h3⟩
        · exfalso
          obtain ⟨q0, e1, e2⟩ := forall₂_right hrest q (by simp)
          exact h1 q0 e1 ((hcov q0 q e2 (hf' q0 e1)).mp hc)
    · refine .inr ⟨?_, hz⟩
      intro q hq'
      rcases List.mem_cons.mp hq' with rfl | hq'
      · exact fun hc => hq o' (by simp) (ho.mpr hc)
      · exact none (fun r hr => hq r (by simp [hr])) q hq'

/-- The drawn layer, for a point out of reach of all edges. -/
theorem draw_value {period : ℝ × ℝ} {base : ℂ} {objs : List VObj} {c : VCell}
    (h : drawLayer period base objs = .ok c) {x y : ℝ} (hx : 0 < x ∧ x < period.1)
    (hy : 0 < y ∧ y < period.2)
    (hf : ∀ o ∈ objs, Far (gridLayer objs).pert o.r0 y ∧ Far (gridLayer objs).pert o.r1 y ∧
      Far (gridLayer objs).pert o.c0 x ∧ Far (gridLayer objs).pert o.c1 x) :
    ∃ i j, InCell c x y i j ∧ PaintedAs base objs x y (c.val i j) := by
  have inv := gridInv objs
  unfold drawLayer at h
  cases hv : vectorPerLayer period base objs with
  | error e => rw [hv] at h; cases h
  | ok r =>
  rw [hv] at h
  change toVCell r.1 r.2.1 r.2.2 = _ at h
  unfold vectorPerLayer at hv
  simp only at hv
  cases hp : paintAll (finishEdges (gridLayer objs).rows period.2)
      (finishEdges (gridLayer objs).cols period.1) (gridLayer objs).objs (fun _ _ => base) with
  | error e => rw [hp] at hv; cases hv
  | ok m =>
  rw [hp] at hv
  cases hv
  simp only at h
  obtain ⟨Ar, Br, er, hAr, hBr⟩ := cut_finish (inv.cutr y fun o ho => ⟨(hf o ho).1, (hf o ho).2.1⟩)
    hy.1 hy.2
  obtain ⟨Ac, Bc, ec, hAc, hBc⟩ := cut_finish (inv.cutc x fun o ho => (hf o ho).2.2) hx.1 hx.2
  have lr := finish_last (gridLayer objs).rows (by linarith : period.2 ≠ 0)
  have lc := finish_last (gridLayer objs).cols (by linarith : period.1 ≠ 0)
  generalize finishEdges (gridLayer objs).rows period.2 = rows at *
  generalize finishEdges (gridLayer objs).cols period.1 = cols at *
  have hz := painted_near inv.near hf (by
    rw [er, ec] at hp
    exact paint_value hx.1 hy.1 hAr hBr hAc hBc _ _ _ hp)
  have hr : Ar.length < rows.length := by
    by_contra hc
    have hB : Br = [] := by
      rw [er, List.length_append] at hc
      exact List.length_eq_zero_iff.mp (by omega)
    rw [er, hB, List.append_nil] at lr
    have := hAr _ (List.mem_of_mem_getLast? lr)
    linarith
  have hc : Ac.length < cols.length := by
    by_contra hc
    have hB : Bc = [] := by
      rw [ec, List.length_append] at hc
      exact List.length_eq_zero_iff.mp (by omega)
    rw [ec, hB, List.append_nil] at lc
    have := hAc _ (List.mem_of_mem_getLast? lc)
    linarith
  have cell : ∀ {A B l : List ℝ} {t : ℝ}, l = A ++ B → (∀ a ∈ A, a < t) → (∀ b ∈ B, t < b) →
      (∀ k : Fin l.length, (k : ℕ) < A.length → l.get k < t) ∧
      (∀ k : Fin l.length, A.length ≤ (k : ℕ) → t < l.get k) := by
    rintro A B l t rfl h1 h2
    constructor
    · intro k hk
      rw [List.get_eq_getElem, List.getElem_append_left hk]
      exact h1 _ (List.getElem_mem _)
    · intro k hk
      rw [List.get_eq_getElem, List.getElem_append_right hk]
      exact h2 _ (List.getElem_mem _)
  unfold toVCell at h
  rw [dif_pos ⟨by omega, by omega⟩] at h
  cases h
  have cr := cell er hAr hBr
  have cc := cell ec hAc hBc
  exact ⟨⟨Ar.length, hr⟩, ⟨Ac.length, hc⟩,
    ⟨fun k hk => cr.1 k hk, fun k hk => cr.2 k hk, fun k hk => cc.1 k hk, fun k hk => cc.2 k hk⟩, hz⟩

end Meent
