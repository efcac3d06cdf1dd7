import Verif.Lemmas.Pattern
import Verif.Lemmas.ConvMats
import Verif.Lemmas.Passive1D

/-!
# Drawn layers and their patterns (helper lemmas)
-/

open Matrix

namespace Meent

set_option linter.unusedSectionVars false
set_option linter.unusedSimpArgs false
set_option linter.unusedVariables false

theorem painted_eq {base : ℂ} {objs : List VObj} {x y : ℝ} {z z' : ℂ} (h : Spec.PaintedAs base objs x y z)
    (h' : Spec.PaintedAs base objs x y z') : z = z' := by
  induction objs using List.reverseRecOn with
  | nil =>
    rcases h with ⟨b, o, a, e, -⟩ | ⟨-, rfl⟩
    · cases b <;> cases e
    rcases h' with ⟨b, o, a, e, -⟩ | ⟨-, rfl⟩
    · cases b <;> cases e
    rfl
  | append_singleton os w ih =>
    have key : ∀ {z}, Spec.PaintedAs base (os ++ [w]) x y z →
        (Spec.Covers w x y ∧ z = w.n) ∨ (¬ Spec.Covers w x y ∧ Spec.PaintedAs base os x y z) := by
      intro z h
      rcases h with ⟨b, o, a, e, h1, h2, h3⟩ | ⟨h1, h2⟩
      · rcases List.eq_nil_or_concat a with rfl | ⟨a', w', rfl⟩
        · obtain ⟨rfl, e2⟩ := List.append_inj' e rfl
          cases e2
          exact Or.inl ⟨h1, h3⟩
        · rw [List.concat_eq_append, ← List.cons_append, ← List.append_assoc] at e
          obtain ⟨e1, e2⟩ := List.append_inj' e rfl
          cases e2
          exact Or.inr ⟨h2 w (by simp), Or.inl ⟨b, o, a', e1, h1, fun o' ho' => h2 o' (by simp [ho']), h3⟩⟩
      · exact Or.inr ⟨h1 w (by simp), Or.inr ⟨fun o ho => h1 o (by simp [ho]), h2⟩⟩
    rcases key h with ⟨c, rfl⟩ | ⟨c, p⟩ <;> rcases key h' with ⟨c', rfl⟩ | ⟨c', p'⟩
    · rfl
    · exact absurd c c'
    · exact absurd c' c
    · exact ih p p'

theorem painted_exists (base : ℂ) (objs : List VObj) (x y : ℝ) : ∃ z, Spec.PaintedAs base objs x y z := by
  induction objs using List.reverseRecOn with
  | nil => exact ⟨base, .inr ⟨by simp, rfl⟩⟩
  | append_singleton os w ih =>
    by_cases h : Spec.Covers w x y
    · exact ⟨w.n, .inl ⟨os, w, [], rfl, h, by simp, rfl⟩⟩
    · obtain ⟨z, hz⟩ := ih
      refine ⟨z, ?_⟩
      rcases hz with ⟨b, o, a, rfl, h1, h2, h3⟩ | ⟨h1, h2⟩
      · refine .inl ⟨b, o, a ++ [w], by simp, h1, fun o' ho' => ?_, h3⟩
        rcases List.mem_append.mp ho' with ho' | ho'
        · exact h2 o' ho'
        · rw [List.mem_singleton.mp ho']; exact h
      · refine .inr ⟨fun o ho => ?_, h2⟩
        rcases List.mem_append.mp ho with ho | ho
        · exact h1 o ho
        · rw [List.mem_singleton.mp ho]; exact h

theorem painted_map {base z : ℂ} {objs : List VObj} {x y x' y' : ℝ} (g : VObj → VObj) (hg : ∀ o, (g o).n = o.n)
    (hc : ∀ o ∈ objs, Spec.Covers (g o) x y ↔ Spec.Covers o x' y') (h : Spec.PaintedAs base objs x' y' z) : Spec.PaintedAs base (objs.map g) x y z := by
  rcases h with ⟨b, o, a, rfl, h1, h2, h3⟩ | ⟨h1, h2⟩
  · refine .inl ⟨b.map g, g o, a.map g, by simp, (hc o (by simp)).mpr h1, ?_, by rw [hg, h3]⟩
    intro o' ho'
    obtain ⟨w, hw, rfl⟩ := List.mem_map.mp ho'
    exact fun h => h2 w hw ((hc w (by simp [hw])).mp h)
  · refine .inr ⟨?_, h2⟩
    intro o' ho'
    obtain ⟨w, hw, rfl⟩ := List.mem_map.mp ho'
    exact fun h => h1 w hw ((hc w hw).mp h)

theorem le_leftEnd {k : ℕ} [NeZero k] {x : Fin k → ℝ} (h : StrictMono x) {i j : Fin k} (hij : i < j) : x i ≤ Spec.leftEnd x j := by
  unfold Spec.leftEnd
  have h0 : j ≠ 0 := by
    rintro rfl
    exact absurd hij (by simp [Fin.lt_def])
  rw [if_neg h0]
  refine h.monotone ?_
  obtain ⟨k', hk⟩ : ∃ k', k = k' + 1 := ⟨k - 1, by have := NeZero.pos k; omega⟩
  subst hk
  have := Fin.val_sub_one_of_ne_zero h0
  rw [Fin.le_def, this]
  have : i.val < j.val := hij
  omega

theorem leftEnd_nonneg {k : ℕ} [NeZero k] {x : Fin k → ℝ} (h : ∀ j, 0 < x j) (j : Fin k) : 0 ≤ Spec.leftEnd x j := by
  unfold Spec.leftEnd
  split_ifs
  · exact le_rfl
  · exact (h _).le

theorem eq_last {k : ℕ} [NeZero k] {j : Fin k} (h : ∀ i, i ≤ j) : j = -1 := by
  obtain ⟨k', hk⟩ : ∃ k', k = k' + 1 := ⟨k - 1, by have := NeZero.pos k; omega⟩
  subst hk
  rw [Fin.neg_one_eq_last']
  exact le_antisymm (Fin.le_last _) (h _)

theorem le_last {k : ℕ} [NeZero k] (j : Fin k) : j ≤ -1 := by
  obtain ⟨k', hk⟩ : ∃ k', k = k' + 1 := ⟨k - 1, by have := NeZero.pos k; omega⟩
  subst hk
  rw [Fin.neg_one_eq_last']
  exact Fin.le_last _

theorem conv_shown {la : LinAlg} {period : ℝ × ℝ} {base : ℂ} {objs : List VObj} {c : VCell} (hP : 0 < period.1) (hQ : 0 < period.2)
    (h : drawLayer period base objs = .ok c) (hin : ∀ o ∈ objs, Spec.Inside period o) (hnr : (Spec.rowEdges objs).Nodup) (hnc : (Spec.colEdges objs).Nodup)
    {F : ℝ → ℝ → ℂ} (hF : Spec.ShowsPattern period base objs F) {fx fy : ℕ} {cv : Conv (FlatIdx fx fy)} (hc : convContinuous la c fx fy false = .ok cv) :
    Spec.ContinuousConv (fun y x => F y x ^ 2) period.2 period.1 cv := by
  obtain ⟨sx, sy, mx, my⟩ := C36_grid_partial period base objs c h hP hQ hin hnr hnc
  obtain ⟨⟨j, hj, ej⟩, i, hi, ei⟩ := C36_period period base objs c h hP.ne' hQ.ne'
  have ej : c.x (-1) = period.1 := by rw [← eq_last hj, ej]
  have ei : c.y (-1) = period.2 := by rw [← eq_last hi, ei]
  have px : ∀ j, 0 < c.x j := fun j => by
    rcases (mx _).mp ⟨j, rfl⟩ with h | h
    · rw [h]; exact hP
    · exact h.1
  have py : ∀ i, 0 < c.y i := fun i => by
    rcases (my _).mp ⟨i, rfl⟩ with h | h
    · rw [h]; exact hQ
    · exact h.1
  have := C19_vector_matrices la c (ordered_of_strictMono sx px) (ordered_of_strictMono sy py) (px _).ne' (py _).ne' fx fy cv hc (fun y x => F y x ^ 2) ?_
  · rwa [ei, ej] at this
  intro i j v t hv1 hv2 ht1 ht2
  have hcell : Spec.InCell c t v i j :=
    ⟨fun k hk => (le_leftEnd sy hk).trans_lt hv1, fun k hk => hv2.trans_le (sy.monotone hk),
      fun k hk => (le_leftEnd sx hk).trans_lt ht1, fun k hk => ht2.trans_le (sx.monotone hk)⟩
  have ht : 0 < t ∧ t < period.1 := ⟨(leftEnd_nonneg px j).trans_lt ht1, by rw [← ej]; exact hcell.2.2.2 _ (le_last _)⟩
  have hv : 0 < v ∧ v < period.2 := ⟨(leftEnd_nonneg py i).trans_lt hv1, by rw [← ei]; exact hcell.2.1 _ (le_last _)⟩
  have nv : v ∉ Spec.rowEdges objs := fun hm => by
    obtain ⟨i', e⟩ := (my v).mpr (.inr ⟨hv.1, hm⟩)
    rcases lt_or_ge i' i with hl | hl
    · exact absurd e (hcell.1 _ hl).ne
    · exact absurd e (hcell.2.1 _ hl).ne'
  have nt : t ∉ Spec.colEdges objs := fun hm => by
    obtain ⟨i', e⟩ := (mx t).mpr (.inr ⟨ht.1, hm⟩)
    rcases lt_or_ge i' j with hl | hl
    · exact absurd e (hcell.2.2.1 _ hl).ne
    · exact absurd e (hcell.2.2.2 _ hl).ne'
  obtain ⟨i', j', -, hu, hp⟩ := C35_exact period base objs c h t v ht hv hnr hnc nv nt
  obtain ⟨rfl, rfl⟩ := hu i j hcell
  simp only
  rw [painted_eq (hF t v ht hv nv nt) hp]

theorem convMats_drawn {la : LinAlg} {s : Settings} (hp : s.p.use_pinv = false) {ls : List VLayer} (hu : s.ucell = .vector ls) {cs} :
    convMats la s = .ok cs ↔ List.Forall₂ (fun (l : VLayer) cv => ∃ objs c, l.objs = .ok objs ∧ drawLayer s.p.period l.base objs = .ok c ∧
      convContinuous la c s.p.fto.1 s.p.fto.2 false = .ok cv) ls cs := by
  unfold convMats modeling_vector_instruction to_conv_mat_vector
  rw [hu, hp]
  simp only [Except.bind_ok, mapM_ok]
  clear hu
  constructor
  · rintro ⟨cells, ⟨os, h1, h2⟩, h3⟩
    induction h1 generalizing cells cs with
    | nil => cases h2; cases h3; exact .nil
    | cons a _ ih =>
      cases h2 with
      | cons b hb =>
        cases h3 with
        | cons d hd =>
          obtain ⟨o, ho, e⟩ := a
          obtain rfl := Except.ok.inj e
          exact .cons ⟨o, _, ho, b, d⟩ (ih _ hd hb)
  · intro h
    induction h with
    | nil => exact ⟨[], ⟨[], .nil, .nil⟩, .nil⟩
    | cons a _ ih =>
      obtain ⟨objs, c, h1, h2, h3⟩ := a
      obtain ⟨cells, ⟨os, i1, i2⟩, i3⟩ := ih
      exact ⟨c :: cells, ⟨(_, objs) :: os, .cons ⟨objs, h1, rfl⟩ i1, .cons h2 i2⟩, .cons h3 i3⟩

theorem list_displaced {la la' : LinAlg} {fx fy : ℕ} {period : ℝ × ℝ} (hP : 0 < period.1) (hQ : 0 < period.2) {dx dy : ℝ} {ls ls' : List VLayer}
    (hd : List.Forall₂ (Spec.Displaced period dx dy) ls ls') {cs cs' : List (Conv (FlatIdx fx fy))}
    (h : List.Forall₂ (fun (l : VLayer) cv => ∃ objs c, l.objs = .ok objs ∧ drawLayer period l.base objs = .ok c ∧ convContinuous la c fx fy false = .ok cv) ls cs)
    (h' : List.Forall₂ (fun (l : VLayer) cv => ∃ objs c, l.objs = .ok objs ∧ drawLayer period l.base objs = .ok c ∧ convContinuous la' c fx fy false = .ok cv) ls' cs') :
    cs' = cs.map (Conv.gauge (shiftD (moveW dx period.1) (moveW dy period.2))) := by
  induction hd generalizing cs cs' with
  | nil => cases h; cases h'; rfl
  | cons a _ ih =>
    cases h with
    | cons b hb =>
      cases h' with
      | cons b' hb' =>
        rw [List.map_cons, ← ih hb hb']
        congr 1
        obtain ⟨objs, objs', F, d, d', per, sh, sh'⟩ := a
        obtain ⟨o, c, e1, e2, e3⟩ := b
        obtain ⟨o', c', e1', e2', e3'⟩ := b'
        obtain rfl := Except.ok.inj (e1.symm.trans d.drawn)
        obtain rfl := Except.ok.inj (e1'.symm.trans d'.drawn)
        exact conv_displaced (E := fun y x => F y x ^ 2) hP hQ (fun y x => by simp only [(per y x).1]) (fun y x => by simp only [(per y x).2]) dx dy
          (conv_shown hP hQ e2 d.inside d.rows d.cols sh e3) (conv_shown hP hQ e2' d'.inside d'.rows d'.cols sh' e3')

theorem convMats_displaced {la la' : LinAlg} {s : Settings} (hp : s.p.use_pinv = false) {ls ls' : List VLayer} (hu : s.ucell = .vector ls)
    (hP : 0 < s.p.period.1) (hQ : 0 < s.p.period.2) {dx dy : ℝ} (hd : List.Forall₂ (Spec.Displaced s.p.period dx dy) ls ls') {cs cs'}
    (h : convMats la s = .ok cs) (h' : convMats la' (Spec.withUcell s (.vector ls')) = .ok cs') :
    cs' = cs.map (Conv.gauge (shiftD (moveW dx s.p.period.1) (moveW dy s.p.period.2))) :=
  list_displaced hP hQ hd ((convMats_drawn hp hu).mp h) ((convMats_drawn (s := Spec.withUcell s (.vector ls')) hp rfl).mp h')

/-! ### Moved rectangles -/

/-- The object moved by `(dx, dy)`. -/
def moveObj (dx dy : ℝ) (o : VObj) : VObj := ⟨o.r0 + dy, o.c0 + dx, o.r1 + dy, o.c1 + dx, o.n⟩

theorem moved_objs {dx dy : ℝ} {l : VLayer} (h : Spec.Parallel l) {objs : List VObj} (ho : l.objs = .ok objs) :
    (Spec.moveLayer dx dy l).objs = .ok (objs.map (moveObj dx dy)) := by
  unfold VLayer.objs Spec.moveLayer at *
  simp only [Except.bind_ok, mapM_ok] at ho ⊢
  obtain ⟨os, h1, e⟩ := ho
  obtain rfl := Except.ok.inj e
  refine ⟨os.map (List.map (moveObj dx dy)), ?_, by rw [List.map_flatten]⟩
  unfold Spec.Parallel at h
  clear e
  revert h
  generalize l.instrs = is at h1
  intro h
  induction h1 with
  | nil => exact .nil
  | cons a _ ih =>
    refine .cons ?_ (ih fun i hi => h i (List.mem_cons_of_mem _ hi))
    obtain ⟨cx, cy, lx, ly, n, k, nt, np, rfl⟩ := h _ List.mem_cons_self
    simp only [Spec.moveInstr, VInstr.run, rectangle_quarter, Except.ok.injEq] at a ⊢
    rw [← a]
    split_ifs
    all_goals
      simp only [rectNoApprox, moveObj, List.map_cons, List.map_nil, List.cons.injEq, VObj.mk.injEq, and_true]
      refine ⟨?_, ?_, ?_, ?_⟩ <;> ring

/-- The number in `[0, p)` that differs from `t` by a multiple of `p`. -/
noncomputable def redMod (p t : ℝ) : ℝ := t - p * ⌊t / p⌋

theorem redMod_add {p : ℝ} (hp : 0 < p) (t : ℝ) : redMod p (t + p) = redMod p t := by
  unfold redMod
  rw [add_div, div_self hp.ne', Int.floor_add_one]
  push_cast
  ring

theorem redMod_id {p t : ℝ} (h0 : 0 ≤ t) (h1 : t < p) : redMod p t = t := by
  unfold redMod
  have hp : 0 < p := h0.trans_lt h1
  have : ⌊t / p⌋ = 0 := Int.floor_eq_zero_iff.mpr ⟨div_nonneg h0 hp.le, (div_lt_one hp).mpr h1⟩
  rw [this]
  simp

/-- Along one axis: a point is between two moved edges just if the moved-back point, taken modulo the period, is between the edges. -/
theorem between_iff {p a b d t : ℝ} (ht0 : 0 < t) (ht1 : t < p) (ha : 0 ≤ a) (hb : b ≤ p) (ha' : 0 ≤ a + d) (hb' : b + d ≤ p) :
    a + d < t ∧ t < b + d ↔ a < redMod p (t - d) ∧ redMod p (t - d) < b := by
  have hp : 0 < p := ht0.trans ht1
  constructor
  · rintro ⟨h1, h2⟩
    rw [redMod_id (by linarith) (by linarith)]
    exact ⟨by linarith, by linarith⟩
  · rintro ⟨h1, h2⟩
    unfold redMod at h1 h2
    set k := ⌊(t - d) / p⌋ with hk
    have : k = 0 := by
      by_contra hne
      rcases lt_or_gt_of_ne hne with hlt | hgt
      · have : (k : ℝ) ≤ -1 := by exact_mod_cast (by omega : k ≤ -1)
        nlinarith
      · have : (1 : ℝ) ≤ k := by exact_mod_cast (by omega : 1 ≤ k)
        nlinarith
    rw [this] at h1 h2
    simp only [Int.cast_zero, mul_zero, sub_zero] at h1 h2
    exact ⟨by linarith, by linarith⟩

theorem moved_displaced {period : ℝ × ℝ} (hP : 0 < period.1) (hQ : 0 < period.2) {dx dy : ℝ} {l : VLayer} (h : Spec.Parallel l) {objs : List VObj}
    (h1 : Spec.DistinctEdges period l objs) (h2 : ∀ o ∈ objs, Spec.Inside period (moveObj dx dy o)) :
    Spec.Displaced period dx dy l (Spec.moveLayer dx dy l) := by
  choose F hF using fun x y => painted_exists l.base objs x y
  have er : Spec.rowEdges (objs.map (moveObj dx dy)) = (Spec.rowEdges objs).map (· + dy) := by
    unfold Spec.rowEdges
    rw [List.map_flatMap, List.flatMap_map]
    rfl
  have ec : Spec.colEdges (objs.map (moveObj dx dy)) = (Spec.colEdges objs).map (· + dx) := by
    unfold Spec.colEdges
    rw [List.map_flatMap, List.flatMap_map]
    rfl
  refine ⟨objs, objs.map (moveObj dx dy), fun y x => F (redMod period.1 x) (redMod period.2 y), h1, ⟨moved_objs h h1.drawn, ?_, ?_, ?_⟩, ?_, ?_, ?_⟩
  · intro o ho
    obtain ⟨w, hw, rfl⟩ := List.mem_map.mp ho
    exact h2 w hw
  · rw [er]; exact h1.rows.map (add_left_injective dy)
  · rw [ec]; exact h1.cols.map (add_left_injective dx)
  · exact fun y x => ⟨by simp only [redMod_add hQ], by simp only [redMod_add hP]⟩
  · intro x y hx hy _ _
    simp only
    rw [redMod_id hx.1.le hx.2, redMod_id hy.1.le hy.2]
    exact hF _ _
  · intro x y hx hy _ _
    refine painted_map (moveObj dx dy) (fun o => rfl) (fun o ho => ?_) (hF _ _)
    obtain ⟨a1, a2, a3, a4, a5, a6⟩ := h1.inside o ho
    obtain ⟨b1, b2, b3, b4, b5, b6⟩ := h2 o ho
    unfold Spec.Covers
    have e1 := between_iff (d := dx) hx.1 hx.2 a1 a3 b1 b3
    have e2 := between_iff (d := dy) hy.1 hy.2 a4 a6 b4 b6
    simp only [moveObj]
    tauto

end Meent
