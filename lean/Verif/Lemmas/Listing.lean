import Verif.Lemmas.MaterialFiles

/-!
# `list_materials` (helper lemmas)
-/

set_option linter.unusedSimpArgs false

namespace Meent

open Spec

theorem toUpper_idem (c : Char) : c.toUpper.toUpper = c.toUpper := by
  by_cases h : 'a'.val ≤ c.val ∧ c.val ≤ 'z'.val
  · have hv : c.toUpper.val = c.val + ('A'.val - 'a'.val) := by
      unfold Char.toUpper
      rw [dif_pos h]
    have h' : ¬ ('a'.val ≤ c.toUpper.val ∧ c.toUpper.val ≤ 'z'.val) := by
      rw [hv]
      obtain ⟨h1, h2⟩ := h
      rintro ⟨h3, -⟩
      have e1 : 'a'.val = 97 := rfl
      have e2 : 'z'.val = 122 := rfl
      have e3 : 'A'.val - 'a'.val = 4294967264 := rfl
      rw [e1, UInt32.le_iff_toNat_le] at h1
      rw [e2, UInt32.le_iff_toNat_le] at h2
      rw [e3, e1, UInt32.le_iff_toNat_le, UInt32.toNat_add] at h3
      have n1 : UInt32.toNat 97 = 97 := rfl
      have n2 : UInt32.toNat 122 = 122 := rfl
      have n3 : UInt32.toNat 4294967264 = 4294967264 := rfl
      rw [n1] at h1
      rw [n2] at h2
      rw [n1, n3] at h3
      omega
    generalize c.toUpper = d at h'
    unfold Char.toUpper
    rw [dif_neg h']
  · have hc : c.toUpper = c := by
      unfold Char.toUpper
      rw [dif_neg h]
    rw [hc, hc]

theorem upper_idem (s : Str) : upper (upper s) = upper s := by
  unfold upper
  rw [List.map_map]
  exact List.map_congr_left fun c _ => toUpper_idem c

theorem upper_not_real (s : Str) : ¬ EndsWithReal (upper s) := by
  rintro ⟨base, h⟩
  have h1 : 'r' ∈ upper s := by rw [h]; simp
  obtain ⟨c, -, hc⟩ := List.mem_map.mp h1
  have := toUpper_idem c
  rw [hc] at this
  exact absurd this (by decide)

/-- Names in a table are unique and in capitals. -/
def GoodTable (t : Table) : Prop := (t.map (·.1)).Nodup ∧ ∀ e ∈ t, upper e.1 = e.1

theorem goodTable_set {t : Table} (h : GoodTable t) (s : Str) (d : MatData) :
    GoodTable (Table.set t (upper s) d) := by
  unfold Table.set
  refine ⟨?_, ?_⟩
  · rw [List.map_cons, List.nodup_cons]
    refine ⟨?_, ?_⟩
    · rintro hm
      obtain ⟨e, he, h'⟩ := List.mem_map.mp hm
      simp only [ne_eq, decide_not, List.mem_filter, Bool.not_eq_eq_eq_not, Bool.not_true,
        decide_eq_false_iff_not] at he
      exact he.2 h'
    · exact h.1.sublist (List.filter_sublist.map _)
  · intro e he
    rcases List.mem_cons.mp he with rfl | he
    · exact upper_idem s
    · exact h.2 e (List.mem_filter.mp he).1

theorem goodTable_file {pn : PyNum} {t t' : Table} {f : MatFile} (h : GoodTable t)
    (hf : readFile pn t f = .ok t') : GoodTable t' := by
  rcases readFile_ok hf with ⟨k, d, hk, -, rfl⟩ | ⟨-, rfl⟩
  · obtain ⟨stem, -, -, -, -, -, rfl⟩ := (hk k).mpr rfl
    exact goodTable_set h stem d
  · exact h

theorem goodTable_read {pn : PyNum} {files : List MatFile} {t t' : Table} (h : GoodTable t)
    (hf : files.foldlM (readFile pn) t = .ok t') : GoodTable t' := by
  induction files generalizing t with
  | nil => cases hf; exact h
  | cons f rest ih =>
    rw [List.foldlM_cons] at hf
    cases h1 : readFile pn t f with
    | error e => rw [h1] at hf; cases hf
    | ok t1 => rw [h1] at hf; exact ih (goodTable_file h h1) hf

theorem lookup_of_mem {t : Table} (h : (t.map (·.1)).Nodup) {e : Str × MatData} (he : e ∈ t) :
    t.lookup e.1 = some e.2 := by
  induction t with
  | nil => simp at he
  | cons x t ih =>
    rw [List.map_cons, List.nodup_cons] at h
    rcases List.mem_cons.mp he with rfl | he
    · exact List.lookup_cons_self
    · have : (e.1 == x.1) = false := by
        rw [beq_eq_false_iff_ne]
        rintro h'
        exact h.1 (List.mem_map.mpr ⟨e, he, h'⟩)
      rw [show x = (x.1, x.2) from rfl, List.lookup_cons, this]
      exact ih h.2 he

theorem mem_of_lookup {t : Table} {k : Str} {d : MatData} (h : t.lookup k = some d) :
    (k, d) ∈ t := by
  induction t with
  | nil => simp at h
  | cons x t ih =>
    rw [show x = (x.1, x.2) from rfl, List.lookup_cons] at h
    by_cases hk : k = x.1
    · subst hk
      simp only [beq_self_eq_true, Option.some.injEq] at h
      subst h
      simp
    · have : (k == x.1) = false := by simpa using hk
      rw [this] at h
      exact List.mem_cons_of_mem _ (ih h)

theorem mapM_forall {α β : Type} {f : α → Res β} {l : List α} {r : List β}
    (h : l.mapM f = .ok r) : List.Forall₂ (fun a b => f a = .ok b) l r := by
  induction l generalizing r with
  | nil => cases h; exact .nil
  | cons a l ih =>
    rw [List.mapM_cons] at h
    cases ha : f a with
    | error e => rw [ha] at h; cases h
    | ok b =>
      rw [ha] at h
      cases hl : l.mapM f with
      | error e => rw [hl] at h; cases h
      | ok bs =>
        rw [hl] at h
        change Except.ok _ = _ at h
        cases h
        exact .cons ha (ih hl)

theorem listed_names {f : Str × MatData → Res Listed}
    (hf : ∀ e x, f e = .ok x → x.name = e.1) {l : List (Str × MatData)} {r : List Listed}
    (h : List.Forall₂ (fun a b => f a = .ok b) l r) : r.map (·.name) = l.map (·.1) := by
  induction h with
  | nil => rfl
  | cons h _ ih => simp [hf _ _ h, ih]

theorem list_ok {pn : PyNum} {files : List MatFile} {ls : List Listed}
    (h : list_materials pn files = .ok ls) :
    ∃ t : Table, files.foldlM (readFile pn) [] = .ok t ∧
      ls.map (·.name) = (t.mergeSort (fun a b => decide (a.1 ≤ b.1))).map (·.1) ∧
      ∀ e ∈ ls, ∃ d, (e.name, d) ∈ t ∧ d.range = .ok e.range := by
  unfold list_materials at h
  cases ht : read_material_table pn files with
  | error e => rw [ht] at h; cases h
  | ok t =>
    rw [ht] at h
    have hm := mapM_forall h
    have hx : ∀ (a : Str × MatData) (b : Listed), (do
        let r ← a.2.range
        let entry := ((read_table_comments files).lookup a.1).getD []
        Except.ok ({ name := a.1, range := r
                     source := (entry.lookup "source".toList).getD []
                     conditions := (entry.lookup "conditions".toList).getD [] } : Listed)) =
          Except.ok b → b.name = a.1 ∧ a.2.range = .ok b.range := by
      intro a b hab
      cases hr : a.2.range with
      | error e => rw [hr] at hab; cases hab
      | ok r =>
        rw [hr] at hab
        cases hab
        exact ⟨rfl, rfl⟩
    refine ⟨t, ht, listed_names (fun a b hab => (hx a b hab).1) hm, ?_⟩
    intro e he
    have : ∀ {l : List (Str × MatData)} {r : List Listed},
        List.Forall₂ (fun a b => (do
        let r ← a.2.range
        let entry := ((read_table_comments files).lookup a.1).getD []
        Except.ok ({ name := a.1, range := r
                     source := (entry.lookup "source".toList).getD []
                     conditions := (entry.lookup "conditions".toList).getD [] } : Listed)) =
          Except.ok b) l r → e ∈ r → ∃ d, (e.name, d) ∈ l ∧ d.range = .ok e.range := by
      intro l r hlr
      induction hlr with
      | nil => simp
      | cons hab _ ih =>
        intro hmem
        rcases List.mem_cons.mp hmem with rfl | hmem
        · obtain ⟨h1, h2⟩ := hx _ _ hab
          exact ⟨_, by rw [h1]; simp, h2⟩
        · obtain ⟨d, hd, hr⟩ := ih hmem
          exact ⟨d, by simp [hd], hr⟩
    obtain ⟨d, hd, hr⟩ := this hm he
    exact ⟨d, (List.mergeSort_perm _ _).mem_iff.mp hd, hr⟩

theorem sorted_names {t : Table} (h : (t.map (·.1)).Nodup) :
    ((t.mergeSort (fun a b => decide (a.1 ≤ b.1))).map (·.1)).Pairwise (· < ·) := by
  have hs : (t.mergeSort (fun a b => decide (a.1 ≤ b.1))).Pairwise
      (fun a b => decide (a.1 ≤ b.1) = true) :=
    List.pairwise_mergeSort
      (fun a b c hab hbc => by
        simp only [decide_eq_true_eq] at *
        exact List.le_trans hab hbc)
      (fun a b => by
        simp only [Bool.or_eq_true, decide_eq_true_eq]
        exact List.le_total a.1 b.1) t
  have hn : ((t.mergeSort (fun a b => decide (a.1 ≤ b.1))).map (·.1)).Nodup :=
    ((List.mergeSort_perm _ _).map _).nodup_iff.mpr h
  rw [List.pairwise_map]
  rw [List.Nodup, List.pairwise_map] at hn
  refine (hs.and hn).imp fun hab => ?_
  simp only [decide_eq_true_eq] at hab
  exact (List.le_iff_lt_or_eq.mp hab.1).resolve_right hab.2

theorem mapM_exists {α β : Type} {f : α → Res β} (l : List α) (h : ∀ a ∈ l, ∃ b, f a = .ok b) :
    ∃ r, l.mapM f = .ok r := by
  induction l with
  | nil => exact ⟨[], rfl⟩
  | cons a l ih =>
    obtain ⟨b, hb⟩ := h a (by simp)
    obtain ⟨r, hr⟩ := ih fun x hx => h x (by simp [hx])
    exact ⟨b :: r, by rw [List.mapM_cons, hb, hr]; rfl⟩

end Meent
