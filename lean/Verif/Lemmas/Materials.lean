import Verif.Spec.Materials

/-!
# Tables, names and substitution (helper lemmas)
-/

set_option linter.unusedSimpArgs false

namespace Meent

open Spec

/-! ### Names -/

theorem drop_append_six (base : Str) :
    (base ++ "__real".toList).drop ((base ++ "__real".toList).length - 6) = "__real".toList := by
  have : (base ++ "__real".toList).length - 6 = base.length := by
    simp
  rw [this, List.drop_left]

theorem take_append_six (base : Str) :
    (base ++ "__real".toList).take ((base ++ "__real".toList).length - 6) = base := by
  have : (base ++ "__real".toList).length - 6 = base.length := by
    simp
  rw [this, List.take_left]

theorem endsWithReal_iff (s : Str) :
    EndsWithReal s ↔ s.drop (s.length - 6) = "__real".toList := by
  constructor
  · rintro ⟨base, rfl⟩
    exact drop_append_six base
  · intro h
    exact ⟨s.take (s.length - 6), by rw [← h, List.take_append_drop]⟩

theorem selectMaterial_ok (m : MatArg) (t : Table) (d : MatData) (b : Bool) :
    selectMaterial m t = .ok (d, b) ↔ Denotes t m d b := by
  constructor
  · intro h
    cases m with
    | spec s =>
      simp only [selectMaterial, Except.ok.injEq, Prod.mk.injEq] at h
      obtain ⟨rfl, rfl⟩ := h
      exact .spec s
    | name s =>
      simp only [selectMaterial] at h
      by_cases hs : s.drop (s.length - 6) = "__real".toList
      · rw [if_pos hs] at h
        obtain ⟨base, rfl⟩ := (endsWithReal_iff s).mpr hs
        rw [take_append_six] at h
        split at h
        · next d' hd =>
          simp only [Except.ok.injEq, Prod.mk.injEq] at h
          obtain ⟨rfl, rfl⟩ := h
          exact .real base _ hd
        · cases h
      · rw [if_neg hs] at h
        split at h
        · next d' hd =>
          simp only [Except.ok.injEq, Prod.mk.injEq] at h
          obtain ⟨rfl, rfl⟩ := h
          exact .plain s _ (fun h' => hs ((endsWithReal_iff s).mp h')) hd
        · cases h
  · rintro (s | ⟨s, d, hs, hd⟩ | ⟨s, d, hd⟩)
    · rfl
    · simp only [selectMaterial]
      rw [if_neg (fun h => hs ((endsWithReal_iff s).mpr h)), hd]
    · simp only [selectMaterial]
      rw [if_pos (drop_append_six s), take_append_six, hd]

theorem selectMaterial_plain {s : Str} (t : Table) (hs : ¬ EndsWithReal s) :
    selectMaterial (.name s) t = match t.lookup (upper s) with
      | some d => .ok (d, false)
      | none => .error .keyError := by
  simp only [selectMaterial]
  rw [if_neg (fun h => hs ((endsWithReal_iff s).mpr h))]
  rfl

theorem selectMaterial_real (s : Str) (t : Table) :
    selectMaterial (.name (s ++ "__real".toList)) t = match t.lookup (upper s) with
      | some d => .ok (d, true)
      | none => .error .keyError := by
  simp only [selectMaterial]
  rw [if_pos (drop_append_six s), take_append_six]
  rfl

/-! ### Range -/

theorem range_ok {d : MatData} (h : HasRange d) :
    ∃ r, d.range = .ok r ∧ ∀ w : ℝ, OutOfRange w d ↔ ((w : EReal) < r.1 ∨ r.2 < (w : EReal)) := by
  cases d with
  | flat => exact h.elim
  | spec s =>
    obtain ⟨⟨lo, hi⟩, hr⟩ := Option.ne_none_iff_exists'.mp h
    refine ⟨(lo, hi), by simp [MatData.range, hr], fun w => ?_⟩
    constructor
    · rintro ⟨lo', hi', h1, h2⟩
      rw [hr] at h1
      cases h1
      exact h2
    · intro h2
      exact ⟨lo, hi, hr, h2⟩
  | table rows =>
    have hne : rows.map (·.1) ≠ [] := fun h' => h (List.map_eq_nil_iff.mp h')
    obtain ⟨lo, hlo⟩ := Option.ne_none_iff_exists'.mp
      (fun h' => hne (List.min?_eq_none_iff.mp h'))
    obtain ⟨hi, hhi⟩ := Option.ne_none_iff_exists'.mp
      (fun h' => hne (List.max?_eq_none_iff.mp h'))
    refine ⟨(lo, hi), by simp [MatData.range, hlo, hhi], fun w => ?_⟩
    rw [List.min?_eq_some_iff] at hlo
    rw [List.max?_eq_some_iff] at hhi
    simp only [OutOfRange, EReal.coe_lt_coe_iff]
    refine or_congr ?_ ?_
    · constructor
      · intro h'
        obtain ⟨r, hr, hr'⟩ := List.mem_map.mp hlo.1
        exact hr' ▸ h' r hr
      · intro h' r hr
        exact lt_of_lt_of_le h' (hlo.2 r.1 (List.mem_map.mpr ⟨r, hr, rfl⟩))
    · constructor
      · intro h'
        obtain ⟨r, hr, hr'⟩ := List.mem_map.mp hhi.1
        exact hr' ▸ h' r hr
      · intro h' r hr
        exact lt_of_le_of_lt (hhi.2 r.1 (List.mem_map.mpr ⟨r, hr, rfl⟩)) h'

theorem warn_ok {d : MatData} (h : HasRange d) (wl : List ℝ) :
    ∃ b, warn_if_out_of_range d wl = .ok b ∧ (b = true ↔ ∃ w ∈ wl, OutOfRange w d) := by
  obtain ⟨r, hr, hro⟩ := range_ok h
  unfold warn_if_out_of_range
  by_cases hwl : wl = []
  · subst hwl
    exact ⟨false, rfl, by simp⟩
  · obtain ⟨lo, hlo⟩ := Option.ne_none_iff_exists'.mp
      (fun h' => hwl (List.min?_eq_none_iff.mp h'))
    obtain ⟨hi, hhi⟩ := Option.ne_none_iff_exists'.mp
      (fun h' => hwl (List.max?_eq_none_iff.mp h'))
    rw [hlo, hhi]
    refine ⟨_, by rw [hr]; rfl, ?_⟩
    rw [List.min?_eq_some_iff] at hlo
    rw [List.max?_eq_some_iff] at hhi
    simp only [decide_eq_true_eq, hro]
    constructor
    · rintro (h' | h')
      · exact ⟨lo, hlo.1, .inl h'⟩
      · exact ⟨hi, hhi.1, .inr h'⟩
    · rintro ⟨w, hw, h' | h'⟩
      · exact .inl (lt_of_le_of_lt (EReal.coe_le_coe_iff.mpr (hlo.2 w hw)) h')
      · exact .inr (lt_of_lt_of_le h' (EReal.coe_le_coe_iff.mpr (hhi.2 w hw)))

theorem hasRange_of_ok {d : MatData} {r : EReal × EReal} (h : d.range = .ok r) : HasRange d := by
  cases d with
  | flat => simp [MatData.range] at h
  | spec s =>
    intro hs
    simp [MatData.range, hs] at h
  | table rows =>
    rintro rfl
    simp [MatData.range] at h

theorem warn_true {d : MatData} {wl : List ℝ} (h : warn_if_out_of_range d wl = .ok true) :
    HasRange d := by
  unfold warn_if_out_of_range at h
  split at h
  · cases hr : d.range with
    | error e => rw [hr] at h; cases h
    | ok r => exact hasRange_of_ok hr
  · cases h

/-! ### Interpolation -/

theorem npInterp_pair {rows : List (ℝ × ℝ × ℝ)} (hne : rows ≠ []) (ha : Ascending rows) (w : ℝ) :
    ∃ n k, npInterp (rows.map fun r => (r.1, r.2.1)) w = .ok n ∧
      npInterp (rows.map fun r => (r.1, r.2.2)) w = .ok k ∧ Interpolates rows w n k := by
  cases rows with
  | nil => exact absurd rfl hne
  | cons a rest =>
    simp only [List.map_cons, npInterp]
    by_cases hw : w < a.1
    · rw [if_pos hw, if_pos hw]
      exact ⟨_, _, rfl, rfl, .below a rest rfl hw⟩
    · rw [if_neg hw, if_neg hw]
      refine ⟨_, _, rfl, rfl, ?_⟩
      push Not at hw
      suffices H : ∀ (before : List (ℝ × ℝ × ℝ)) (rows : List (ℝ × ℝ × ℝ)),
          rows = before ++ a :: rest → Interpolates rows w
            (interpFrom (a.1, a.2.1) (rest.map fun r => (r.1, r.2.1)) w)
            (interpFrom (a.1, a.2.2) (rest.map fun r => (r.1, r.2.2)) w) from
        H [] _ rfl
      clear hne
      induction rest generalizing a with
      | nil =>
        intro before rows hr
        simp only [List.map_nil, interpFrom]
        rcases hw.eq_or_lt with h | h
        · exact .exact _ _ before [] (by rw [hr, ← h]) (by simp)
        · exact .above a before hr h
      | cons b rest ih =>
        intro before rows hr
        simp only [List.map_cons, interpFrom]
        by_cases hb : b.1 ≤ w
        · rw [if_pos hb, if_pos hb]
          exact ih b (List.Pairwise.of_cons ha) hb (before ++ [a]) rows (by simp [hr])
        · rw [if_neg hb, if_neg hb]
          push Not at hb
          rcases hw.eq_or_lt with h | h
          · have hl : ∀ r ∈ b :: rest, r.1 ≠ w := by
              intro r hr
              have : b.1 ≤ r.1 := by
                rcases List.mem_cons.mp hr with rfl | hr
                · exact le_rfl
                · exact (List.pairwise_cons.mp (List.Pairwise.of_cons ha)).1 r hr
              exact fun e => by linarith
            have : Interpolates rows w a.2.1 a.2.2 :=
              .exact _ _ before (b :: rest) (by rw [hr, ← h]) hl
            rw [← h]
            simpa [← h] using this
          · have := Interpolates.between (rows := rows) a b ⟨before, rest, hr⟩ h hb
            unfold onLine at this
            convert this using 1 <;> ring

theorem indexOf_table (sp : SciPy) {rows : List (ℝ × ℝ × ℝ)} (hne : rows ≠ [])
    (ha : Ascending rows) (wl : List ℝ) :
    ∃ zs, indexOf sp (.table rows) false wl = .ok zs ∧
      List.Forall₂ (fun w z => ∃ n k, Interpolates rows w n k ∧
        z = some ((n : ℂ) - Complex.I * k)) wl zs := by
  suffices H : ∃ ns ks, wl.mapM (npInterp (rows.map fun r => (r.1, r.2.1))) = .ok ns ∧
      wl.mapM (npInterp (rows.map fun r => (r.1, r.2.2))) = .ok ks ∧
      List.Forall₂ (fun w z => ∃ n k, Interpolates rows w n k ∧
        z = some ((n : ℂ) - Complex.I * k)) wl
        (List.zipWith (fun (a b : ℝ) => some ((a : ℂ) - Complex.I * b)) ns ks) by
    obtain ⟨ns, ks, h1, h2, h3⟩ := H
    refine ⟨_, ?_, h3⟩
    simp only [indexOf, h1, h2]
    rfl
  induction wl with
  | nil => exact ⟨[], [], rfl, rfl, .nil⟩
  | cons w wl ih =>
    obtain ⟨ns, ks, h1, h2, h3⟩ := ih
    obtain ⟨n, k, hn, hk, hi⟩ := npInterp_pair hne ha w
    refine ⟨n :: ns, k :: ks, ?_, ?_, .cons ⟨n, k, hi, rfl⟩ h3⟩
    · rw [List.mapM_cons, hn, h1]; rfl
    · rw [List.mapM_cons, hk, h2]; rfl

theorem find_of_denotes (sp : SciPy) {m : MatArg} {t : Table} {d : MatData} {b : Bool}
    (hd : Denotes t m d b) (hr : HasRange d) (wl : List ℝ) :
    (find_nk_index sp m t wl).value = indexOf sp d b wl := by
  obtain ⟨w, hw, -⟩ := warn_ok hr wl
  unfold find_nk_index
  rw [(selectMaterial_ok _ _ _ _).mpr hd]
  simp only [hw]

theorem onLine_between {x₀ y₀ x₁ y₁ x : ℝ} (h₀ : x₀ < x) (h₁ : x < x₁) :
    min y₀ y₁ ≤ onLine x₀ y₀ x₁ y₁ x ∧ onLine x₀ y₀ x₁ y₁ x ≤ max y₀ y₁ := by
  have hd : 0 < x₁ - x₀ := by linarith
  have hs0 : 0 ≤ (x - x₀) / (x₁ - x₀) := div_nonneg (by linarith) hd.le
  have hs1 : (x - x₀) / (x₁ - x₀) ≤ 1 := (div_le_one hd).mpr (by linarith)
  unfold onLine
  generalize (x - x₀) / (x₁ - x₀) = s at hs0 hs1
  have e : y₀ + (y₁ - y₀) * s = (1 - s) * y₀ + s * y₁ := by ring
  rw [e]
  constructor
  · nlinarith [min_le_left y₀ y₁, min_le_right y₀ y₁]
  · nlinarith [le_max_left y₀ y₁, le_max_right y₀ y₁]

theorem interpolates_nonneg {rows : List (ℝ × ℝ × ℝ)} {w n k : ℝ}
    (hk : ∀ r ∈ rows, 0 ≤ r.2.2) (h : Interpolates rows w n k) : 0 ≤ k := by
  cases h with
  | exact n k before after h hl => exact hk (w, n, k) (by rw [h]; simp)
  | between a b h h₀ h₁ =>
    obtain ⟨l, r, rfl⟩ := h
    exact le_trans (le_min (hk a (by simp)) (hk b (by simp))) (onLine_between h₀ h₁).1
  | below a rest h h₀ => exact hk a (by simp [h])
  | above a before h h₀ => exact hk a (by simp [h])

theorem interpolates_nonneg_n {rows : List (ℝ × ℝ × ℝ)} {w n k : ℝ}
    (hk : ∀ r ∈ rows, 0 ≤ r.2.1) (h : Interpolates rows w n k) : 0 ≤ n := by
  cases h with
  | exact n k before after h hl => exact hk (w, n, k) (by rw [h]; simp)
  | between a b h h₀ h₁ =>
    obtain ⟨l, r, rfl⟩ := h
    exact le_trans (le_min (hk a (by simp)) (hk b (by simp))) (onLine_between h₀ h₁).1
  | below a rest h h₀ => exact hk a (by simp [h])
  | above a before h h₀ => exact hk a (by simp [h])

/-- A list is split at its last element with a property in one way only. -/
theorem split_unique {α : Type} {P : α → Prop} {b b' r r' : List α} {x y : α}
    (e : b ++ x :: r = b' ++ y :: r') (hx : P x) (hy : P y) (hr : ∀ z ∈ r, ¬ P z)
    (hr' : ∀ z ∈ r', ¬ P z) : x = y ∧ r = r' := by
  rcases List.append_eq_append_iff.mp e with ⟨c, h1, h2⟩ | ⟨c, h1, h2⟩
  · cases c with
    | nil => simpa using h2
    | cons z c =>
      simp only [List.cons_append, List.cons.injEq] at h2
      exact absurd hy (hr y (by rw [h2.2]; simp))
  · cases c with
    | nil => have := h2; simp only [List.nil_append, List.cons.injEq] at this; exact ⟨this.1.symm, this.2.symm⟩
    | cons z c =>
      simp only [List.cons_append, List.cons.injEq] at h2
      exact absurd hx (hr' x (by rw [h2.2]; simp))

/-- Where a wavelength falls in an ascending table: before the first row, or at or after a last row. -/
theorem interpolates_cases {rows : List (ℝ × ℝ × ℝ)} (ha : Ascending rows) {w n k : ℝ}
    (h : Interpolates rows w n k) :
    (∃ a rest, rows = a :: rest ∧ (∀ r ∈ rows, w < r.1) ∧ n = a.2.1 ∧ k = a.2.2) ∨
    ∃ before a after, rows = before ++ a :: after ∧ a.1 ≤ w ∧ (∀ r ∈ after, ¬ r.1 ≤ w) ∧
      ((a.1 = w ∨ after = []) ∧ n = a.2.1 ∧ k = a.2.2 ∨
        a.1 < w ∧ ∃ b rest, after = b :: rest ∧ n = onLine a.1 a.2.1 b.1 b.2.1 w ∧ k = onLine a.1 a.2.2 b.1 b.2.2 w) := by
  cases h with
  | exact n k before after h hl =>
    right
    refine ⟨before, (w, n, k), after, h, le_rfl, fun r hr hrw => ?_, .inl ⟨.inl rfl, rfl, rfl⟩⟩
    rw [h] at ha
    simp only [Ascending, List.pairwise_append, List.pairwise_cons] at ha
    exact hl r hr (le_antisymm hrw (ha.2.1.1 r hr))
  | between a b h h₀ h₁ =>
    right
    obtain ⟨before, after, h⟩ := h
    refine ⟨before, a, b :: after, h, h₀.le, fun r hr hrw => ?_, .inr ⟨h₀, b, after, rfl, rfl, rfl⟩⟩
    rw [h] at ha
    simp only [Ascending, List.pairwise_append, List.pairwise_cons] at ha
    rcases List.mem_cons.mp hr with rfl | hr
    · linarith
    · have := ha.2.1.2.1 r hr; linarith
  | below a rest h h₀ =>
    left
    refine ⟨a, rest, h, fun r hr => ?_, rfl, rfl⟩
    rw [h] at ha hr
    rcases List.mem_cons.mp hr with rfl | hr
    · exact h₀
    · have := (List.pairwise_cons.mp ha).1 r hr; linarith
  | above a before h h₀ => exact .inr ⟨before, a, [], h, h₀.le, by simp, .inl ⟨.inr rfl, rfl, rfl⟩⟩

/-- An ascending table gives one value at each wavelength. -/
theorem interpolates_unique {rows : List (ℝ × ℝ × ℝ)} (ha : Ascending rows) {w n k n' k' : ℝ}
    (h : Interpolates rows w n k) (h' : Interpolates rows w n' k') : n = n' ∧ k = k' := by
  rcases interpolates_cases ha h with ⟨a, rest, e, hb, rfl, rfl⟩ | ⟨b, a, r, e, hw, hr, hv⟩
  · rcases interpolates_cases ha h' with ⟨a', rest', e', hb', rfl, rfl⟩ | ⟨b', a', r', e', hw', hr', hv'⟩
    · rw [e] at e'; cases e'; exact ⟨rfl, rfl⟩
    · have := hb a' (by rw [e']; simp); linarith
  · rcases interpolates_cases ha h' with ⟨a', rest', e', hb', rfl, rfl⟩ | ⟨b', a', r', e', hw', hr', hv'⟩
    · have := hb' a (by rw [e]; simp); linarith
    · obtain ⟨rfl, rfl⟩ := split_unique (P := fun r : ℝ × ℝ × ℝ => r.1 ≤ w) (e.symm.trans e') hw hw' hr hr'
      rcases hv with ⟨h1, rfl, rfl⟩ | ⟨h1, c, s, rfl, rfl, rfl⟩ <;> rcases hv' with ⟨h2, rfl, rfl⟩ | ⟨h2, c', s', e2, rfl, rfl⟩
      · exact ⟨rfl, rfl⟩
      · rcases h1 with h1 | h1
        · linarith
        · rw [h1] at e2; cases e2
      · rcases h2 with h2 | h2
        · linarith
        · cases h2
      · cases e2; exact ⟨rfl, rfl⟩

end Meent
