import Verif.Lemmas.Materials

/-!
# Reading the material files (helper lemmas)
-/

set_option linter.unusedSimpArgs false

namespace Meent

open Spec

theorem lookup_filter_ne (t : Table) {k k' : Str} (h : k' ≠ k) :
    (t.filter (fun e => e.1 ≠ k)).lookup k' = t.lookup k' := by
  induction t with
  | nil => rfl
  | cons e t ih =>
    obtain ⟨a, d⟩ := e
    by_cases ha : a = k
    · subst ha
      have : (k' == a) = false := by simpa using h
      simp only [ne_eq, not_true_eq_false, decide_false, Bool.false_eq_true, not_false_eq_true,
        List.filter_cons_of_neg, List.lookup_cons, this]
      exact ih
    · rw [List.filter_cons_of_pos (by simpa using ha), List.lookup_cons, List.lookup_cons, ih]

theorem lookup_set (t : Table) (k k' : Str) (d : MatData) :
    (Table.set t k d).lookup k' = if k' = k then some d else t.lookup k' := by
  unfold Table.set
  rw [List.lookup_cons]
  by_cases h : k' = k
  · simp [h]
  · have : (k' == k) = false := by simpa using h
    rw [this, if_neg h]
    exact lookup_filter_ne t h

theorem drop_three {s ext : Str} (he : ext.length = 3) :
    s.drop (s.length - 3) = ext ↔ ∃ stem, s = stem ++ ext := by
  constructor
  · intro h
    exact ⟨s.take (s.length - 3), by rw [← h, List.take_append_drop]⟩
  · rintro ⟨stem, rfl⟩
    have : (stem ++ ext).length - 3 = stem.length := by simp [he]
    rw [this, List.drop_left]

/-- The key under which a material file is stored. -/
theorem fileFor_key {f : MatFile} {stem ext : Str} (he : ext = "txt".toList ∨ ext = "mat".toList)
    (hf : f.name = stem ++ ext) (key : Str) :
    FileFor key f ↔ key = upper (f.name.take (f.name.length - 4)) := by
  have hl : ext.length = 3 := by rcases he with rfl | rfl <;> rfl
  have main : ∀ (stem' sep ext' : Str), f.name = stem' ++ sep ++ ext' → ext'.length = 3 →
      (sep.length = 1 ∨ (sep = [] ∧ stem' = [])) →
      f.name.take (f.name.length - 4) = stem' := by
    rintro stem' sep ext' h h3 (h1 | ⟨rfl, rfl⟩)
    · have : f.name.length - 4 = stem'.length := by rw [h]; simp [h1, h3]
      rw [this, h, List.append_assoc, List.take_left]
    · have : f.name.length - 4 = 0 := by rw [h]; simp [h3]
      rw [this]; rfl
  constructor
  · rintro ⟨stem', sep, ext', h, he', hs, rfl⟩
    have h3 : ext'.length = 3 := by rcases he' with rfl | rfl <;> rfl
    rw [main stem' sep ext' h h3 hs]
  · rintro rfl
    rcases List.eq_nil_or_concat stem with rfl | ⟨init, c, rfl⟩
    · refine ⟨[], [], ext, by simpa using hf, he, .inr ⟨rfl, rfl⟩, ?_⟩
      rw [main [] [] ext (by simpa using hf) hl (.inr ⟨rfl, rfl⟩)]
    · refine ⟨init, [c], ext, by simpa using hf, he, .inl rfl, ?_⟩
      rw [main init [c] ext (by simpa using hf) hl (.inl rfl)]

theorem not_fileFor {f : MatFile} (h1 : ¬ ∃ stem, f.name = stem ++ "txt".toList)
    (h2 : ¬ ∃ stem, f.name = stem ++ "mat".toList) (key : Str) : ¬ FileFor key f := by
  rintro ⟨stem, sep, ext, h, he | he, -, -⟩
  · exact h1 ⟨stem ++ sep, by rw [h, he]⟩
  · exact h2 ⟨stem ++ sep, by rw [h, he]⟩

theorem txt_ne_mat {a b : Str} (h : a ++ "txt".toList = b ++ "mat".toList) : False := by
  have h3 : ("txt".toList : Str) = "mat".toList := (List.append_inj' h rfl).2
  exact absurd h3 (by decide)

theorem readFile_ok {pn : PyNum} {t t' : Table} {f : MatFile} (h : readFile pn t f = .ok t') :
    (∃ key d, (∀ key', FileFor key' f ↔ key' = key) ∧ Holds pn f d ∧ t' = Table.set t key d) ∨
      ((∀ key, ¬ FileFor key f) ∧ t' = t) := by
  unfold readFile at h
  by_cases h1 : f.name.drop (f.name.length - 3) = "txt".toList
  · rw [if_pos h1] at h
    obtain ⟨stem, hs⟩ := (drop_three rfl).mp h1
    left
    refine ⟨upper (f.name.take (f.name.length - 4)), ?_⟩
    cases hp : parse_header pn f.lines with
    | error e => rw [hp] at h; cases h
    | ok o =>
      rw [hp] at h
      cases o with
      | some s =>
        change Except.ok _ = _ at h
        cases h
        exact ⟨.spec s, fileFor_key (.inl rfl) hs, .inl ⟨⟨stem, hs⟩, .inl ⟨s, hp, rfl⟩⟩, rfl⟩
      | none =>
        cases hd : f.data with
        | error e => rw [hd] at h; cases h
        | ok d =>
          rw [hd] at h
          change Except.ok _ = _ at h
          cases h
          exact ⟨d, fileFor_key (.inl rfl) hs, .inl ⟨⟨stem, hs⟩, .inr ⟨hp, hd⟩⟩, rfl⟩
  · rw [if_neg h1] at h
    by_cases h2 : f.name.drop (f.name.length - 3) = "mat".toList
    · rw [if_pos h2] at h
      obtain ⟨stem, hs⟩ := (drop_three rfl).mp h2
      left
      cases hd : f.data with
      | error e => rw [hd] at h; cases h
      | ok d =>
        rw [hd] at h
        change Except.ok _ = _ at h
        cases h
        exact ⟨_, d, fileFor_key (.inr rfl) hs, .inr ⟨⟨stem, hs⟩, hd⟩, rfl⟩
    · rw [if_neg h2] at h
      cases h
      exact .inr ⟨not_fileFor (fun ⟨s, hs⟩ => h1 ((drop_three rfl).mpr ⟨s, hs⟩))
        (fun ⟨s, hs⟩ => h2 ((drop_three rfl).mpr ⟨s, hs⟩)), rfl⟩

/-- What the table holds after reading the files: for each name the last file wins. -/
theorem read_lookup {pn : PyNum} {files : List MatFile} {t t' : Table}
    (h : files.foldlM (readFile pn) t = .ok t') (key : Str) :
    (t'.lookup key = t.lookup key ∧ ∀ f ∈ files, ¬ FileFor key f) ∨
      ∃ before f after d, files = before ++ f :: after ∧ FileFor key f ∧ Holds pn f d ∧
        (∀ g ∈ after, ¬ FileFor key g) ∧ t'.lookup key = some d := by
  induction files generalizing t with
  | nil =>
    cases h
    exact .inl ⟨rfl, by simp⟩
  | cons f rest ih =>
    rw [List.foldlM_cons] at h
    cases hf : readFile pn t f with
    | error e => rw [hf] at h; cases h
    | ok t1 =>
      rw [hf] at h
      change rest.foldlM (readFile pn) t1 = .ok t' at h
      rcases ih h with ⟨hl, hn⟩ | ⟨b, g, a, d, rfl, hg, hd, ha, hl⟩
      · rcases readFile_ok hf with ⟨k, d, hk, hd, rfl⟩ | ⟨hk, rfl⟩
        · rw [lookup_set] at hl
          by_cases e : key = k
          · rw [if_pos e] at hl
            exact .inr ⟨[], f, rest, d, rfl, (hk key).mpr e, hd, hn, hl⟩
          · rw [if_neg e] at hl
            refine .inl ⟨hl, ?_⟩
            intro g hg
            rcases List.mem_cons.mp hg with rfl | hg
            · exact fun h' => e ((hk key).mp h')
            · exact hn g hg
        · refine .inl ⟨hl, ?_⟩
          intro g hg
          rcases List.mem_cons.mp hg with rfl | hg
          · exact hk key
          · exact hn g hg
      · exact .inr ⟨f :: b, g, a, d, rfl, hg, hd, ha, hl⟩

theorem indexOf_real (sp : SciPy) (d : MatData) (wl : List ℝ) :
    indexOf sp d true wl = (indexOf sp d false wl).map
      (fun r => r.map (Option.map fun z => (z.re : ℂ))) := by
  cases d with
  | flat => rfl
  | spec s =>
    simp only [indexOf]
    cases evaluate sp s wl with
    | error e => rfl
    | ok n =>
      change Except.ok _ = Except.ok _
      congr 1
      simp only [if_true, Bool.false_eq_true, if_false, List.map_map]
      refine List.map_congr_left fun z _ => ?_
      cases z <;> simp
  | table rows =>
    simp only [indexOf]
    rcases eq_or_ne rows [] with rfl | hne
    · cases wl <;> rfl
    · suffices H : ∃ ns ks, wl.mapM (npInterp (rows.map fun r => (r.1, r.2.1))) = .ok ns ∧
          wl.mapM (npInterp (rows.map fun r => (r.1, r.2.2))) = .ok ks ∧
          (ns.map fun a : ℝ => some (a : ℂ)) =
            (List.zipWith (fun (a b : ℝ) => some ((a : ℂ) - Complex.I * b)) ns ks).map
              (Option.map fun z => (z.re : ℂ)) by
        obtain ⟨ns, ks, h1, h2, h3⟩ := H
        rw [h1, h2]
        change Except.ok _ = Except.ok _
        rw [h3]
      have hn : ∀ (g : ℝ × ℝ × ℝ → ℝ × ℝ) (w : ℝ), ∃ y, npInterp (rows.map g) w = .ok y := by
        intro g w
        cases rows with
        | nil => exact absurd rfl hne
        | cons a l => exact ⟨_, rfl⟩
      induction wl with
      | nil => exact ⟨[], [], rfl, rfl, rfl⟩
      | cons w wl ih =>
        obtain ⟨ns, ks, h1, h2, h3⟩ := ih
        obtain ⟨n, hn1⟩ := hn (fun r => (r.1, r.2.1)) w
        obtain ⟨k, hk1⟩ := hn (fun r => (r.1, r.2.2)) w
        refine ⟨n :: ns, k :: ks, ?_, ?_, ?_⟩
        · rw [List.mapM_cons, hn1, h1]; rfl
        · rw [List.mapM_cons, hk1, h2]; rfl
        · simp only [List.map_cons, List.zipWith_cons_cons, h3]
          simp

theorem last_unique {α : Type} {P : α → Prop} {b b' a a' : List α} {f g : α}
    (e : b ++ f :: a = b' ++ g :: a') (hf : P f) (hg : P g) (ha : ∀ x ∈ a, ¬ P x)
    (ha' : ∀ x ∈ a', ¬ P x) : g = f := by
  rcases List.append_eq_append_iff.mp e with ⟨c, h1, h2⟩ | ⟨c, h1, h2⟩
  · cases c with
    | nil => simp only [List.nil_append, List.cons.injEq] at h2; exact h2.1.symm
    | cons x c =>
      simp only [List.cons_append, List.cons.injEq] at h2
      exact absurd hg (ha g (by rw [h2.2]; simp))
  · cases c with
    | nil => simp only [List.nil_append, List.cons.injEq] at h2; exact h2.1
    | cons x c =>
      simp only [List.cons_append, List.cons.injEq] at h2
      exact absurd hf (ha' f (by rw [h2.2]; simp))

end Meent
