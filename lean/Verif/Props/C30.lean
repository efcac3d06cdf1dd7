import Verif.Lemmas.MaterialFiles

/-!
# C30: material names

Lookup ignores letter case; the suffix `__real` selects the same table and returns the real part
only; an unknown name raises `KeyError`.
-/

namespace Meent

open Spec

/-- **C30, letter case.** Two spellings of a name give the same value and the same warning, for
names that do not end in `__real` (with that suffix see `C30_real_case_partial`).  Missing: the
suffix itself is case-sensitive, see `C30_suffix_negation`. -/
theorem C30_case_partial (sp : SciPy) (t : Table) (s s' : Str) (h : upper s = upper s')
    (hs : ¬ EndsWithReal s) (hs' : ¬ EndsWithReal s') (wl : List ℝ) :
    find_nk_index sp (.name s) t wl = find_nk_index sp (.name s') t wl := by
  unfold find_nk_index
  rw [selectMaterial_plain t hs, selectMaterial_plain t hs', h]

/-- **C30, letter case before the suffix.** -/
theorem C30_real_case_partial (sp : SciPy) (t : Table) (s s' : Str) (h : upper s = upper s')
    (wl : List ℝ) :
    find_nk_index sp (.name (s ++ "__real".toList)) t wl =
      find_nk_index sp (.name (s' ++ "__real".toList)) t wl := by
  unfold find_nk_index
  rw [selectMaterial_real, selectMaterial_real, h]

/-- **C30, real part.** With the suffix `__real` the lookup warns, fails and succeeds as without,
and returns the real parts of the same numbers. -/
theorem C30_real (sp : SciPy) (t : Table) (s : Str) (hs : ¬ EndsWithReal s) (wl : List ℝ) :
    (find_nk_index sp (.name (s ++ "__real".toList)) t wl).warned =
        (find_nk_index sp (.name s) t wl).warned ∧
      (find_nk_index sp (.name (s ++ "__real".toList)) t wl).value =
        (find_nk_index sp (.name s) t wl).value.map
          (fun r => r.map (Option.map fun z => (z.re : ℂ))) := by
  unfold find_nk_index
  rw [selectMaterial_plain t hs, selectMaterial_real]
  cases t.lookup (upper s) with
  | none => exact ⟨rfl, rfl⟩
  | some d =>
    simp only
    cases hw : warn_if_out_of_range d wl with
    | error e => exact ⟨rfl, rfl⟩
    | ok w => exact ⟨rfl, indexOf_real sp d wl⟩

/-- **C30, unknown names.** After reading the material files, a name for which there is no file
raises `KeyError`, with and without the suffix, and any other name is found.  The entry is the
content of the last file of that name. -/
theorem C30_known (pn : PyNum) (files : List MatFile) (t : Table)
    (ht : read_material_table pn files = .ok t) (sp : SciPy) (s : Str) (hs : ¬ EndsWithReal s)
    (wl : List ℝ) :
    ((∀ f ∈ files, ¬ FileFor (upper s) f) →
      (find_nk_index sp (.name s) t wl).value = .error .keyError ∧
      (find_nk_index sp (.name (s ++ "__real".toList)) t wl).value = .error .keyError) ∧
    (∀ before f after, files = before ++ f :: after → FileFor (upper s) f →
      (∀ g ∈ after, ¬ FileFor (upper s) g) →
      ∃ d, Holds pn f d ∧ Denotes t (.name s) d false ∧
        Denotes t (.name (s ++ "__real".toList)) d true) := by
  have hl := read_lookup (show files.foldlM (readFile pn) [] = .ok t from ht) (upper s)
  constructor
  · intro hn
    have hnone : t.lookup (upper s) = none := by
      rcases hl with ⟨hl, -⟩ | ⟨b, f, a, d, e, hf, -⟩
      · exact hl
      · exact absurd hf (hn f (by simp [e]))
    unfold find_nk_index
    rw [selectMaterial_plain t hs, selectMaterial_real, hnone]
    exact ⟨rfl, rfl⟩
  · intro before f after e hf hafter
    rcases hl with ⟨-, hn⟩ | ⟨b, g, a, d, e', hg, hd, ha, hd'⟩
    · exact absurd hf (hn f (by simp [e]))
    · have hfg : g = f := by
        rw [e] at e'
        exact last_unique (P := FileFor (upper s)) e' hf hg hafter ha
      subst hfg
      exact ⟨d, hd, .plain s d hs hd', .real s d hd'⟩

/-- **C30, precision.** Reading the files with a type that is not one of the two complex types raises `ValueError`, whatever the
files contain. -/
theorem C30_precision (pn : PyNum) (files : List MatFile) : read_material_table pn files false = .error .valueError := rfl

/-- **C30, counterexample.** The suffix is compared before the name is turned to capitals, so a
name that differs only in letter case can fail. -/
theorem C30_suffix_negation :
    ¬ ∀ (sp : SciPy) (t : Table) (s s' : Str) (wl : List ℝ), upper s = upper s' →
      find_nk_index sp (.name s) t wl = find_nk_index sp (.name s') t wl := by
  intro h
  have hd : Denotes [("AU".toList, .table [(1, 2, 3)])] (.name ("Au".toList ++ "__real".toList))
      (.table [(1, 2, 3)]) true := by
    have hu : upper "Au".toList = "AU".toList := by decide
    exact .real _ _ (by rw [hu]; exact List.lookup_cons_self)
  have h' := h ⟨fun z => z, fun _ _ => 0⟩ [("AU".toList, .table [(1, 2, 3)])]
    ("Au".toList ++ "__real".toList) "Au__REAL".toList [1] (by decide)
  have e1 : selectMaterial (.name "Au__REAL".toList) [("AU".toList, .table [(1, 2, 3)])]
      = .error .keyError := by
    have hs : ¬ EndsWithReal "Au__REAL".toList := by rw [endsWithReal_iff]; decide
    rw [selectMaterial_plain _ hs]
    have hu : upper "Au__REAL".toList = "AU__REAL".toList := by decide
    have hl : List.lookup "AU__REAL".toList [("AU".toList, MatData.table [(1, 2, 3)])] = none := by
      rw [List.lookup_cons]
      rfl
    rw [hu, hl]
  have h'' := congrArg Lookup.value h'
  rw [find_of_denotes _ hd (by simp [HasRange])] at h''
  unfold find_nk_index at h''
  rw [e1] at h''
  simp only [indexOf, npInterp, List.mapM_cons, List.mapM_nil] at h''
  cases h''

/-- Two files, one of them read twice under different spellings: the later one is found. -/
example (pn : PyNum) :
    let d : MatData := .table [(1, 2, 3), (2, 2, 3)]
    let f : MatFile := ⟨"Au.txt".toList, [], .ok (.table [(1, 1, 1), (2, 1, 1)])⟩
    let g : MatFile := ⟨"AU.mat".toList, [], .ok d⟩
    ∃ t, read_material_table pn [f, g] = .ok t ∧ FileFor (upper "au".toList) f ∧
      FileFor (upper "au".toList) g ∧ Denotes t (.name "au".toList) d false := by
  intro d f g
  have hu : upper "au".toList = "AU".toList := by decide
  refine ⟨[("AU".toList, d)], rfl, ⟨"Au".toList, ".".toList, "txt".toList, rfl, .inl rfl, .inl rfl,
    by decide⟩, ⟨"AU".toList, ".".toList, "mat".toList, rfl, .inr rfl, .inl rfl, by decide⟩, ?_⟩
  refine .plain _ _ ?_ (by rw [hu]; exact List.lookup_cons_self)
  rw [endsWithReal_iff]
  decide

#print axioms C30_case_partial
#print axioms C30_real_case_partial
#print axioms C30_real
#print axioms C30_known
#print axioms C30_precision
#print axioms C30_suffix_negation

end Meent
