import Verif.Lemmas.Listing

/-!
# C44: `list_materials` agrees with the lookup
-/

namespace Meent

open Spec

/-- **C44, names.** The listed names ascend strictly, and they are exactly the names for which
there is a material file. -/
theorem C44_names (pn : PyNum) (files : List MatFile) (ls : List Listed)
    (h : list_materials pn files = .ok ls) :
    (ls.map (·.name)).Pairwise (· < ·) ∧
      ∀ name, name ∈ ls.map (·.name) ↔ ∃ f ∈ files, FileFor name f := by
  obtain ⟨t, ht, hnames, -⟩ := list_ok h
  have hg := goodTable_read (t := []) ⟨by simp, by simp⟩ ht
  constructor
  · rw [hnames]
    exact sorted_names hg.1
  · intro name
    rw [hnames, (List.mergeSort_perm _ _).map _ |>.mem_iff]
    rcases read_lookup ht name with ⟨hl, hn⟩ | ⟨b, f, a, d, rfl, hf, -, -, hl⟩
    · constructor
      · intro hm
        obtain ⟨e, he, rfl⟩ := List.mem_map.mp hm
        rw [lookup_of_mem hg.1 he] at hl
        simp at hl
      · rintro ⟨f, hf, h'⟩
        exact absurd h' (hn f hf)
    · constructor
      · intro _
        exact ⟨f, by simp, hf⟩
      · intro _
        exact List.mem_map.mpr ⟨_, mem_of_lookup hl, rfl⟩

/-- **C44, ranges.** Every listed name can be looked up in the table read from the same files, and
the lookup warns exactly when some wavelength lies outside the listed range. -/
theorem C44_ranges (pn : PyNum) (files : List MatFile) (ls : List Listed)
    (h : list_materials pn files = .ok ls) (t : Table)
    (ht : read_material_table pn files = .ok t) (e : Listed) (he : e ∈ ls) (sp : SciPy)
    (wl : List ℝ) :
    (∃ d, Denotes t (.name e.name) d false) ∧
      ((find_nk_index sp (.name e.name) t wl).warned = true ↔
        ∃ w ∈ wl, (w : EReal) < e.range.1 ∨ e.range.2 < (w : EReal)) := by
  obtain ⟨t', ht', -, hall⟩ := list_ok h
  have : t' = t := by
    have h1 : read_material_table pn files = .ok t' := ht'
    rw [ht] at h1
    cases h1
    rfl
  subst this
  have hg := goodTable_read (t := []) ⟨by simp, by simp⟩ ht'
  obtain ⟨d, hd, hr⟩ := hall e he
  have hd' : Denotes t' (.name e.name) d false := by
    have hu := hg.2 _ hd
    simp only at hu
    refine .plain _ _ (by rw [← hu]; exact upper_not_real _) ?_
    rw [hu]
    exact lookup_of_mem hg.1 hd
  refine ⟨⟨d, hd'⟩, ?_⟩
  obtain ⟨r, hr', hro⟩ := range_ok (hasRange_of_ok hr)
  rw [hr] at hr'
  cases hr'
  obtain ⟨v, hv, hiff⟩ := warn_ok (hasRange_of_ok hr) wl
  unfold find_nk_index
  rw [(selectMaterial_ok _ _ _ _).mpr hd']
  simp only [hv, hiff, hro]

/-- **C44, success.** The listing succeeds as soon as the files can be read and every material in
them has a range. -/
theorem C44_success_partial (pn : PyNum) (files : List MatFile) (t : Table)
    (ht : read_material_table pn files = .ok t) (hr : ∀ e ∈ t, HasRange e.2) :
    ∃ ls, list_materials pn files = .ok ls := by
  unfold list_materials
  rw [ht]
  refine mapM_exists _ fun e he => ?_
  obtain ⟨r, h, -⟩ := range_ok (hr e ((List.mergeSort_perm _ _).mem_iff.mp he))
  exact ⟨_, by rw [h]; rfl⟩

/-- **C44 fails for a file with one row of numbers.**  `np.loadtxt` returns a flat array for it;
the file can be read, but the listing raises an IndexError. -/
theorem C44_one_row_negation (pn : PyNum) :
    ∃ files : List MatFile, (∃ t, read_material_table pn files = .ok t) ∧
      list_materials pn files = .error .indexError := by
  refine ⟨[⟨"Au.mat".toList, [], .ok (.table [(1, 1, 1), (2, 1, 1)])⟩,
    ⟨"x.txt".toList, [], .ok .flat⟩], ⟨_, rfl⟩, ?_⟩
  unfold list_materials
  rw [show read_material_table pn _ = .ok [("X".toList, .flat),
    ("AU".toList, .table [(1, 1, 1), (2, 1, 1)])] from rfl]
  have hs : List.mergeSort [("X".toList, MatData.flat),
      ("AU".toList, .table [(1, 1, 1), (2, 1, 1)])] (fun a b => decide (a.1 ≤ b.1)) =
      [("AU".toList, .table [(1, 1, 1), (2, 1, 1)]), ("X".toList, MatData.flat)] := by
    simp [List.mergeSort, List.MergeSort.Internal.splitInTwo, List.merge]
    decide
  have h2 : MatData.range (.table [(1, 1, 1), (2, 1, 1)]) = .ok (((1 : ℝ) : EReal), ((2 : ℝ) : EReal)) := by
    simp [MatData.range, List.min?, List.max?]
  simp only [bind, Except.bind]
  rw [hs]
  have h3 : MatData.range .flat = .error .indexError := rfl
  simp only [List.mapM_cons, h2, h3, bind, Except.bind]

/-- Two files, listed in alphabetical order with the ranges of their rows. -/
example (pn : PyNum) :
    let f : MatFile := ⟨"Au.mat".toList, [], .ok (.table [(1, 1, 1), (2, 1, 1)])⟩
    let g : MatFile := ⟨"Ag.mat".toList, [], .ok (.table [(3, 1, 1), (1, 1, 1)])⟩
    ∃ ls, list_materials pn [f, g] = .ok ls ∧
      ls.map (·.name) = ["AG".toList, "AU".toList] := by
  intro f g
  have h1 : MatData.range (.table [(3, 1, 1), (1, 1, 1)]) = .ok (((1 : ℝ) : EReal), ((3 : ℝ) : EReal)) := by
    simp [MatData.range, List.min?, List.max?]
  have h2 : MatData.range (.table [(1, 1, 1), (2, 1, 1)]) = .ok (((1 : ℝ) : EReal), ((2 : ℝ) : EReal)) := by
    simp [MatData.range, List.min?, List.max?]
  have ht : read_material_table pn [f, g] =
      .ok [("AG".toList, .table [(3, 1, 1), (1, 1, 1)]), ("AU".toList, .table [(1, 1, 1), (2, 1, 1)])] := rfl
  refine ⟨[⟨"AG".toList, (((1 : ℝ) : EReal), ((3 : ℝ) : EReal)), [], []⟩,
    ⟨"AU".toList, (((1 : ℝ) : EReal), ((2 : ℝ) : EReal)), [], []⟩], ?_, rfl⟩
  unfold list_materials
  rw [ht]
  simp only [bind, Except.bind]
  have hs : List.mergeSort [("AG".toList, MatData.table [(3, 1, 1), (1, 1, 1)]),
      ("AU".toList, .table [(1, 1, 1), (2, 1, 1)])] (fun a b => decide (a.1 ≤ b.1)) =
      [("AG".toList, .table [(3, 1, 1), (1, 1, 1)]), ("AU".toList, .table [(1, 1, 1), (2, 1, 1)])] := by
    apply List.mergeSort_of_pairwise
    simp
    decide
  rw [hs]
  simp only [List.mapM_cons, List.mapM_nil, h1, h2, bind, Except.bind, pure, Except.pure]
  rfl

#print axioms C44_names
#print axioms C44_ranges
#print axioms C44_success_partial
#print axioms C44_one_row_negation

end Meent
