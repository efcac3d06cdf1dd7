import Verif.Lemmas.Materials

/-!
# C28: material tables are looked up with the absorbing sign

`find_nk_index` on a table returns `n(wl) - i k(wl)` by linear interpolation, exact at tabulated
wavelengths, clamped outside, and never gain when `k ≥ 0`.
-/

namespace Meent

open Spec

/-- **C28.** For every ascending table with at least one row, every name that denotes it and all
wavelengths, the lookup succeeds and returns at each wavelength `n - ik` with the optical constants
`Spec.Interpolates` describes. -/
theorem C28_lookup (sp : SciPy) (t : Table) (m : MatArg) (rows : List (ℝ × ℝ × ℝ))
    (hd : Denotes t m (.table rows) false) (hne : rows ≠ []) (ha : Ascending rows)
    (wl : List ℝ) :
    ∃ zs, (find_nk_index sp m t wl).value = .ok zs ∧
      List.Forall₂ (fun w z => ∃ n k, Interpolates rows w n k ∧
        z = some ((n : ℂ) - Complex.I * k)) wl zs := by
  rw [find_of_denotes sp hd hne wl]
  exact indexOf_table sp hne ha wl

/-- **C28, tabulated wavelengths.** At a wavelength of the table the lookup returns the values of
that row; of the last such row, if the wavelength is listed more than once. -/
theorem C28_exact (sp : SciPy) (t : Table) (m : MatArg) (rows : List (ℝ × ℝ × ℝ))
    (hd : Denotes t m (.table rows) false) (ha : Ascending rows) (w n k : ℝ)
    (before after : List (ℝ × ℝ × ℝ)) (hm : rows = before ++ (w, n, k) :: after) (hl : ∀ r ∈ after, r.1 ≠ w) :
    (find_nk_index sp m t [w]).value = .ok [some ((n : ℂ) - Complex.I * k)] := by
  have hne : rows ≠ [] := by rw [hm]; simp
  obtain ⟨zs, h1, h2⟩ := C28_lookup sp t m rows hd hne ha [w]
  rw [h1]
  cases h2 with
  | cons hz hr =>
    cases hr
    obtain ⟨n', k', hi, rfl⟩ := hz
    obtain ⟨rfl, rfl⟩ := interpolates_unique ha hi (.exact n k before after hm hl)
    rfl

/-- **C28, between.** Between two consecutive rows both constants lie between the tabulated ones. -/
theorem C28_between (sp : SciPy) (t : Table) (m : MatArg) (rows : List (ℝ × ℝ × ℝ))
    (hd : Denotes t m (.table rows) false) (ha : Ascending rows) (a b : ℝ × ℝ × ℝ)
    (hab : Neighbours rows a b) (w : ℝ) (h₀ : a.1 < w) (h₁ : w < b.1) :
    ∃ n k : ℝ, (find_nk_index sp m t [w]).value = .ok [some ((n : ℂ) - Complex.I * k)] ∧
      n = onLine a.1 a.2.1 b.1 b.2.1 w ∧ k = onLine a.1 a.2.2 b.1 b.2.2 w ∧
      min a.2.1 b.2.1 ≤ n ∧ n ≤ max a.2.1 b.2.1 ∧ min a.2.2 b.2.2 ≤ k ∧ k ≤ max a.2.2 b.2.2 := by
  have hne : rows ≠ [] := by
    obtain ⟨l, r, rfl⟩ := hab
    simp
  obtain ⟨zs, h1, h2⟩ := C28_lookup sp t m rows hd hne ha [w]
  rw [h1]
  cases h2 with
  | cons hz hr =>
    cases hr
    obtain ⟨n', k', hi, rfl⟩ := hz
    obtain ⟨rfl, rfl⟩ := interpolates_unique ha hi (.between a b hab h₀ h₁)
    exact ⟨_, _, rfl, rfl, rfl, (onLine_between h₀ h₁).1, (onLine_between h₀ h₁).2,
      (onLine_between h₀ h₁).1, (onLine_between h₀ h₁).2⟩

/-- **C28, no gain.** If no tabulated `k` is negative, no returned index has a positive imaginary
part. -/
theorem C28_no_gain (sp : SciPy) (t : Table) (m : MatArg) (rows : List (ℝ × ℝ × ℝ))
    (hd : Denotes t m (.table rows) false) (hne : rows ≠ []) (ha : Ascending rows)
    (hk : ∀ r ∈ rows, 0 ≤ r.2.2) (wl : List ℝ) :
    ∃ zs, (find_nk_index sp m t wl).value = .ok zs ∧ NoGain zs := by
  obtain ⟨zs, h1, h2⟩ := C28_lookup sp t m rows hd hne ha wl
  refine ⟨zs, h1, fun z hz => ?_⟩
  clear h1
  induction h2 with
  | nil => simp at hz
  | cons hw hr ih =>
    rcases List.mem_cons.mp hz with hz | hz
    · obtain ⟨n, k, hi, e⟩ := hw
      rw [e, Option.some.injEq] at hz
      have := interpolates_nonneg hk hi
      rw [hz]
      simpa using this
    · exact ih hz

/-- A table of two rows, stored under the name `AU` and looked up as `Au`: half way between the
rows the constants are the means. -/
example (sp : SciPy) :
    let rows : List (ℝ × ℝ × ℝ) := [(1, 2, 0), (2, 3, 4)]
    Denotes [("AU".toList, .table rows)] (.name "Au".toList) (.table rows) false ∧
      rows ≠ [] ∧ Ascending rows ∧ (∀ r ∈ rows, 0 ≤ r.2.2) ∧
      (find_nk_index sp (.name "Au".toList) [("AU".toList, .table rows)] [3 / 2]).value
        = .ok [some ((5 / 2 : ℝ) - Complex.I * (2 : ℝ))] := by
  intro rows
  have hd : Denotes [("AU".toList, .table rows)] (.name "Au".toList) (.table rows) false := by
    have hu : upper "Au".toList = "AU".toList := by decide
    refine .plain _ _ ?_ (by rw [hu]; exact List.lookup_cons_self)
    rw [endsWithReal_iff]
    decide
  have ha : Ascending rows := by simp [rows, Ascending]
  refine ⟨hd, by simp [rows], ha, by simp [rows], ?_⟩
  obtain ⟨n, k, h, hn, hk, -⟩ := C28_between sp _ _ rows hd ha (1, 2, 0) (2, 3, 4) ⟨[], [], rfl⟩
    (3 / 2) (by norm_num) (by norm_num)
  rw [h, hn, hk]
  norm_num [onLine]

/-- A wavelength listed twice: the later row counts. -/
example (sp : SciPy) (t : Table) (m : MatArg) (hd : Denotes t m (.table [(1, 2, 0), (1, 3, 1), (2, 4, 2)]) false) :
    (find_nk_index sp m t [1]).value = .ok [some (((3 : ℝ) : ℂ) - Complex.I * ((1 : ℝ) : ℂ))] :=
  C28_exact sp t m _ hd (by simp [Ascending]) 1 3 1 [(1, 2, 0)] [(2, 4, 2)] rfl (by simp)

#print axioms C28_lookup
#print axioms C28_exact
#print axioms C28_between
#print axioms C28_no_gain

end Meent
