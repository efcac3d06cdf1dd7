import Verif.Lemmas.Materials

/-!
# C29: out-of-range wavelength warning

A lookup warns exactly when some requested wavelength lies outside the range of the material.
-/

namespace Meent

open Spec

/-- **C29.** A lookup of a material that has a range warns exactly when some wavelength lies
outside.  The rows of a table need not be sorted. -/
theorem C29_warns (sp : SciPy) (t : Table) (m : MatArg) (d : MatData) (b : Bool)
    (hd : Denotes t m d b) (hr : HasRange d) (wl : List ℝ) :
    (find_nk_index sp m t wl).warned = true ↔ ∃ w ∈ wl, OutOfRange w d := by
  obtain ⟨v, hv, hiff⟩ := warn_ok hr wl
  unfold find_nk_index
  rw [(selectMaterial_ok _ _ _ _).mpr hd]
  simp only [hv]
  exact hiff

/-- **C29, the other cases.** A lookup that warns has found a material with a range: unknown names
and unusable tables raise without a warning. -/
theorem C29_only (sp : SciPy) (t : Table) (m : MatArg) (wl : List ℝ)
    (h : (find_nk_index sp m t wl).warned = true) :
    ∃ d b, Denotes t m d b ∧ HasRange d := by
  unfold find_nk_index at h
  cases hs : selectMaterial m t with
  | error e => simp only [hs] at h; cases h
  | ok p =>
    obtain ⟨d, b⟩ := p
    refine ⟨d, b, (selectMaterial_ok _ _ _ _).mp hs, ?_⟩
    simp only [hs] at h
    cases hw : warn_if_out_of_range d wl with
    | error e => simp only [hw] at h; cases h
    | ok v =>
      simp only [hw] at h
      subst h
      exact warn_true hw

/-- A wavelength in nanometres looked up in a table in metres warns; one inside the table does
not. -/
example (sp : SciPy) :
    let rows : List (ℝ × ℝ × ℝ) := [(1e-7, 2, 0), (1e-6, 3, 4)]
    let t : Table := [("AU".toList, .table rows)]
    Denotes t (.name "au".toList) (.table rows) false ∧ HasRange (.table rows) ∧
      (find_nk_index sp (.name "au".toList) t [5e-7, 500]).warned = true ∧
      (find_nk_index sp (.name "au".toList) t [5e-7, 1e-6]).warned ≠ true := by
  intro rows t
  have hd : Denotes t (.name "au".toList) (.table rows) false := by
    have hu : upper "au".toList = "AU".toList := by decide
    refine .plain _ _ ?_ (by rw [hu]; exact List.lookup_cons_self)
    rw [endsWithReal_iff]
    decide
  have hr : HasRange (.table rows) := by simp [HasRange, rows]
  refine ⟨hd, hr, ?_, ?_⟩
  · rw [C29_warns sp t _ _ _ hd hr]
    refine ⟨500, by simp, .inr ?_⟩
    simp only [rows, List.mem_cons, List.not_mem_nil, or_false, forall_eq_or_imp, forall_eq]
    norm_num
  · rw [Ne, C29_warns sp t _ _ _ hd hr]
    simp only [List.mem_cons, List.not_mem_nil, or_false, exists_eq_or_imp, exists_eq_left,
      OutOfRange, rows, forall_eq_or_imp, forall_eq]
    norm_num

#print axioms C29_warns
#print axioms C29_only

end Meent
