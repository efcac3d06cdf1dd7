import Verif.Lemmas.ConvMats
import Verif.Lemmas.DiscreteConv

/-!
# Last edges of compressed and vector cells (helper lemmas)
-/

open Matrix

namespace Meent

set_option linter.unusedSimpArgs false

theorem get_neg_one {α : Type} {l : List α} (h : l.length ≠ 0) :
    haveI : NeZero l.length := ⟨h⟩
    l.get (-1 : Fin l.length) = l.getLast (by intro e; simp [e] at h) := by
  have : NeZero l.length := ⟨h⟩
  rw [List.getLast_eq_getElem, List.get_eq_getElem]
  congr 1
  have : ∀ (k : ℕ) [NeZero k], ((-1 : Fin k) : ℕ) = k - 1 := by
    intro k _
    obtain ⟨m, rfl⟩ : ∃ m, k = m + 1 := ⟨k - 1, by have := NeZero.ne k; omega⟩
    rw [Fin.neg_one_eq_last']; simp
  exact this _

theorem filter_finRange_last {m : ℕ} (p : Fin (m + 1) → Bool) (h : p (Fin.last m) = true) :
    ∃ l, (List.finRange (m + 1)).filter p = l ++ [Fin.last m] := by
  rw [List.finRange_succ_last, List.filter_append]
  exact ⟨(List.map Fin.castSucc (List.finRange m)).filter p, by simp [h]⟩

/-- The kept columns end with the last column. -/
theorem keptCols_last (c : Raster) (h : 0 < c.nx) :
    ∃ l, keptCols c = l ++ [⟨c.nx - 1, by omega⟩] := by
  obtain ⟨ny, nx, v⟩ := c
  simp only at h
  obtain ⟨m, rfl⟩ : ∃ m, nx = m + 1 := ⟨nx - 1, by omega⟩
  exact filter_finRange_last _ (by simp)

theorem keptRows_last (c : Raster) (cols : List (Fin c.nx)) (h : 0 < c.ny) :
    ∃ l, keptRows c cols = l ++ [⟨c.ny - 1, by omega⟩] := by
  obtain ⟨ny, nx, v⟩ := c
  simp only at h
  obtain ⟨m, rfl⟩ : ∃ m, ny = m + 1 := ⟨ny - 1, by omega⟩
  exact filter_finRange_last _ (by simp)

/-- Cell compression of a non-empty raster succeeds; the last edges are 1. -/
theorem cell_compression_ok (l : Raster) (hy : 0 < l.ny) (hx : 0 < l.nx) :
    ∃ c, cell_compression l = .ok c ∧ c.x (-1) = 1 ∧ c.y (-1) = 1 := by
  obtain ⟨lc, hc⟩ := keptCols_last l.flipud hx
  obtain ⟨lr, hr⟩ := keptRows_last l.flipud (keptCols l.flipud) hy
  have h1 : (keptCols l.flipud).length ≠ 0 := by rw [hc]; simp
  have h2 : (keptRows l.flipud (keptCols l.flipud)).length ≠ 0 := by rw [hr]; simp
  unfold cell_compression assembleCell
  simp only [h1, h2, ne_eq, not_false_eq_true, and_self, dif_pos]
  refine ⟨_, rfl, ?_, ?_⟩
  · simp only
    rw [get_neg_one h1]
    have : (keptCols l.flipud).getLast (by intro e; simp [e] at h1) = ⟨l.flipud.nx - 1, by
        have : l.flipud.nx = l.nx := rfl
        omega⟩ := by
      simp only [hc, List.getLast_append_singleton]
    rw [this]
    have hn : (l.flipud.nx : ℝ) ≠ 0 := by
      have : (l.nx : ℝ) ≠ 0 := by exact_mod_cast hx.ne'
      exact this
    have e : ((l.flipud.nx - 1 + 1 : ℕ) : ℝ) = l.flipud.nx := by
      congr 1
      have : l.flipud.nx = l.nx := rfl
      omega
    rw [e]; field_simp
  · simp only
    rw [get_neg_one h2]
    have : (keptRows l.flipud (keptCols l.flipud)).getLast (by intro e; simp [e] at h2)
        = ⟨l.flipud.ny - 1, by
        have : l.flipud.ny = l.ny := rfl
        omega⟩ := by
      simp only [hr, List.getLast_append_singleton]
    rw [this]
    have hn : (l.flipud.ny : ℝ) ≠ 0 := by
      have : (l.ny : ℝ) ≠ 0 := by exact_mod_cast hy.ne'
      exact this
    have e : ((l.flipud.ny - 1 + 1 : ℕ) : ℝ) = l.flipud.ny := by
      congr 1
      have : l.flipud.ny = l.ny := rfl
      omega
    rw [e]; field_simp

theorem finishEdges_last {l : List ℝ} {period : ℝ} (hp : period ≠ 0) :
    (finishEdges l period).getLast? = some period := by
  unfold finishEdges
  simp only
  set l1 := if l.getLast? = some period then l else l ++ [period] with hl1
  have h1 : l1.getLast? = some period := by
    rw [hl1]; split
    · assumption
    · simp
  split
  · rename_i h0
    cases hl : l1 with
    | nil => simp [hl] at h1
    | cons a t =>
      rw [hl] at h0 h1
      simp only [List.head?_cons, Option.some.injEq] at h0
      subst h0
      cases t with
      | nil => simp at h1; exact absurd h1.symm hp
      | cons b t => simpa using h1
  · exact h1

/-- The last edges of a vector cell are the periods. -/
theorem drawLayer_last {period : ℝ × ℝ} {base : ℂ} {objs : List VObj} {c : VCell}
    (hx : period.1 ≠ 0) (hy : period.2 ≠ 0) (h : drawLayer period base objs = .ok c) :
    c.x (-1) = period.1 ∧ c.y (-1) = period.2 := by
  unfold drawLayer vectorPerLayer toVCell at h
  simp only [Except.bind_ok] at h
  obtain ⟨r, ⟨m, hm, e⟩, h⟩ := h
  simp only [Except.ok.injEq] at e
  subst e
  split at h
  · rename_i hne
    simp only [Except.ok.injEq] at h
    subst h
    simp only at hne ⊢
    rw [get_neg_one hne.1, get_neg_one hne.2]
    have h1 := finishEdges_last (l := (gridLayer objs).cols) hx
    have h2 := finishEdges_last (l := (gridLayer objs).rows) hy
    rw [List.getLast?_eq_getLast_of_ne_nil (by intro e; simp [e] at hne)] at h1 h2
    exact ⟨by simpa using h1, by simpa using h2⟩
  · simp at h

end Meent
