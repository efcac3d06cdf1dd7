import Verif.Lemmas.RotatedChords

/-!
# Vertical extent of the slices of a rotated rectangle (helper lemmas)
-/

set_option linter.unusedSimpArgs false
set_option linter.unusedVariables false

namespace Meent

open Spec

theorem outline_shape (r : RotInfo) (nt np : ℕ) : ∃ f1 f2 f3 : ℕ → Sample,
    outline r nt np = (List.range (nt + 1)).map f1 ++ (List.range (np + 1)).map f2 ++
      (List.range (nt + 1)).map f3 ∧
    (∀ k, (f1 k).y = r.top1.2 - (r.top1.2 - r.top2.2) / np * k) ∧
    (∀ k, (f2 k).y = r.top2.2 - (r.top2.2 - r.top3.2) / np * k) ∧
    (∀ k, (f3 k).y = r.top3.2 - (r.top3.2 - r.top4.2) / np * k) := by
  unfold outline
  split_ifs
  · exact ⟨_, _, _, rfl, fun _ => rfl, fun _ => rfl, fun _ => rfl⟩
  · exact ⟨_, _, _, rfl, fun _ => rfl, fun _ => rfl, fun _ => rfl⟩

/-- With at least as many splits of the triangles as of the parallelogram every height is met. -/
theorem outline_cover {r : RotInfo} {nt np : ℕ} (hp : np ≠ 0) (hle : np ≤ nt) (n : ℂ) {y : ℝ}
    (h34 : r.top4.2 ≤ r.top3.2) (hl : r.top4.2 ≤ y) (hh : y ≤ r.top1.2) (left : Bool) :
    ∃ o ∈ slices left n (outline r nt np), o.r0 ≤ y ∧ y ≤ o.r1 := by
  obtain ⟨f1, f2, f3, e, y1, y2, y3⟩ := outline_shape r nt np
  refine chain_cover left n y _ (f1 0) (f3 nt) ?_ ?_ ?_ ?_ ?_
  · rw [e, List.append_assoc, List.head?_append, head?_range]
    rfl
  · rw [e, List.getLast?_append, getLast?_range]
    rfl
  · rw [y1]
    simpa using hh
  · rw [y3]
    have hp' : (0 : ℝ) < np := by exact_mod_cast Nat.pos_of_ne_zero hp
    have hq : (1 : ℝ) ≤ nt / np := by
      rw [le_div_iff₀ hp', one_mul]
      exact_mod_cast hle
    have : (r.top3.2 - r.top4.2) / np * nt = (r.top3.2 - r.top4.2) * (nt / np) := by ring
    rw [this]
    nlinarith
  · rw [e]
    simp
    omega

/-- With fewer splits of the triangles than of the parallelogram the outline ends too early. -/
theorem outline_short {r : RotInfo} {nt np : ℕ} (hlt : nt < np) (h12 : r.top2.2 ≤ r.top1.2)
    (h23 : r.top3.2 ≤ r.top2.2) (h34 : r.top4.2 < r.top3.2) :
    ∃ y0, r.top4.2 < y0 ∧ y0 ≤ r.top1.2 ∧ ∀ s ∈ outline r nt np, y0 ≤ s.y := by
  obtain ⟨f1, f2, f3, e, y1, y2, y3⟩ := outline_shape r nt np
  have hp : (0 : ℝ) < np := by exact_mod_cast (by omega : 0 < np)
  have hq : (nt : ℝ) / np < 1 := by
    rw [div_lt_one hp]
    exact_mod_cast hlt
  have hq0 : 0 ≤ (nt : ℝ) / np := by positivity
  refine ⟨r.top3.2 - (r.top3.2 - r.top4.2) * (nt / np), by nlinarith, by nlinarith, ?_⟩
  have fr : ∀ k : ℕ, k < nt + 1 → (k : ℝ) / np ≤ nt / np ∧ 0 ≤ (k : ℝ) / np := by
    intro k hk
    refine ⟨div_le_div_of_nonneg_right ?_ hp.le, by positivity⟩
    exact_mod_cast (by omega : k ≤ nt)
  intro s hs
  rw [e] at hs
  simp only [List.mem_append, List.mem_map, List.mem_range] at hs
  rcases hs with (⟨k, hk, rfl⟩ | ⟨k, hk, rfl⟩) | ⟨k, hk, rfl⟩
  · rw [y1]
    have h := fr k hk
    have : (r.top1.2 - r.top2.2) / np * k = (r.top1.2 - r.top2.2) * (k / np) := by ring
    rw [this]
    nlinarith
  · rw [y2]
    have h : (k : ℝ) / np ≤ 1 ∧ 0 ≤ (k : ℝ) / np := by
      refine ⟨?_, by positivity⟩
      rw [div_le_one hp]
      exact_mod_cast (by omega : k ≤ np)
    have : (r.top2.2 - r.top3.2) / np * k = (r.top2.2 - r.top3.2) * (k / np) := by ring
    rw [this]
    nlinarith
  · rw [y3]
    have h := fr k hk
    have : (r.top3.2 - r.top4.2) / np * k = (r.top3.2 - r.top4.2) * (k / np) := by ring
    rw [this]
    nlinarith

theorem slices_heights {left : Bool} {n : ℂ} {l : List Sample} {o : VObj}
    (ho : o ∈ slices left n l) : ∃ a ∈ l, ∃ b ∈ l, o.r0 = b.y ∧ o.r1 = a.y := by
  obtain ⟨a, b, -, ha, hb, rfl⟩ := mem_slices (R := fun _ _ => True)
    (by
      clear ho
      induction l with
      | nil => simp
      | cons p l ih =>
        cases l with
        | nil => simp
        | cons q l => exact List.isChain_cons_cons.mpr ⟨trivial, ih⟩) o ho
  refine ⟨a, ha, b, hb, ?_⟩
  split_ifs <;> exact ⟨rfl, rfl⟩

/-- With more splits of the triangles than of the parallelogram the outline goes on below the lowest
corner. -/
theorem outline_long {r : RotInfo} {nt np : ℕ} (hp0 : np ≠ 0) (hlt : np < nt)
    (h34 : r.top4.2 < r.top3.2) (left : Bool) (n : ℂ) :
    ∃ o ∈ slices left n (outline r nt np), o.r0 < o.r1 ∧ o.r1 ≤ r.top4.2 := by
  obtain ⟨f1, f2, f3, e, y1, y2, y3⟩ := outline_shape r nt np
  have hp : (0 : ℝ) < np := by exact_mod_cast Nat.pos_of_ne_zero hp0
  have last : ∀ (l : List Sample) (a b : Sample), ∃ o ∈ slices left n (l ++ [a, b]),
      o.r0 = b.y ∧ o.r1 = a.y := by
    intro l a b
    induction l with
    | nil =>
      refine ⟨_, by rw [List.nil_append, slices]; exact List.mem_cons_self, ?_⟩
      split_ifs <;> exact ⟨rfl, rfl⟩
    | cons p l ih =>
      obtain ⟨o, ho, h⟩ := ih
      refine ⟨o, ?_, h⟩
      cases l with
      | nil => rw [List.cons_append, List.nil_append, slices]; exact List.mem_cons_of_mem _ ho
      | cons q l =>
        rw [List.cons_append, List.cons_append, slices]
        exact List.mem_cons_of_mem _ ho
  obtain ⟨m, rfl⟩ : ∃ m, nt = m + 1 := ⟨nt - 1, by omega⟩
  have e' : outline r (m + 1) np = ((List.range (m + 1 + 1)).map f1 ++ (List.range (np + 1)).map f2 ++
      (List.range m).map f3) ++ [f3 m, f3 (m + 1)] := by
    rw [e, List.range_succ (n := m + 1), List.range_succ (n := m)]
    simp
  rw [e']
  obtain ⟨o, ho, h0, h1⟩ := last ((List.range (m + 1 + 1)).map f1 ++ (List.range (np + 1)).map f2 ++
      (List.range m).map f3) (f3 m) (f3 (m + 1))
  refine ⟨o, ho, ?_, ?_⟩
  · rw [h0, h1, y3, y3]
    have : 0 < (r.top3.2 - r.top4.2) / np := div_pos (by linarith) hp
    push_cast
    linarith
  · rw [h1, y3]
    have hq : (1 : ℝ) ≤ m / np := by
      rw [le_div_iff₀ hp, one_mul]
      exact_mod_cast (by omega : np ≤ m)
    have : (r.top3.2 - r.top4.2) / np * m = (r.top3.2 - r.top4.2) * (m / np) := by ring
    rw [this]
    nlinarith

/-! ### An example -/

theorem tilted_eighth : Tilted (Real.pi / 4) := by
  intro k
  have hpi := Real.two_le_pi
  rw [lt_abs]
  rcases le_or_gt k 0 with h | h
  · left
    have : (k : ℝ) ≤ 0 := by exact_mod_cast h
    nlinarith
  · right
    have : (1 : ℝ) ≤ k := by exact_mod_cast h
    nlinarith

theorem rectangle_eighth (nt np : ℕ) (h1 : nt ≠ 0) (h2 : np ≠ 0) :
    ∃ objs, rectangle 0 0 2 1 3 (Real.pi / 4) nt np = .ok objs := by
  have hpi := Real.two_le_pi
  unfold rectangle
  simp only
  have e : pyMod (Real.pi / 4) (2 * Real.pi) = Real.pi / 4 :=
    pyMod_id (by linarith) (by linarith)
  rw [e, abs_of_pos (by linarith), e]
  rw [if_neg (by rintro ⟨-, h⟩; linarith), if_neg (by rintro ⟨h, -⟩; linarith),
    if_neg (by rintro ⟨h, -⟩; linarith), if_neg (by rintro ⟨h, -⟩; linarith)]
  unfold rotInfo
  simp only
  rw [if_pos ⟨by linarith, by linarith⟩]
  change ∃ objs, (if nt = 0 ∨ np = 0 then Except.error Err.nan else _) = _
  rw [if_neg (by simp [h1, h2])]
  exact ⟨_, rfl⟩

end Meent
