import Verif.Spec.Rotated
import Mathlib.Tactic.Linarith
import Mathlib.Tactic.LinearCombination
import Mathlib.Tactic.FieldSimp
import Mathlib.Tactic.NormNum
import Mathlib.Analysis.SpecialFunctions.Trigonometric.Basic

/-!
# Rotated rectangles (helper lemmas)
-/

set_option linter.unusedSimpArgs false
set_option linter.unusedVariables false

namespace Meent

open Spec

/-! ### Reduction to the first quadrant -/

open Classical in
/-- The corner bookkeeping for an angle in the first quadrant. -/
noncomputable def quadInfo (cx cy lx ly α : ℝ) : RotInfo :=
  if (corner cx cy α (-lx / 2) (ly / 2)).2 > (corner cx cy α (lx / 2) (-ly / 2)).2 then
    ⟨corner cx cy α (lx / 2) (ly / 2), corner cx cy α (-lx / 2) (ly / 2),
      corner cx cy α (lx / 2) (-ly / 2), corner cx cy α (-lx / 2) (-ly / 2), lx,
      Real.pi / 2 - α, true⟩
  else ⟨corner cx cy α (lx / 2) (ly / 2), corner cx cy α (lx / 2) (-ly / 2),
      corner cx cy α (-lx / 2) (ly / 2), corner cx cy α (-lx / 2) (-ly / 2), ly,
      Real.pi / 2 - α, false⟩

theorem corner_quarter (cx cy α x y : ℝ) :
    corner cx cy (α + Real.pi / 2) x y = corner cx cy α (-y) x := by
  unfold corner
  rw [Real.cos_add_pi_div_two, Real.sin_add_pi_div_two]
  ext <;> simp <;> ring

theorem inRect_quarter (cx cy lx ly α x y : ℝ) :
    InRect cx cy lx ly (α + Real.pi / 2) x y ↔ InRect cx cy ly lx α x y := by
  unfold InRect
  rw [Real.cos_add_pi_div_two, Real.sin_add_pi_div_two, and_comm]
  have : -Real.cos α * (x - cx) + -Real.sin α * (y - cy) =
      -(Real.cos α * (x - cx) + Real.sin α * (y - cy)) := by ring
  rw [this, abs_neg]

theorem inRect_prev (cx cy lx ly a x y : ℝ) :
    InRect cx cy lx ly a x y ↔ InRect cx cy ly lx (a - Real.pi / 2) x y := by
  have h := inRect_quarter cx cy lx ly (a - Real.pi / 2) x y
  rwa [sub_add_cancel] at h

/-- The rotated corners of any tilted rectangle are those of a rectangle tilted by less than a right
angle. -/
theorem rotInfo_quad {cx cy lx ly a : ℝ} (h0 : 0 ≤ a) (h1 : a < 2 * Real.pi)
    (hx : 0 < lx) (hy : 0 < ly)
    (hn : ∀ k : ℤ, a ≠ k * (Real.pi / 2)) :
    ∃ α lx' ly', 0 < α ∧ α < Real.pi / 2 ∧ 0 < lx' ∧ 0 < ly' ∧
      rotInfo cx cy lx ly a = .ok (quadInfo cx cy lx' ly' α) ∧
      ∀ x y, InRect cx cy lx ly a x y ↔ InRect cx cy lx' ly' α x y := by
  have n0 : a ≠ 0 := by simpa using hn 0
  have n1 : a ≠ Real.pi / 2 := by simpa using hn 1
  have n2 : a ≠ Real.pi := by
    have := hn 2
    push_cast at this
    intro h
    exact this (by rw [h]; ring)
  have n3 : a ≠ Real.pi / 2 * 3 := by
    have := hn 3
    push_cast at this
    intro h
    exact this (by rw [h]; ring)
  by_cases q1 : a < Real.pi / 2
  · refine ⟨a, lx, ly, lt_of_le_of_ne h0 n0.symm, q1, hx, hy, ?_, fun _ _ => Iff.rfl⟩
    unfold rotInfo quadInfo
    simp only
    rw [if_pos ⟨h0, q1⟩]
  by_cases q2 : a < Real.pi
  · refine ⟨a - Real.pi / 2, ly, lx, ?_, by linarith, hy, hx, ?_, ?_⟩
    · have := lt_of_le_of_ne (not_lt.mp q1) n1.symm; linarith
    · obtain ⟨α, rfl⟩ : ∃ α, a = α + Real.pi / 2 := ⟨a - Real.pi / 2, by ring⟩
      unfold rotInfo quadInfo
      simp only [corner_quarter, add_sub_cancel_right]
      rw [if_neg (fun h => q1 h.2), if_pos ⟨not_lt.mp q1, q2⟩]
      have e : Real.pi - (α + Real.pi / 2) = Real.pi / 2 - α := by ring
      simp only [e, neg_div, neg_neg]
    · intro x y
      rw [inRect_prev]
  by_cases q3 : a < Real.pi / 2 * 3
  · refine ⟨a - Real.pi / 2 - Real.pi / 2, lx, ly, ?_, by linarith, hx, hy, ?_, ?_⟩
    · have := lt_of_le_of_ne (not_lt.mp q2) n2.symm; linarith
    · obtain ⟨α, rfl⟩ : ∃ α, a = α + Real.pi / 2 + Real.pi / 2 :=
        ⟨a - Real.pi / 2 - Real.pi / 2, by ring⟩
      unfold rotInfo quadInfo
      simp only [corner_quarter, add_sub_cancel_right]
      rw [if_neg (fun h => q1 h.2), if_neg (fun h => q2 h.2), if_pos ⟨not_lt.mp q2, q3⟩]
      have e : Real.pi * 3 / 2 - (α + Real.pi / 2 + Real.pi / 2) = Real.pi / 2 - α := by ring
      simp only [e, neg_div, neg_neg]
    · intro x y
      rw [inRect_prev, inRect_prev]
  · refine ⟨a - Real.pi / 2 - Real.pi / 2 - Real.pi / 2, ly, lx, ?_, by linarith, hy, hx, ?_, ?_⟩
    · have := lt_of_le_of_ne (not_lt.mp q3) n3.symm; linarith
    · obtain ⟨α, rfl⟩ : ∃ α, a = α + Real.pi / 2 + Real.pi / 2 + Real.pi / 2 :=
        ⟨a - Real.pi / 2 - Real.pi / 2 - Real.pi / 2, by ring⟩
      unfold rotInfo quadInfo
      simp only [corner_quarter, add_sub_cancel_right]
      rw [if_neg (fun h => q1 h.2), if_neg (fun h => q2 h.2), if_neg (fun h => q3 h.2),
        if_pos ⟨not_lt.mp q3, by linarith⟩]
      have e : Real.pi * 2 - (α + Real.pi / 2 + Real.pi / 2 + Real.pi / 2) = Real.pi / 2 - α := by
        ring
      simp only [e, neg_div, neg_neg]
    · intro x y
      rw [inRect_prev, inRect_prev, inRect_prev]

/-- Python's remainder. -/
theorem pyMod_bounds (a : ℝ) {b : ℝ} (hb : 0 < b) : 0 ≤ pyMod a b ∧ pyMod a b < b := by
  unfold pyMod
  have h1 := Int.floor_le (a / b)
  have h2 := Int.lt_floor_add_one (a / b)
  rw [le_div_iff₀ hb] at h1
  rw [div_lt_iff₀ hb] at h2
  constructor <;> nlinarith

theorem pyMod_id {a b : ℝ} (h0 : 0 ≤ a) (h1 : a < b) : pyMod a b = a := by
  unfold pyMod
  have hb : 0 < b := lt_of_le_of_lt h0 h1
  have : ⌊a / b⌋ = 0 := by
    rw [Int.floor_eq_iff]
    refine ⟨by simpa using div_nonneg h0 hb.le, ?_⟩
    rw [div_lt_iff₀ hb]
    simpa using h1
  rw [this]
  simp

theorem inRect_mod (cx cy lx ly angle x y : ℝ) :
    InRect cx cy lx ly angle x y ↔ InRect cx cy lx ly (pyMod angle (2 * Real.pi)) x y := by
  have e : pyMod angle (2 * Real.pi) = angle - (⌊angle / (2 * Real.pi)⌋ : ℤ) * (2 * Real.pi) := by
    unfold pyMod; ring
  unfold InRect
  rw [e, Real.cos_sub_int_mul_two_pi, Real.sin_sub_int_mul_two_pi]

/-- A tilted rectangle goes through the slicing branch, and its outline is that of a rectangle
tilted by less than a right angle. -/
theorem rectangle_tilted {cx cy lx ly : ℝ} {n : ℂ} {angle : ℝ} {nt np : ℕ} {objs : List VObj}
    (ht : Tilted angle) (hx : 0 < lx) (hy : 0 < ly)
    (h : rectangle cx cy lx ly n angle nt np = .ok objs) :
    nt ≠ 0 ∧ np ≠ 0 ∧ ∃ α lx' ly', 0 < α ∧ α < Real.pi / 2 ∧ 0 < lx' ∧ 0 < ly' ∧
      (∀ x y, InRect cx cy lx ly angle x y ↔ InRect cx cy lx' ly' α x y) ∧
      objs = slices (quadInfo cx cy lx' ly' α).top2_left n
        (outline (quadInfo cx cy lx' ly' α) nt np) := by
  have hpi := Real.pi_pos
  have hb := pyMod_bounds angle (b := 2 * Real.pi) (by linarith)
  have e : pyMod angle (2 * Real.pi) = angle - 2 * Real.pi * (⌊angle / (2 * Real.pi)⌋ : ℤ) := rfl
  unfold rectangle at h
  simp only at h
  rw [abs_of_nonneg hb.1, pyMod_id hb.1 hb.2] at h
  have far : ∀ j : ℤ, 1 / 100000 < |pyMod angle (2 * Real.pi) - j * (Real.pi / 2)| := by
    intro j
    have := ht (j + 4 * ⌊angle / (2 * Real.pi)⌋)
    rw [e]
    push_cast at this
    refine lt_of_lt_of_eq this (congrArg _ ?_)
    ring
  have skip : ∀ j : ℤ, ¬ ((j : ℝ) * Real.pi / 2 - 1 / 100000 ≤ pyMod angle (2 * Real.pi) ∧
      pyMod angle (2 * Real.pi) ≤ (j : ℝ) * Real.pi / 2 + 1 / 100000) := by
    rintro j ⟨h1, h2⟩
    have := far j
    rw [lt_abs] at this
    rcases this with h | h <;> linarith
  have s0 := skip 0
  have s1 := skip 1
  have s2 := skip 2
  have s3 := skip 3
  push_cast at s0 s1 s2 s3
  rw [if_neg s0, if_neg s1, if_neg s2, if_neg s3] at h
  obtain ⟨α, lx', ly', a0, a1, l0, l1, hr, hin⟩ := rotInfo_quad (cx := cx) (cy := cy) hb.1 hb.2 hx hy
    (by
      intro k hk
      have := far k
      rw [hk, sub_self, abs_zero] at this
      norm_num at this)
  rw [hr] at h
  change (if nt = 0 ∨ np = 0 then Except.error Err.nan else _) = _ at h
  split_ifs at h with hz
  cases h
  rw [not_or] at hz
  refine ⟨hz.1, hz.2, α, lx', ly', a0, a1, l0, l1, fun x y => ?_, rfl⟩
  rw [inRect_mod, hin]

/-! ### Heights -/

/-- The corners from top to bottom. -/
theorem quad_heights {cx cy lx ly α : ℝ} (h0 : 0 < α) (h1 : α < Real.pi / 2) (hx : 0 < lx)
    (hy : 0 < ly) :
    let r := quadInfo cx cy lx ly α
    r.top2.2 ≤ r.top1.2 ∧ r.top3.2 ≤ r.top2.2 ∧ r.top4.2 < r.top3.2 ∧
      r.top1 = corner cx cy α (lx / 2) (ly / 2) ∧ r.top4 = corner cx cy α (-lx / 2) (-ly / 2) := by
  have hc : 0 < Real.cos α := Real.cos_pos_of_mem_Ioo ⟨by linarith, h1⟩
  have hs : 0 < Real.sin α := Real.sin_pos_of_pos_of_lt_pi h0 (by linarith [Real.pi_pos])
  have p1 := mul_pos hc hy
  have p2 := mul_pos hs hx
  intro r
  by_cases hb : (corner cx cy α (-lx / 2) (ly / 2)).2 > (corner cx cy α (lx / 2) (-ly / 2)).2
  · have hr : r = _ := if_pos hb
    rw [hr]
    simp only [corner] at hb ⊢
    refine ⟨by nlinarith, hb.le, by nlinarith, trivial, trivial⟩
  · have hr : r = _ := if_neg hb
    rw [hr]
    simp only [corner] at hb ⊢
    refine ⟨by nlinarith, not_lt.mp hb, by nlinarith, trivial, trivial⟩

/-- The vertical extent of a rectangle. -/
theorem inRect_extent {cx cy lx ly α x y : ℝ} (h0 : 0 < α) (h1 : α < Real.pi / 2)
    (h : InRect cx cy lx ly α x y) :
    (corner cx cy α (-lx / 2) (-ly / 2)).2 ≤ y ∧ y ≤ (corner cx cy α (lx / 2) (ly / 2)).2 := by
  have hc : 0 < Real.cos α := Real.cos_pos_of_mem_Ioo ⟨by linarith, h1⟩
  have hs : 0 < Real.sin α := Real.sin_pos_of_pos_of_lt_pi h0 (by linarith [Real.pi_pos])
  have hcs := Real.sin_sq_add_cos_sq α
  obtain ⟨hu, hv⟩ := h
  rw [abs_le] at hu hv
  set c := Real.cos α
  set s := Real.sin α
  have e : y - cy = s * (c * (x - cx) + s * (y - cy)) + c * (-s * (x - cx) + c * (y - cy)) := by
    linear_combination -(y - cy) * hcs
  simp only [corner]
  constructor <;> nlinarith [hu.1, hu.2, hv.1, hv.2]

/-- Every height between the lowest and the highest corner is met by the rectangle. -/
theorem extent_inRect {cx cy lx ly α y : ℝ} (h0 : 0 < α) (h1 : α < Real.pi / 2) (hx : 0 < lx)
    (hy : 0 < ly) (hl : (corner cx cy α (-lx / 2) (-ly / 2)).2 ≤ y)
    (hh : y ≤ (corner cx cy α (lx / 2) (ly / 2)).2) : ∃ x, InRect cx cy lx ly α x y := by
  have hc : 0 < Real.cos α := Real.cos_pos_of_mem_Ioo ⟨by linarith, h1⟩
  have hs : 0 < Real.sin α := Real.sin_pos_of_pos_of_lt_pi h0 (by linarith [Real.pi_pos])
  have hcs := Real.sin_sq_add_cos_sq α
  have p1 := mul_pos hc hy
  have p2 := mul_pos hs hx
  simp only [corner] at hl hh
  unfold InRect
  set c := Real.cos α
  set s := Real.sin α
  -- the point on the diagonal from the lowest to the highest corner
  set H := (s * lx + c * ly) / 2 with hH
  have hHp : 0 < H := by rw [hH]; linarith
  set t := (y - cy) / H with ht
  have hty : y - cy = t * H := by rw [ht]; field_simp
  have t1 : t ≤ 1 := by rw [ht, div_le_one hHp]; rw [hH]; linarith
  have t0 : -1 ≤ t := by rw [ht, le_div_iff₀ hHp]; rw [hH]; linarith
  refine ⟨cx + t * (c * lx - s * ly) / 2, ?_⟩
  have e1 : c * (cx + t * (c * lx - s * ly) / 2 - cx) + s * (y - cy) = t * (lx / 2) := by
    rw [hty, hH]
    linear_combination t * lx / 2 * hcs
  have e2 : -s * (cx + t * (c * lx - s * ly) / 2 - cx) + c * (y - cy) = t * (ly / 2) := by
    rw [hty, hH]
    linear_combination t * ly / 2 * hcs
  rw [e1, e2, abs_le, abs_le]
  refine ⟨⟨?_, ?_⟩, ⟨?_, ?_⟩⟩ <;> nlinarith

/-! ### Consecutive samples -/

/-- Between a sample above and a sample below there is a slice. -/
theorem chain_cover (left : Bool) (n : ℂ) (y : ℝ) : ∀ (l : List Sample) (a b : Sample),
    l.head? = some a → l.getLast? = some b → y ≤ a.y → b.y ≤ y → 2 ≤ l.length →
    ∃ o ∈ slices left n l, o.r0 ≤ y ∧ y ≤ o.r1 := by
  intro l
  induction l with
  | nil => intro a b h; simp at h
  | cons p l ih =>
    intro a b ha hb h1 h2 hlen
    simp only [List.head?_cons, Option.some.injEq] at ha
    subst ha
    cases l with
    | nil => simp at hlen
    | cons q l =>
      by_cases hq : q.y ≤ y
      · unfold slices
        refine ⟨_, List.mem_cons_self, ?_⟩
        split_ifs
        · exact ⟨hq, h1⟩
        · exact ⟨hq, h1⟩
      · cases l with
        | nil =>
          simp only [List.getLast?_cons_cons, List.getLast?_singleton, Option.some.injEq] at hb
          subst hb
          exact absurd h2 hq
        | cons r l =>
          obtain ⟨o, ho, h⟩ := ih q b rfl (by simpa using hb) (not_le.mp hq).le h2 (by simp)
          refine ⟨o, ?_, h⟩
          rw [slices]
          exact List.mem_cons_of_mem _ ho

theorem mem_slices {left : Bool} {n : ℂ} {R : Sample → Sample → Prop} : ∀ {l : List Sample},
    l.IsChain R → ∀ o ∈ slices left n l, ∃ a b, R a b ∧ a ∈ l ∧ b ∈ l ∧ o =
      (if left then
        { r0 := b.y, c0 := (a.x + b.x) / 2, r1 := a.y, c1 := (a.xcp + b.xcp) / 2, n := n }
       else
        { r0 := b.y, c0 := (a.xcp + b.xcp) / 2, r1 := a.y, c1 := (a.x + b.x) / 2, n := n }) := by
  intro l
  induction l with
  | nil => intro _ o ho; simp [slices] at ho
  | cons p l ih =>
    intro hl o ho
    cases l with
    | nil => simp [slices] at ho
    | cons q l =>
      rw [slices] at ho
      rw [List.isChain_cons_cons] at hl
      rcases List.mem_cons.mp ho with h | h
      · exact ⟨p, q, hl.1, by simp, by simp, h⟩
      · obtain ⟨a, b, h1, h2, h3, h4⟩ := ih hl.2 o h
        exact ⟨a, b, h1, List.mem_cons_of_mem _ h2, List.mem_cons_of_mem _ h3, h4⟩

end Meent
