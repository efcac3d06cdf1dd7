import Verif.Lemmas.Rotated

/-!
# The slices of a rotated rectangle (helper lemmas)
-/

set_option linter.unusedSimpArgs false
set_option linter.unusedVariables false

namespace Meent

open Spec

/-- The two ends of a horizontal line at height `y`: the left one on the top side (`tl`) or on the
left side, the right one on the right side (`tr`) or on the bottom side. -/
def Cls (cx cy lx ly α : ℝ) (tl tr : Bool) (xl xr y : ℝ) : Prop :=
  (if tl then -Real.sin α * (xl - cx) + Real.cos α * (y - cy) = ly / 2 ∧
      (-Real.sin α * lx + Real.cos α * ly) / 2 ≤ y - cy
    else Real.cos α * (xl - cx) + Real.sin α * (y - cy) = -(lx / 2) ∧
      y - cy ≤ (-Real.sin α * lx + Real.cos α * ly) / 2) ∧
  (if tr then Real.cos α * (xr - cx) + Real.sin α * (y - cy) = lx / 2 ∧
      (Real.sin α * lx - Real.cos α * ly) / 2 ≤ y - cy
    else -Real.sin α * (xr - cx) + Real.cos α * (y - cy) = -(ly / 2) ∧
      y - cy ≤ (Real.sin α * lx - Real.cos α * ly) / 2)

theorem Cls.mid {cx cy lx ly α : ℝ} {tl tr : Bool} {xl xr y xl' xr' y' : ℝ}
    (h : Cls cx cy lx ly α tl tr xl xr y) (h' : Cls cx cy lx ly α tl tr xl' xr' y') :
    Cls cx cy lx ly α tl tr ((xl + xl') / 2) ((xr + xr') / 2) ((y + y') / 2) := by
  obtain ⟨h1, h2⟩ := h
  obtain ⟨k1, k2⟩ := h'
  constructor
  · cases tl
    · simp only [Bool.false_eq_true, if_false] at h1 k1 ⊢
      exact ⟨by linear_combination (h1.1 + k1.1) / 2, by linarith [h1.2, k1.2]⟩
    · simp only [if_true] at h1 k1 ⊢
      exact ⟨by linear_combination (h1.1 + k1.1) / 2, by linarith [h1.2, k1.2]⟩
  · cases tr
    · simp only [Bool.false_eq_true, if_false] at h2 k2 ⊢
      exact ⟨by linear_combination (h2.1 + k2.1) / 2, by linarith [h2.2, k2.2]⟩
    · simp only [if_true] at h2 k2 ⊢
      exact ⟨by linear_combination (h2.1 + k2.1) / 2, by linarith [h2.2, k2.2]⟩

/-- The line between the two ends is what the rectangle contains at that height. -/
theorem Cls.chord {cx cy lx ly α : ℝ} (h0 : 0 < α) (h1 : α < Real.pi / 2) {tl tr : Bool}
    {xl xr y : ℝ} (h : Cls cx cy lx ly α tl tr xl xr y) (x : ℝ) :
    (xl ≤ x ∧ x ≤ xr) ↔ InRect cx cy lx ly α x y := by
  have hc : 0 < Real.cos α := Real.cos_pos_of_mem_Ioo ⟨by linarith, h1⟩
  have hs : 0 < Real.sin α := Real.sin_pos_of_pos_of_lt_pi h0 (by linarith [Real.pi_pos])
  have hcs := Real.sin_sq_add_cos_sq α
  unfold Cls at h
  unfold InRect
  set c := Real.cos α
  set s := Real.sin α
  rw [abs_le, abs_le]
  obtain ⟨hl, hr⟩ := h
  have hl' : xl ≤ x ↔ (-(lx / 2) ≤ c * (x - cx) + s * (y - cy) ∧
      -s * (x - cx) + c * (y - cy) ≤ ly / 2) := by
    cases tl
    · simp only [Bool.false_eq_true, if_false] at hl
      obtain ⟨e, hy⟩ := hl
      have e2 : c * (-s * (xl - cx) + c * (y - cy)) = (y - cy) + s * lx / 2 := by
        linear_combination -s * e + (y - cy) * hcs
      constructor
      · intro hx
        have m1 := mul_nonneg hc.le (sub_nonneg.mpr hx)
        have m2 := mul_nonneg hs.le (sub_nonneg.mpr hx)
        refine ⟨by linarith, ?_⟩
        have : c * (-s * (xl - cx) + c * (y - cy)) ≤ c * (ly / 2) := by rw [e2]; linarith
        have := le_of_mul_le_mul_left this hc
        linarith
      · rintro ⟨ha, -⟩
        have : c * (xl - cx) ≤ c * (x - cx) := by linarith
        have := le_of_mul_le_mul_left this hc
        linarith
    · simp only [if_true] at hl
      obtain ⟨e, hy⟩ := hl
      have e2 : s * (c * (xl - cx) + s * (y - cy)) = (y - cy) - c * ly / 2 := by
        linear_combination -c * e + (y - cy) * hcs
      constructor
      · intro hx
        have m1 := mul_nonneg hc.le (sub_nonneg.mpr hx)
        have m2 := mul_nonneg hs.le (sub_nonneg.mpr hx)
        refine ⟨?_, by linarith⟩
        have : s * (-(lx / 2)) ≤ s * (c * (xl - cx) + s * (y - cy)) := by rw [e2]; linarith
        have := le_of_mul_le_mul_left this hs
        linarith
      · rintro ⟨-, ha⟩
        have : s * (xl - cx) ≤ s * (x - cx) := by linarith
        have := le_of_mul_le_mul_left this hs
        linarith
  have hr' : x ≤ xr ↔ (c * (x - cx) + s * (y - cy) ≤ lx / 2 ∧
      -(ly / 2) ≤ -s * (x - cx) + c * (y - cy)) := by
    cases tr
    · simp only [Bool.false_eq_true, if_false] at hr
      obtain ⟨e, hy⟩ := hr
      have e2 : s * (c * (xr - cx) + s * (y - cy)) = (y - cy) + c * ly / 2 := by
        linear_combination -c * e + (y - cy) * hcs
      constructor
      · intro hx
        have m1 := mul_nonneg hc.le (sub_nonneg.mpr hx)
        have m2 := mul_nonneg hs.le (sub_nonneg.mpr hx)
        refine ⟨?_, by linarith⟩
        have : s * (c * (xr - cx) + s * (y - cy)) ≤ s * (lx / 2) := by rw [e2]; linarith
        have := le_of_mul_le_mul_left this hs
        linarith
      · rintro ⟨-, ha⟩
        have : s * (x - cx) ≤ s * (xr - cx) := by linarith
        have := le_of_mul_le_mul_left this hs
        linarith
    · simp only [if_true] at hr
      obtain ⟨e, hy⟩ := hr
      have e2 : c * (-s * (xr - cx) + c * (y - cy)) = (y - cy) - s * lx / 2 := by
        linear_combination -s * e + (y - cy) * hcs
      constructor
      · intro hx
        have m1 := mul_nonneg hc.le (sub_nonneg.mpr hx)
        have m2 := mul_nonneg hs.le (sub_nonneg.mpr hx)
        refine ⟨by linarith, ?_⟩
        have : c * (-(ly / 2)) ≤ c * (-s * (xr - cx) + c * (y - cy)) := by rw [e2]; linarith
        have := le_of_mul_le_mul_left this hc
        linarith
      · rintro ⟨ha, -⟩
        have : c * (x - cx) ≤ c * (xr - cx) := by linarith
        have := le_of_mul_le_mul_left this hc
        linarith
  rw [hl', hr']
  tauto

/-- Two samples on the same pair of sides, the second not above the first. -/
def SameSides (cx cy lx ly α : ℝ) (left : Bool) (a b : Sample) : Prop :=
  b.y ≤ a.y ∧ ∃ tl tr,
    Cls cx cy lx ly α tl tr (if left then a.x else a.xcp) (if left then a.xcp else a.x) a.y ∧
    Cls cx cy lx ly α tl tr (if left then b.x else b.xcp) (if left then b.xcp else b.x) b.y

theorem isChain_range {R : Sample → Sample → Prop} (f : ℕ → Sample) (n : ℕ)
    (h : ∀ k, k < n → R (f k) (f (k + 1))) : ((List.range (n + 1)).map f).IsChain R := by
  induction n with
  | zero => simp
  | succ n ih =>
    rw [List.range_succ, List.map_append, List.isChain_append]
    refine ⟨ih fun k hk => h k (by omega), by simp, ?_⟩
    intro a ha b hb
    rw [List.range_succ, List.map_append] at ha
    simp only [List.map_cons, List.map_nil, List.getLast?_append, List.getLast?_singleton,
      Option.mem_def, Option.some_or, Option.some.injEq] at ha
    simp only [List.map_cons, List.map_nil, List.head?_cons, Option.mem_def, Option.some.injEq] at hb
    subst ha hb
    exact h n (by omega)

theorem getLast?_range (f : ℕ → Sample) (n : ℕ) :
    ((List.range (n + 1)).map f).getLast? = some (f n) := by
  rw [List.range_succ, List.map_append]
  simp

theorem head?_range (f : ℕ → Sample) (n : ℕ) :
    ((List.range (n + 1)).map f).head? = some (f 0) := by
  rw [List.range_succ_eq_map]
  simp

theorem isChain_three {R : Sample → Sample → Prop} (f1 f2 f3 : ℕ → Sample) (n m k : ℕ)
    (h1 : ∀ i, i < n → R (f1 i) (f1 (i + 1))) (h2 : ∀ i, i < m → R (f2 i) (f2 (i + 1)))
    (h3 : ∀ i, i < k → R (f3 i) (f3 (i + 1))) (h12 : R (f1 n) (f2 0)) (h23 : R (f2 m) (f3 0)) :
    ((List.range (n + 1)).map f1 ++ (List.range (m + 1)).map f2 ++
      (List.range (k + 1)).map f3).IsChain R := by
  rw [List.isChain_append, List.isChain_append]
  refine ⟨⟨isChain_range f1 n h1, isChain_range f2 m h2, ?_⟩, isChain_range f3 k h3, ?_⟩
  · intro a ha b hb
    rw [getLast?_range, Option.mem_def, Option.some.injEq] at ha
    rw [head?_range, Option.mem_def, Option.some.injEq] at hb
    subst ha hb
    exact h12
  · intro a ha b hb
    rw [List.getLast?_append, getLast?_range, Option.some_or, Option.mem_def,
      Option.some.injEq] at ha
    rw [head?_range, Option.mem_def, Option.some.injEq] at hb
    subst ha hb
    exact h23

theorem frac_mem {n k : ℕ} (hn : n ≠ 0) (hk : k ≤ n) : 0 ≤ (k : ℝ) / n ∧ (k : ℝ) / n ≤ 1 := by
  have h : (0 : ℝ) < n := by exact_mod_cast Nat.pos_of_ne_zero hn
  refine ⟨by positivity, ?_⟩
  rw [div_le_one h]
  exact_mod_cast hk

theorem frac_step {n k : ℕ} (hn : n ≠ 0) : (k : ℝ) / n ≤ ((k + 1 : ℕ) : ℝ) / n := by
  have h : (0 : ℝ) < n := by exact_mod_cast Nat.pos_of_ne_zero hn
  apply div_le_div_of_nonneg_right _ h.le
  push_cast
  linarith

/-- The outline when the second corner is on the left. -/
theorem chain_left {cx cy lx ly α : ℝ} (h0 : 0 < α) (h1 : α < Real.pi / 2) (hx : 0 < lx)
    (hy : 0 < ly) (hb : (corner cx cy α (-lx / 2) (ly / 2)).2 > (corner cx cy α (lx / 2) (-ly / 2)).2)
    {n : ℕ} (hn : n ≠ 0) :
    (outline (quadInfo cx cy lx ly α) n n).IsChain (SameSides cx cy lx ly α true) := by
  have hc : 0 < Real.cos α := Real.cos_pos_of_mem_Ioo ⟨by linarith, h1⟩
  have hs : 0 < Real.sin α := Real.sin_pos_of_pos_of_lt_pi h0 (by linarith [Real.pi_pos])
  have hcs := Real.sin_sq_add_cos_sq α
  have hn' : (n : ℝ) ≠ 0 := by exact_mod_cast hn
  have p1 := mul_pos hc hy
  have p2 := mul_pos hs hx
  rw [show quadInfo cx cy lx ly α = _ from if_pos hb]
  unfold outline
  simp only [corner] at hb ⊢
  simp only [if_true, Real.sin_pi_div_two_sub]
  set c := Real.cos α
  set s := Real.sin α
  have hl : c * (lx / c) = lx := by field_simp
  -- the three classes, with the fraction `t` of the side
  have k1 : ∀ t : ℝ, 0 ≤ t → t ≤ 1 → Cls cx cy lx ly α true true
      (c * (lx / 2) - s * (ly / 2) + cx - c * lx * t)
      (c * (lx / 2) - s * (ly / 2) + cx - c * lx * t + lx / c * t)
      (s * (lx / 2) + c * (ly / 2) + cy - s * lx * t) := by
    intro t t0 t1
    unfold Cls
    simp only [if_true]
    refine ⟨⟨?_, ?_⟩, ?_, ?_⟩
    · linear_combination ly / 2 * hcs
    · nlinarith
    · linear_combination (lx / 2 - lx * t) * hcs + t * hl
    · nlinarith
  have k2 : ∀ t : ℝ, 0 ≤ t → t ≤ 1 → Cls cx cy lx ly α false true
      (-(c * (lx / 2)) - s * (ly / 2) + cx + (c * lx + s * ly - lx / c) * t)
      (-(c * (lx / 2)) - s * (ly / 2) + cx + (c * lx + s * ly - lx / c) * t + lx / c)
      (-(s * (lx / 2)) + c * (ly / 2) + cy - (c * ly - s * lx) * t) := by
    intro t t0 t1
    unfold Cls
    simp only [if_true, Bool.false_eq_true, if_false]
    refine ⟨⟨?_, ?_⟩, ?_, ?_⟩
    · linear_combination (-(lx / 2) + lx * t) * hcs - t * hl
    · nlinarith
    · linear_combination (-(lx / 2) + lx * t) * hcs + (1 - t) * hl
    · nlinarith
  have k3 : ∀ t : ℝ, 0 ≤ t → t ≤ 1 → Cls cx cy lx ly α false false
      (c * (lx / 2) + s * (ly / 2) + cx - lx / c + (lx / c - c * lx) * t)
      (c * (lx / 2) + s * (ly / 2) + cx - lx / c + (lx / c - c * lx) * t + lx / c * (1 - t))
      (s * (lx / 2) - c * (ly / 2) + cy - s * lx * t) := by
    intro t t0 t1
    unfold Cls
    simp only [Bool.false_eq_true, if_false]
    refine ⟨⟨?_, ?_⟩, ?_, ?_⟩
    · linear_combination (lx / 2 - lx * t) * hcs - (1 - t) * hl
    · nlinarith
    · linear_combination -(ly / 2) * hcs
    · nlinarith
  have conv : ∀ {tl tr : Bool} {xl xr y xl' xr' y' : ℝ}, Cls cx cy lx ly α tl tr xl xr y →
      xl' = xl → xr' = xr → y' = y → Cls cx cy lx ly α tl tr xl' xr' y' := by
    intro tl tr xl xr y xl' xr' y' h a b d
    rw [a, b, d]
    exact h
  refine isChain_three _ _ _ n n n ?_ ?_ ?_ ?_ ?_
  · intro k hk
    have f := frac_mem hn hk.le
    have g := frac_mem hn (show k + 1 ≤ n from hk)
    have st := frac_step (k := k) hn
    refine ⟨?_, true, true, conv (k1 _ f.1 f.2) ?_ ?_ ?_, conv (k1 _ g.1 g.2) ?_ ?_ ?_⟩
    · simp only
      have := mul_le_mul_of_nonneg_left st p2.le
      push_cast at this ⊢
      ring_nf at this ⊢
      linarith
    all_goals simp only [if_true]; ring
  · intro k hk
    have f := frac_mem hn hk.le
    have g := frac_mem hn (show k + 1 ≤ n from hk)
    have st := frac_step (k := k) hn
    refine ⟨?_, false, true, conv (k2 _ f.1 f.2) ?_ ?_ ?_, conv (k2 _ g.1 g.2) ?_ ?_ ?_⟩
    · simp only
      have := mul_le_mul_of_nonneg_left st (show 0 ≤ c * ly - s * lx by linarith)
      push_cast at this ⊢
      ring_nf at this ⊢
      linarith
    all_goals simp only [if_true]; ring
  · intro k hk
    have f := frac_mem hn hk.le
    have g := frac_mem hn (show k + 1 ≤ n from hk)
    have st := frac_step (k := k) hn
    refine ⟨?_, false, false, conv (k3 _ f.1 f.2) ?_ ?_ ?_, conv (k3 _ g.1 g.2) ?_ ?_ ?_⟩
    · simp only
      have := mul_le_mul_of_nonneg_left st p2.le
      push_cast at this ⊢
      ring_nf at this ⊢
      linarith
    all_goals simp only [if_true]; field_simp; ring
  · refine ⟨?_, false, true, conv (k2 0 le_rfl zero_le_one) ?_ ?_ ?_,
      conv (k2 0 le_rfl zero_le_one) ?_ ?_ ?_⟩
    · simp only [Nat.cast_zero, mul_zero, sub_zero, div_mul_cancel₀ _ hn']
      linarith
    all_goals simp only [if_true, Nat.cast_zero, mul_zero, sub_zero, add_zero,
      div_mul_cancel₀ _ hn']; ring
  · refine ⟨?_, false, false, conv (k3 0 le_rfl zero_le_one) ?_ ?_ ?_,
      conv (k3 0 le_rfl zero_le_one) ?_ ?_ ?_⟩
    · simp only [Nat.cast_zero, mul_zero, sub_zero, div_mul_cancel₀ _ hn']
      linarith
    all_goals simp only [if_true, Nat.cast_zero, mul_zero, sub_zero, add_zero,
      div_mul_cancel₀ _ hn']; ring

/-- The outline when the second corner is on the right. -/
theorem chain_right {cx cy lx ly α : ℝ} (h0 : 0 < α) (h1 : α < Real.pi / 2) (hx : 0 < lx)
    (hy : 0 < ly)
    (hb : ¬ (corner cx cy α (-lx / 2) (ly / 2)).2 > (corner cx cy α (lx / 2) (-ly / 2)).2)
    {n : ℕ} (hn : n ≠ 0) :
    (outline (quadInfo cx cy lx ly α) n n).IsChain (SameSides cx cy lx ly α false) := by
  have hc : 0 < Real.cos α := Real.cos_pos_of_mem_Ioo ⟨by linarith, h1⟩
  have hs : 0 < Real.sin α := Real.sin_pos_of_pos_of_lt_pi h0 (by linarith [Real.pi_pos])
  have hcs := Real.sin_sq_add_cos_sq α
  have hn' : (n : ℝ) ≠ 0 := by exact_mod_cast hn
  have p1 := mul_pos hc hy
  have p2 := mul_pos hs hx
  rw [show quadInfo cx cy lx ly α = _ from if_neg hb]
  unfold outline
  simp only [corner] at hb ⊢
  simp only [Bool.false_eq_true, if_false, Real.cos_pi_div_two_sub]
  set c := Real.cos α
  set s := Real.sin α
  have hb' : c * ly ≤ s * lx := by linarith
  have hl : s * (ly / s) = ly := by field_simp
  have k1 : ∀ t : ℝ, 0 ≤ t → t ≤ 1 → Cls cx cy lx ly α true true
      (c * (lx / 2) - s * (ly / 2) + cx + s * ly * t - ly / s * t)
      (c * (lx / 2) - s * (ly / 2) + cx + s * ly * t)
      (s * (lx / 2) + c * (ly / 2) + cy - c * ly * t) := by
    intro t t0 t1
    unfold Cls
    simp only [if_true]
    refine ⟨⟨?_, ?_⟩, ?_, ?_⟩
    · linear_combination (ly / 2 - ly * t) * hcs + t * hl
    · nlinarith
    · linear_combination lx / 2 * hcs
    · nlinarith
  have k2 : ∀ t : ℝ, 0 ≤ t → t ≤ 1 → Cls cx cy lx ly α true false
      (c * (lx / 2) + s * (ly / 2) + cx - (c * lx + s * ly - ly / s) * t - ly / s)
      (c * (lx / 2) + s * (ly / 2) + cx - (c * lx + s * ly - ly / s) * t)
      (s * (lx / 2) - c * (ly / 2) + cy - (s * lx - c * ly) * t) := by
    intro t t0 t1
    unfold Cls
    simp only [if_true, Bool.false_eq_true, if_false]
    refine ⟨⟨?_, ?_⟩, ?_, ?_⟩
    · linear_combination (-(ly / 2) + ly * t) * hcs + (1 - t) * hl
    · nlinarith
    · linear_combination (-(ly / 2) + ly * t) * hcs - t * hl
    · nlinarith
  have k3 : ∀ t : ℝ, 0 ≤ t → t ≤ 1 → Cls cx cy lx ly α false false
      (-(c * (lx / 2)) - s * (ly / 2) + cx + ly / s - (ly / s - s * ly) * t - ly / s * (1 - t))
      (-(c * (lx / 2)) - s * (ly / 2) + cx + ly / s - (ly / s - s * ly) * t)
      (-(s * (lx / 2)) + c * (ly / 2) + cy - c * ly * t) := by
    intro t t0 t1
    unfold Cls
    simp only [Bool.false_eq_true, if_false]
    refine ⟨⟨?_, ?_⟩, ?_, ?_⟩
    · linear_combination -(lx / 2) * hcs
    · nlinarith
    · linear_combination (ly / 2 - ly * t) * hcs - (1 - t) * hl
    · nlinarith
  have conv : ∀ {tl tr : Bool} {xl xr y xl' xr' y' : ℝ}, Cls cx cy lx ly α tl tr xl xr y →
      xl' = xl → xr' = xr → y' = y → Cls cx cy lx ly α tl tr xl' xr' y' := by
    intro tl tr xl xr y xl' xr' y' h a b d
    rw [a, b, d]
    exact h
  refine isChain_three _ _ _ n n n ?_ ?_ ?_ ?_ ?_
  · intro k hk
    have f := frac_mem hn hk.le
    have g := frac_mem hn (show k + 1 ≤ n from hk)
    have st := frac_step (k := k) hn
    refine ⟨?_, true, true, conv (k1 _ f.1 f.2) ?_ ?_ ?_, conv (k1 _ g.1 g.2) ?_ ?_ ?_⟩
    · simp only
      have := mul_le_mul_of_nonneg_left st p1.le
      push_cast at this ⊢
      ring_nf at this ⊢
      linarith
    all_goals simp only [Bool.false_eq_true, if_false]; ring
  · intro k hk
    have f := frac_mem hn hk.le
    have g := frac_mem hn (show k + 1 ≤ n from hk)
    have st := frac_step (k := k) hn
    refine ⟨?_, true, false, conv (k2 _ f.1 f.2) ?_ ?_ ?_, conv (k2 _ g.1 g.2) ?_ ?_ ?_⟩
    · simp only
      have := mul_le_mul_of_nonneg_left st (show 0 ≤ s * lx - c * ly by linarith)
      push_cast at this ⊢
      ring_nf at this ⊢
      linarith
    all_goals simp only [Bool.false_eq_true, if_false]; ring
  · intro k hk
    have f := frac_mem hn hk.le
    have g := frac_mem hn (show k + 1 ≤ n from hk)
    have st := frac_step (k := k) hn
    refine ⟨?_, false, false, conv (k3 _ f.1 f.2) ?_ ?_ ?_, conv (k3 _ g.1 g.2) ?_ ?_ ?_⟩
    · simp only
      have := mul_le_mul_of_nonneg_left st p1.le
      push_cast at this ⊢
      ring_nf at this ⊢
      linarith
    all_goals simp only [Bool.false_eq_true, if_false]; field_simp; ring
  · refine ⟨?_, true, false, conv (k2 0 le_rfl zero_le_one) ?_ ?_ ?_,
      conv (k2 0 le_rfl zero_le_one) ?_ ?_ ?_⟩
    · simp only [Nat.cast_zero, mul_zero, sub_zero, div_mul_cancel₀ _ hn']
      linarith
    all_goals simp only [Bool.false_eq_true, if_false, Nat.cast_zero, mul_zero, sub_zero, add_zero,
      div_mul_cancel₀ _ hn']; ring
  · refine ⟨?_, false, false, conv (k3 0 le_rfl zero_le_one) ?_ ?_ ?_,
      conv (k3 0 le_rfl zero_le_one) ?_ ?_ ?_⟩
    · simp only [Nat.cast_zero, mul_zero, sub_zero, div_mul_cancel₀ _ hn']
      linarith
    all_goals simp only [Bool.false_eq_true, if_false, Nat.cast_zero, mul_zero, sub_zero, add_zero,
      div_mul_cancel₀ _ hn']; ring

end Meent
