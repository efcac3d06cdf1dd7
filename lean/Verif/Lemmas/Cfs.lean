import Verif.Spec.Pieces
import Verif.Lemmas.ConvMats
import Mathlib.MeasureTheory.Integral.IntervalIntegral.Basic

/-!
# Continuous Fourier series (helper lemmas)
-/

open Matrix

namespace Meent

set_option linter.unusedSectionVars false
set_option linter.unusedSimpArgs false

/-! ### `cfs2d` as an equality -/

theorem cfs2d_gen (cell : VCell) (cx cy : Bool) (fx fy : ℕ) :
    cfs2d cell cx cy fx fy = genConv (cfsC cell.x (cell.x (-1))) (cfsC cell.y (cell.y (-1))) cx cy fx fy
      (fun x y => cell.val y x) := by
  unfold cfs2d genConv
  cases invRuleY cy (fun x y => cell.val y x) with
  | error e => rfl
  | ok c' =>
    have e1 : forAllFin (fun x => fancy (cfs1 cell.y c' fy (cell.y (-1)) x)
        (fun (r c : Fin (2 * fy + 1)) => circulant r.val c.val + 2 * (fy : ℤ)))
        = .ok fun x => toepL (cfsC cell.y (cell.y (-1))) fy (c' x) :=
      forAllFin_ok.mpr fun x => fancy_cfs_ok.mpr rfl
    simp only [bind, Except.bind, e1]
    cases invIf (cx ^^ cy) (fun x => toepL (cfsC cell.y (cell.y (-1))) fy (c' x)) with
    | error e => rfl
    | ok a =>
      have e2 : forAllFin (fun ry => forAllFin (fun cy => fancy (cfs1 cell.x
          (fun (rc : Fin (2 * fy + 1) × Fin (2 * fy + 1)) x => a x rc.1 rc.2) fx (cell.x (-1)) (ry, cy))
          (fun (r c : Fin (2 * fx + 1)) => circulant r.val c.val + 2 * (fx : ℤ))))
          = .ok fun ry cy => toepL (cfsC cell.x (cell.x (-1))) fx (fun x => a x ry cy) :=
        forAllFin_ok.mpr fun ry => forAllFin_ok.mpr fun cy => fancy_cfs_ok.mpr rfl
      simp only [e2]
      rfl

/-! ### Summation by parts -/

/-- Sum over the cyclic jumps. -/
theorem cfsC_zero {k : ℕ} [NeZero k] (x : Fin k → ℝ) (p : ℝ) (a : Fin k → ℂ) :
    cfsC x p a 0 = (∑ j, (a j - a (j + 1)) * (x j : ℂ) + a 0 * (x (-1) : ℂ)) / p := by
  unfold cfsC
  rw [if_pos rfl]
  congr 1
  have h1 : ∀ j : Fin k, a j * ((if j = 0 then x 0 else x j - x (j - 1) : ℝ) : ℂ)
      = a j * (x j : ℂ) - a j * (x (j - 1) : ℂ) + (if j = 0 then a 0 * (x (-1) : ℂ) else 0) := by
    intro j
    by_cases h : j = 0
    · rw [h, if_pos rfl, if_pos rfl, zero_sub]; ring
    · rw [if_neg h, if_neg h]; push_cast; ring
  have h2 : ∑ j : Fin k, a j * (x (j - 1) : ℂ) = ∑ j : Fin k, a (j + 1) * (x j : ℂ) := by
    rw [← Equiv.sum_comp (Equiv.addRight (1 : Fin k))]
    refine Finset.sum_congr rfl fun j _ => ?_
    simp [Equiv.coe_addRight]
  simp only [h1, Finset.sum_add_distrib, Finset.sum_sub_distrib, h2, Finset.sum_ite_eq', Finset.mem_univ, if_true, sub_mul]

/-- Splitting pieces does not change the coefficients. -/
theorem cfsC_group {k k' : ℕ} [NeZero k] [NeZero k'] {x : Fin k → ℝ} {x' : Fin k' → ℝ} (σ : Fin k' → Fin k) (e : Fin k → Fin k')
    (hinj : Function.Injective e) (hx : ∀ i, x i = x' (e i)) (hσ : ∀ i, σ (e i) = i) (hσ1 : ∀ i, σ (e i + 1) = i + 1)
    (hout : ∀ j, j ∉ Set.range e → σ (j + 1) = σ j) (hlast : e (-1) = -1) (p : ℝ) (a : Fin k → ℂ) (m : ℤ) :
    cfsC x' p (a ∘ σ) m = cfsC x p a m := by
  have h0 : σ 0 = 0 := by
    have := hσ1 (-1)
    rw [hlast, neg_add_cancel, neg_add_cancel] at this
    exact this
  have key : ∀ (g : ℝ → ℂ), ∑ j, (a (σ (j + 1)) - a (σ j)) * g (x' j) = ∑ i, (a (i + 1) - a i) * g (x i) := by
    intro g
    rw [← Finset.sum_subset (Finset.subset_univ (Finset.univ.map ⟨e, hinj⟩)), Finset.sum_map]
    · refine Finset.sum_congr rfl fun i _ => ?_
      simp only [Function.Embedding.coeFn_mk, hσ, hσ1, hx]
    · intro j _ hj
      rw [hout j (by simpa using hj), sub_self, zero_mul]
  by_cases hm : m = 0
  · subst hm
    rw [cfsC_zero, cfsC_zero]
    simp only [Function.comp, h0]
    have := key (fun t => -(t : ℂ))
    have e1 : ∀ (u v : ℂ) (t : ℝ), (u - v) * (t : ℂ) = (v - u) * -(t : ℂ) := by intros; ring
    simp only [e1]
    rw [this, hx (-1), hlast]
  · unfold cfsC
    rw [if_neg hm, if_neg hm]
    simp only [Function.comp]
    rw [key (fun t => Complex.exp (-(Complex.I * 2 * Real.pi * (t : ℂ) * (m : ℂ) / (p : ℂ))))]

/-! ### The exact integral -/

theorem integral_pieces {k : ℕ} [NeZero k] {x : Fin k → ℝ} (ho : Spec.Ordered x) {a : Fin k → ℂ} {f : ℝ → ℂ}
    (hf : Spec.IsStepFun x a f) {w : ℝ → ℂ} (hw : Continuous w) :
    (∫ t in (0 : ℝ)..x (-1), f t * w t) = ∑ j, a j * ∫ t in (Spec.leftEnd x j)..x j, w t := by
  obtain ⟨k', rfl⟩ : ∃ k', k = k' + 1 := ⟨k - 1, by have := NeZero.pos k; omega⟩
  let X : ℕ → ℝ := fun n => if h : 0 < n ∧ n - 1 < k' + 1 then x ⟨n - 1, h.2⟩ else 0
  have hX0 : X 0 = 0 := by simp [X]
  have hXs : ∀ j : Fin (k' + 1), X (j.val + 1) = x j := by
    intro j
    simp only [X]
    rw [dif_pos ⟨Nat.succ_pos _, by simpa using j.isLt⟩]
    congr 1
  have hXl : ∀ j : Fin (k' + 1), X j.val = Spec.leftEnd x j := by
    intro j
    unfold Spec.leftEnd
    by_cases h : j = 0
    · rw [if_pos h, h]; exact hX0
    · have hpos : 0 < j.val := Nat.pos_of_ne_zero fun h' => h (Fin.ext h')
      rw [if_neg h]
      have e : (j - 1).val + 1 = j.val := by
        have := Fin.val_sub_one_of_ne_zero h
        omega
      rw [← e, hXs]
  have hlast : X (k' + 1) = x (-1) := by
    have := hXs (Fin.last k')
    rw [Fin.val_last] at this
    rw [this, Fin.neg_one_eq_last']
  have hpiece : ∀ j : Fin (k' + 1), IntervalIntegrable (fun t => f t * w t) MeasureTheory.volume (X j.val) (X (j.val + 1)) ∧
      (∫ t in X j.val..X (j.val + 1), f t * w t) = a j * ∫ t in X j.val..X (j.val + 1), w t := by
    intro j
    have hle : X j.val ≤ X (j.val + 1) := by rw [hXl, hXs]; exact ho j
    have heq : ∀ t ∈ Set.Ioo (X j.val) (X (j.val + 1)), f t * w t = a j * w t := by
      intro t ht
      rw [hXl, hXs] at ht
      rw [hf j t ht.1 ht.2]
    constructor
    · have h2 : IntervalIntegrable (fun t => a j * w t) MeasureTheory.volume (X j.val) (X (j.val + 1)) :=
        (continuous_const.mul hw).intervalIntegrable _ _
      rw [intervalIntegrable_iff_integrableOn_Ioo_of_le hle] at h2 ⊢
      exact h2.congr_fun (fun t ht => (heq t ht).symm) measurableSet_Ioo
    · rw [← intervalIntegral.integral_const_mul, intervalIntegral.integral_of_le hle, intervalIntegral.integral_of_le hle,
        MeasureTheory.integral_Ioc_eq_integral_Ioo, MeasureTheory.integral_Ioc_eq_integral_Ioo]
      exact MeasureTheory.setIntegral_congr_fun measurableSet_Ioo heq
  have hs := intervalIntegral.sum_integral_adjacent_intervals (a := X) (n := k' + 1) (f := fun t => f t * w t)
    (μ := MeasureTheory.volume) (fun j hj => (hpiece ⟨j, hj⟩).1)
  rw [hX0, hlast] at hs
  rw [← hs, Finset.sum_range]
  refine Finset.sum_congr rfl fun j _ => ?_
  rw [(hpiece j).2, hXl, hXs]

theorem integral_exp_piece {κ : ℂ} (hκ : κ ≠ 0) (u v : ℝ) :
    (∫ t in u..v, Complex.exp (-(κ * t))) = (Complex.exp (-(κ * u)) - Complex.exp (-(κ * v))) / κ := by
  have := integral_exp_mul_complex (a := u) (b := v) (c := -κ) (neg_ne_zero.mpr hκ)
  simp only [neg_mul] at this
  rw [this]
  field_simp
  ring

/-- The coefficient functional is the exact Fourier coefficient. -/
theorem cfsC_eq_pieces {k : ℕ} [NeZero k] {x : Fin k → ℝ} (hp : x (-1) ≠ 0) (a : Fin k → ℂ) (m : ℤ) :
    cfsC x (x (-1)) a m = (1 / ((x (-1) : ℝ) : ℂ)) * ∑ j, a j * ∫ t in (Spec.leftEnd x j)..x j,
      Complex.exp (-(2 * Real.pi * Complex.I * (m : ℂ) * (t : ℂ) / ((x (-1) : ℝ) : ℂ))) := by
  have hp' : ((x (-1) : ℝ) : ℂ) ≠ 0 := Complex.ofReal_ne_zero.mpr hp
  by_cases hm : m = 0
  · subst hm
    unfold cfsC
    rw [if_pos rfl, one_div, inv_mul_eq_div]
    congr 1
    refine Finset.sum_congr rfl fun j _ => ?_
    congr 1
    simp only [Int.cast_zero, mul_zero, zero_mul, zero_div, neg_zero, Complex.exp_zero]
    rw [intervalIntegral.integral_const]
    unfold Spec.leftEnd
    by_cases h : j = 0
    · simp [h]
    · simp [h]
  · have hmc : (m : ℂ) ≠ 0 := Int.cast_ne_zero.mpr hm
    have hpi : (Real.pi : ℂ) ≠ 0 := Complex.ofReal_ne_zero.mpr Real.pi_ne_zero
    set κ : ℂ := 2 * Real.pi * Complex.I * (m : ℂ) / ((x (-1) : ℝ) : ℂ) with hκ
    have hκ0 : κ ≠ 0 := by
      rw [hκ]
      exact div_ne_zero (mul_ne_zero (mul_ne_zero (mul_ne_zero two_ne_zero hpi) Complex.I_ne_zero) hmc) hp'
    have e1 : ∀ t : ℝ, 2 * Real.pi * Complex.I * (m : ℂ) * (t : ℂ) / ((x (-1) : ℝ) : ℂ) = κ * t := by
      intro t; rw [hκ]; ring
    simp only [e1, integral_exp_piece hκ0]
    unfold cfsC
    rw [if_neg hm]
    have e2 : ∀ t : ℝ, Complex.I * 2 * Real.pi * (t : ℂ) * (m : ℂ) / ((x (-1) : ℝ) : ℂ) = κ * t := by
      intro t; rw [hκ]; ring
    simp only [e2]
    have hlast : Complex.exp (-(κ * (x (-1) : ℝ))) = 1 := by
      rw [hκ, div_mul_cancel₀ _ hp', Complex.exp_eq_one_iff]
      exact ⟨-m, by push_cast; ring⟩
    have hL : ∀ j : Fin k, Complex.exp (-(κ * (Spec.leftEnd x j : ℝ))) = Complex.exp (-(κ * (x (j - 1) : ℝ))) := by
      intro j
      unfold Spec.leftEnd
      by_cases h : j = 0
      · rw [if_pos h, h, zero_sub, hlast]; simp
      · rw [if_neg h]
    simp only [hL]
    have h2 : ∑ j : Fin k, a j * Complex.exp (-(κ * (x (j - 1) : ℝ))) = ∑ j : Fin k, a (j + 1) * Complex.exp (-(κ * (x j : ℝ))) := by
      rw [← Equiv.sum_comp (Equiv.addRight (1 : Fin k))]
      refine Finset.sum_congr rfl fun j _ => ?_
      simp [Equiv.coe_addRight]
    have h3 : ∀ j : Fin k, a j * ((Complex.exp (-(κ * (x (j - 1) : ℝ))) - Complex.exp (-(κ * (x j : ℝ)))) / κ)
        = (a j * Complex.exp (-(κ * (x (j - 1) : ℝ))) - a j * Complex.exp (-(κ * (x j : ℝ)))) / κ := by
      intro j; ring
    simp only [h3, ← Finset.sum_div, Finset.sum_sub_distrib, h2, sub_mul]
    rw [hκ]
    field_simp

theorem cfsC_eq_fourier {k : ℕ} [NeZero k] {x : Fin k → ℝ} (ho : Spec.Ordered x) (hp : x (-1) ≠ 0) {a : Fin k → ℂ} {f : ℝ → ℂ}
    (hf : Spec.IsStepFun x a f) (m : ℤ) : cfsC x (x (-1)) a m = Spec.fourierCoeffOn f (x (-1)) m := by
  unfold Spec.fourierCoeffOn
  rw [integral_pieces ho hf (w := fun t => Complex.exp (-(2 * Real.pi * Complex.I * (m : ℂ) * (t : ℂ) / ((x (-1) : ℝ) : ℂ))))
    (by fun_prop), cfsC_eq_pieces hp]

end Meent
