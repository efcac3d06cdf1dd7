import Verif.Lemmas.CfsConv

/-!
# Discrete and continuous coefficients of a pixel image (helper lemmas)
-/

open Matrix Filter Topology

namespace Meent

set_option linter.unusedSectionVars false
set_option linter.unusedSimpArgs false

/-- `exp(-2πi m / N)`. -/
noncomputable def rootZ (N : ℕ) (m : ℤ) : ℂ := Complex.exp (-(2 * Real.pi * Complex.I * (m : ℂ) / (N : ℂ)))

/-- Factor between discrete and continuous coefficients of an image of `N` pixels. -/
noncomputable def pixKappa (N : ℕ) (m : ℤ) : ℂ :=
  if m = 0 then 1 else (N : ℂ) * (1 - rootZ N m) / (2 * Real.pi * Complex.I * (m : ℂ))

/-- The same factor after repeating each pixel `k` times. -/
noncomputable def repKappa (N k : ℕ) (m : ℤ) : ℂ :=
  (∑ r ∈ Finset.range k, Complex.exp (-(2 * Real.pi * Complex.I * (m : ℂ) * (r : ℂ) / ((N * k : ℕ) : ℂ)))) / (k : ℂ)

theorem exp_pow_root {N : ℕ} (m : ℤ) (j : ℕ) :
    Complex.exp (-(2 * Real.pi * Complex.I * (m : ℂ) * (j : ℂ) / (N : ℂ))) = rootZ N m ^ j := by
  unfold rootZ
  rw [← Complex.exp_nat_mul]
  congr 1
  ring

theorem rootZ_pow {N : ℕ} (hN : N ≠ 0) (m : ℤ) : rootZ N m ^ N = 1 := by
  rw [← exp_pow_root, Complex.exp_eq_one_iff]
  refine ⟨-m, ?_⟩
  have : ((N : ℂ)) ≠ 0 := Nat.cast_ne_zero.mpr hN
  push_cast
  field_simp

theorem dftCoeff_const_mul {N : ℕ} (z : ℂ) (a : Fin N → ℂ) (m : ℤ) :
    Spec.dftCoeff (fun j => z * a j) m = z * Spec.dftCoeff a m := by
  unfold Spec.dftCoeff
  simp only [mul_assoc z]
  rw [← Finset.mul_sum, mul_div_assoc]

theorem pixL_eq (N : ℕ) [NeZero N] (a : Fin N → ℂ) (m : ℤ) : pixL N a m = pixKappa N m * Spec.dftCoeff a m := by
  have hN : ((N : ℂ)) ≠ 0 := Nat.cast_ne_zero.mpr (NeZero.ne N)
  have hNr : ((N : ℝ)) ≠ 0 := Nat.cast_ne_zero.mpr (NeZero.ne N)
  unfold pixL Spec.dftCoeff pixKappa
  rw [pixEdge_last]
  by_cases hm : m = 0
  · subst hm
    rw [if_pos rfl, one_mul]
    unfold cfsC
    rw [if_pos rfl]
    simp only [Int.cast_zero, mul_zero, zero_mul, zero_div, neg_zero, Complex.exp_zero, mul_one, Complex.ofReal_one, div_one]
    rw [Finset.sum_div]
    refine Finset.sum_congr rfl fun j _ => ?_
    have h := pixEdge_left N j
    unfold Spec.leftEnd at h
    have h2 : (if j = 0 then pixEdge N 0 else pixEdge N j - pixEdge N (j - 1)) = pixEdge N j - 1 / (N : ℝ) * (j.val : ℕ) := by
      rw [← h]
      by_cases hj : j = 0
      · rw [if_pos hj, if_pos hj, hj, sub_zero]
      · rw [if_neg hj, if_neg hj]
    rw [h2]
    unfold pixEdge
    push_cast
    field_simp
    ring
  · rw [if_neg hm]
    unfold cfsC
    rw [if_neg hm]
    have e1 : ∀ j : Fin N, Complex.exp (-(Complex.I * 2 * Real.pi * ((pixEdge N j : ℝ) : ℂ) * (m : ℂ) / ((1 : ℝ) : ℂ)))
        = rootZ N m ^ (j.val + 1) := by
      intro j
      rw [← exp_pow_root]
      congr 2
      unfold pixEdge
      push_cast
      field_simp
    simp only [e1, exp_pow_root]
    have e2 : ∀ j : Fin N, rootZ N m ^ ((j + 1 : Fin N)).val = rootZ N m ^ (j.val + 1) := by
      intro j
      obtain ⟨k', hk⟩ : ∃ k', N = k' + 1 := ⟨N - 1, by have := NeZero.pos N; omega⟩
      subst hk
      rw [Fin.val_add_one]
      split
      · rename_i h
        rw [h, Fin.val_last, pow_zero, rootZ_pow (by omega)]
      · rfl
    have e3 : ∑ j : Fin N, a (j + 1) * rootZ N m ^ (j.val + 1) = ∑ j : Fin N, a j * rootZ N m ^ j.val := by
      rw [← Equiv.sum_comp (Equiv.addRight (1 : Fin N)) (fun j => a j * rootZ N m ^ j.val)]
      refine Finset.sum_congr rfl fun j _ => ?_
      simp only [Equiv.coe_addRight, e2]
    have e4 : ∑ j : Fin N, a j * rootZ N m ^ (j.val + 1) = rootZ N m * ∑ j : Fin N, a j * rootZ N m ^ j.val := by
      rw [Finset.mul_sum]
      refine Finset.sum_congr rfl fun j _ => ?_
      ring
    simp only [sub_mul, Finset.sum_sub_distrib, e3, e4]
    have hmc : (m : ℂ) ≠ 0 := Int.cast_ne_zero.mpr hm
    have hpi : (Real.pi : ℂ) ≠ 0 := Complex.ofReal_ne_zero.mpr Real.pi_ne_zero
    have hI := Complex.I_ne_zero
    field_simp

theorem dftCoeff_repeat {N k N' : ℕ} (hk : 0 < k) (hN : N' = N * k) (σ : Fin N' → Fin N)
    (hσ : ∀ j, (σ j).val = j.val / k) (a : Fin N → ℂ) (m : ℤ) (hN0 : N ≠ 0) :
    Spec.dftCoeff (fun j => a (σ j)) m = repKappa N k m * Spec.dftCoeff a m := by
  subst hN
  unfold Spec.dftCoeff repKappa
  have hNc : ((N : ℂ)) ≠ 0 := Nat.cast_ne_zero.mpr hN0
  have hkc : ((k : ℂ)) ≠ 0 := Nat.cast_ne_zero.mpr hk.ne'
  rw [← Equiv.sum_comp finProdFinEquiv, Fintype.sum_prod_type]
  have e1 : ∀ (i : Fin N) (r : Fin k), a (σ (finProdFinEquiv (i, r))) * Complex.exp (-(2 * Real.pi * Complex.I * (m : ℂ)
        * ((finProdFinEquiv (i, r)).val : ℂ) / ((N * k : ℕ) : ℂ)))
      = (a i * Complex.exp (-(2 * Real.pi * Complex.I * (m : ℂ) * (i.val : ℂ) / (N : ℂ))))
        * Complex.exp (-(2 * Real.pi * Complex.I * (m : ℂ) * (r.val : ℂ) / ((N * k : ℕ) : ℂ))) := by
    intro i r
    have h1 : σ (finProdFinEquiv (i, r)) = i := by
      apply Fin.ext
      rw [hσ]
      show (r.val + k * i.val) / k = i.val
      rw [Nat.add_mul_div_left _ _ hk, Nat.div_eq_of_lt r.isLt, zero_add]
    rw [h1, mul_assoc (a i), ← Complex.exp_add]
    congr 2
    have : (finProdFinEquiv (i, r)).val = r.val + k * i.val := rfl
    rw [this]
    push_cast
    field_simp
    ring
  simp only [e1, ← Finset.mul_sum]
  rw [← Finset.sum_mul, Finset.sum_range (fun r => Complex.exp (-(2 * Real.pi * Complex.I * (m : ℂ) * (r : ℂ) / ((N * k : ℕ) : ℂ))))]
  push_cast
  field_simp

theorem repKappa_tendsto (N : ℕ) (hN : N ≠ 0) (m : ℤ) : Tendsto (fun k => repKappa N k m) atTop (𝓝 (pixKappa N m)) := by
  have hNc : ((N : ℂ)) ≠ 0 := Nat.cast_ne_zero.mpr hN
  unfold pixKappa
  by_cases hm : m = 0
  · subst hm
    rw [if_pos rfl]
    refine tendsto_const_nhds.congr' ?_
    filter_upwards [eventually_gt_atTop 0] with k hk
    have hkc : ((k : ℂ)) ≠ 0 := Nat.cast_ne_zero.mpr hk.ne'
    unfold repKappa
    simp [hkc]
  · rw [if_neg hm]
    have hmc : (m : ℂ) ≠ 0 := Int.cast_ne_zero.mpr hm
    have hpi : (Real.pi : ℂ) ≠ 0 := Complex.ofReal_ne_zero.mpr Real.pi_ne_zero
    set w : ℂ := 2 * Real.pi * Complex.I * (m : ℂ) / (N : ℂ) with hw
    have hw0 : w ≠ 0 := by
      rw [hw]
      exact div_ne_zero (mul_ne_zero (mul_ne_zero (mul_ne_zero two_ne_zero hpi) Complex.I_ne_zero) hmc) hNc
    -- k (1 - exp(-w/k)) → w
    have hlim : Tendsto (fun k : ℕ => (k : ℂ) * (1 - Complex.exp (-(w / k)))) atTop (𝓝 w) := by
      have hd : HasDerivAt (fun t : ℂ => Complex.exp (-(w * t))) (-w) 0 := by
        have h := ((hasDerivAt_id (0 : ℂ)).const_mul w).neg.cexp
        simpa using h
      have hs := hd.tendsto_slope_zero
      have hk : Tendsto (fun k : ℕ => ((k : ℂ))⁻¹) atTop (𝓝[≠] 0) := by
        rw [tendsto_nhdsWithin_iff]
        refine ⟨tendsto_inv_atTop_nhds_zero_nat, ?_⟩
        filter_upwards [eventually_gt_atTop 0] with k hk
        exact inv_ne_zero (Nat.cast_ne_zero.mpr hk.ne')
      have h2 := (hs.comp hk).neg
      rw [neg_neg] at h2
      refine h2.congr fun k => ?_
      simp only [Function.comp, zero_add, mul_zero, neg_zero, Complex.exp_zero, inv_inv, smul_eq_mul, div_eq_mul_inv]
      ring
    have hgeo : ∀ k : ℕ, 0 < k → repKappa N k m * ((k : ℂ) * (1 - Complex.exp (-(w / k)))) = 1 - rootZ N m := by
      intro k hk
      have hkc : ((k : ℂ)) ≠ 0 := Nat.cast_ne_zero.mpr hk.ne'
      unfold repKappa
      have e1 : ∀ r : ℕ, Complex.exp (-(2 * Real.pi * Complex.I * (m : ℂ) * (r : ℂ) / ((N * k : ℕ) : ℂ)))
          = Complex.exp (-(w / k)) ^ r := by
        intro r
        rw [← Complex.exp_nat_mul]
        congr 1
        rw [hw]
        push_cast
        field_simp
      simp only [e1]
      have e2 : Complex.exp (-(w / k)) ^ k = rootZ N m := by
        rw [← Complex.exp_nat_mul]
        unfold rootZ
        congr 1
        rw [hw]
        field_simp
      have e3 := geom_sum_mul_neg (Complex.exp (-(w / k))) k
      rw [e2] at e3
      rw [← e3]
      field_simp
    have hgoal : (N : ℂ) * (1 - rootZ N m) / (2 * Real.pi * Complex.I * (m : ℂ)) = (1 - rootZ N m) / w := by
      rw [hw]
      field_simp
    rw [hgoal]
    have hne : ∀ᶠ k : ℕ in atTop, (k : ℂ) * (1 - Complex.exp (-(w / k))) ≠ 0 := hlim.eventually_ne hw0
    refine ((tendsto_const_nhds (x := 1 - rootZ N m)).div hlim hw0).congr' ?_
    filter_upwards [hne, eventually_gt_atTop 0] with k hk h0
    rw [← hgeo k h0]
    simp only [Pi.div_apply]
    rw [mul_div_assoc, div_self hk, mul_one]

/-- Continuous coefficients of an image. -/
theorem fourier2_pixel {ny nx : ℕ} [NeZero ny] [NeZero nx] (a : Fin ny → Fin nx → ℂ) (mx my : ℤ) :
    Spec.fourierCoeffOn2 (Spec.pixelFun a) 1 1 mx my = pixKappa nx mx * pixKappa ny my * Spec.dftCoeff2 a mx my := by
  unfold Spec.fourierCoeffOn2 Spec.dftCoeff2
  have h1 : Spec.IsStepFun (pixEdge nx) (fun j => pixL ny (fun i => a i j) my)
      (fun t => Spec.fourierCoeffOn (fun v => Spec.pixelFun a v t) 1 my) := by
    intro j t ht1 ht2
    have := cfsC_eq_fourier (pixEdge_ordered ny) (by rw [pixEdge_last]; exact one_ne_zero) (a := fun i => a i j)
      (f := fun v => Spec.pixelFun a v t) (fun i v hv1 hv2 => pixelFun_step a i j v t hv1 hv2 ht1 ht2) my
    rw [pixEdge_last] at this
    refine this.symm.trans ?_
    simp only [pixL, pixEdge_last]
  have h2 := cfsC_eq_fourier (pixEdge_ordered nx) (by rw [pixEdge_last]; exact one_ne_zero) h1 mx
  rw [pixEdge_last] at h2
  rw [← h2]
  have h3 : cfsC (pixEdge nx) 1 = pixL nx := by unfold pixL; rw [pixEdge_last]
  rw [h3]
  simp only [pixL_eq]
  rw [mul_assoc]
  congr 1
  exact dftCoeff_const_mul _ _ _

/-- Discrete coefficients of a repeated image. -/
theorem dft2_repeat {ny nx ky kx Ny Nx : ℕ} (hy : ny ≠ 0) (hx : nx ≠ 0) {a : Fin ny → Fin nx → ℂ} {b : Fin Ny → Fin Nx → ℂ}
    (hky : 0 < ky) (hkx : 0 < kx) (ey : Ny = ny * ky) (ex : Nx = nx * kx)
    (hb : ∀ i j (i' : Fin ny) (j' : Fin nx), i'.val = i.val / ky → j'.val = j.val / kx → b i j = a i' j') (mx my : ℤ) :
    Spec.dftCoeff2 b mx my = repKappa nx kx mx * repKappa ny ky my * Spec.dftCoeff2 a mx my := by
  let σx : Fin Nx → Fin nx := fun j => ⟨j.val / kx, by rw [Nat.div_lt_iff_lt_mul hkx, ← ex]; exact j.isLt⟩
  let σy : Fin Ny → Fin ny := fun j => ⟨j.val / ky, by rw [Nat.div_lt_iff_lt_mul hky, ← ey]; exact j.isLt⟩
  have e : b = fun i j => a (σy i) (σx j) := by
    funext i j
    exact hb i j _ _ rfl rfl
  subst e
  unfold Spec.dftCoeff2
  have h1 : ∀ x, Spec.dftCoeff (fun y => a (σy y) (σx x)) my = repKappa ny ky my * Spec.dftCoeff (fun y => a y (σx x)) my :=
    fun x => dftCoeff_repeat hky ey σy (fun _ => rfl) (fun i => a i (σx x)) my hy
  simp only [h1]
  rw [dftCoeff_repeat hkx ex σx (fun _ => rfl) (fun j => repKappa ny ky my * Spec.dftCoeff (fun y => a y j) my) mx hx, mul_assoc]
  congr 1
  exact dftCoeff_const_mul _ _ _

end Meent
