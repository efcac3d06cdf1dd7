import Verif.Lemmas.Mirror
import Verif.Props.C16
import Verif.Props.C19

/-!
# C21: both Fourier types see the same geometry

They do not: the continuous path flips the image upside down (`np.flipud` in `cell_compression`), the discrete path does
not.  `C21_discrete_limit` and `C19_raster_matrices` say what each path computes, `C21_negation` that these differ by more
than a translation, `C21_symmetric_partial` that they agree for images equal to their mirror image.
-/

open Matrix Filter Topology

namespace Meent

/-- **C21, discrete path.**  As the pixels of a layer are repeated more and more often, the direct convolution matrix of
`fourier_type = 0` tends to the exact Fourier coefficients of the image, first row at the near end of y. -/
theorem C21_discrete_limit {ny nx : ℕ} (hy : 0 < ny) (hx : 0 < nx) (a : Fin ny → Fin nx → ℂ) (fx fy : ℕ) (ε : ℝ) (hε : 0 < ε) :
    ∃ K, ∀ (ky kx Ny Nx : ℕ) (b : Fin Ny → Fin Nx → ℂ), K ≤ ky → K ≤ kx → Spec.IsRepeatedBy ky kx a b →
      ∀ (la : LinAlg) (enh : Bool) (c : Conv (FlatIdx fx fy)), convDiscrete la ⟨Ny, Nx, b⟩ fx fy enh false = .ok c →
        ∃ epz, IsUnit epz.det ∧ c.epzi = epz⁻¹ ∧ ∀ r k, ‖epz r k
          - Spec.fourierCoeffOn2 (Spec.pixelFun fun i j => a i j ^ 2) 1 1 (Spec.orderX k - Spec.orderX r)
              (Spec.orderY k - Spec.orderY r)‖ < ε := by
  have : NeZero ny := ⟨hy.ne'⟩
  have : NeZero nx := ⟨hx.ne'⟩
  have hev : ∀ᶠ p : ℕ × ℕ in atTop, ∀ r k : FlatIdx fx fy,
      ‖repKappa nx p.2 (Spec.orderX k - Spec.orderX r) * repKappa ny p.1 (Spec.orderY k - Spec.orderY r)
          * Spec.dftCoeff2 (fun i j => a i j ^ 2) (Spec.orderX k - Spec.orderX r) (Spec.orderY k - Spec.orderY r)
        - Spec.fourierCoeffOn2 (Spec.pixelFun fun i j => a i j ^ 2) 1 1 (Spec.orderX k - Spec.orderX r)
              (Spec.orderY k - Spec.orderY r)‖ < ε := by
    rw [eventually_all]
    intro r
    rw [eventually_all]
    intro k
    rw [fourier2_pixel]
    have h1 : Tendsto (fun p : ℕ × ℕ => repKappa nx p.2 (Spec.orderX k - Spec.orderX r)) atTop
        (𝓝 (pixKappa nx (Spec.orderX k - Spec.orderX r))) := by
      rw [← prod_atTop_atTop_eq]
      exact (repKappa_tendsto nx hx.ne' _).comp tendsto_snd
    have h2 : Tendsto (fun p : ℕ × ℕ => repKappa ny p.1 (Spec.orderY k - Spec.orderY r)) atTop
        (𝓝 (pixKappa ny (Spec.orderY k - Spec.orderY r))) := by
      rw [← prod_atTop_atTop_eq]
      exact (repKappa_tendsto ny hy.ne' _).comp tendsto_fst
    have h3 := (h1.mul h2).mul_const (Spec.dftCoeff2 (fun i j => a i j ^ 2) (Spec.orderX k - Spec.orderX r)
      (Spec.orderY k - Spec.orderY r))
    have h4 := (Metric.tendsto_nhds.mp h3) ε hε
    simpa only [dist_eq_norm] using h4
  obtain ⟨⟨K1, K2⟩, hK⟩ := eventually_atTop.mp hev
  refine ⟨max (max K1 K2) 1, ?_⟩
  intro ky kx Ny Nx b hky hkx hb la enh c hc
  obtain ⟨ey, ex, hb⟩ := hb
  have hky0 : 0 < ky := lt_of_lt_of_le one_pos ((le_max_right _ _).trans hky)
  have hkx0 : 0 < kx := lt_of_lt_of_le one_pos ((le_max_right _ _).trans hkx)
  have hNy : 0 < Ny := by rw [ey]; exact Nat.mul_pos hy hky0
  have hNx : 0 < Nx := by rw [ex]; exact Nat.mul_pos hx hkx0
  obtain ⟨-, -, epz, hf⟩ := convDiscrete_fromCell.mp hc
  obtain ⟨-, -, ky', kx', hky', hkx', ey', ex', hb'⟩ := enlarge_spec ⟨Ny, Nx, b⟩ fx fy enh hNy hNx
  have hd := genConv_direct hf.hz
  refine ⟨epz, hf.hu, hf.hi, fun r k => ?_⟩
  rw [hd r k]
  have e1 := dft2_repeat hy.ne' hx.ne' (a := fun i j => a i j ^ 2)
    (b := fun y x => (enlarge ⟨Ny, Nx, b⟩ fx fy enh).sq.val y x) (Nat.mul_pos hky0 hky') (Nat.mul_pos hkx0 hkx')
    (by rw [← mul_assoc, ← ey]; exact ey') (by rw [← mul_assoc, ← ex]; exact ex') (by
      intro i j i' j' hi hj
      have hi1 : i.val / ky' < Ny := by
        rw [Nat.div_lt_iff_lt_mul hky']; exact lt_of_lt_of_eq i.isLt ey'
      have hj1 : j.val / kx' < Nx := by
        rw [Nat.div_lt_iff_lt_mul hkx']; exact lt_of_lt_of_eq j.isLt ex'
      have h1 := hb' i j ⟨i.val / ky', hi1⟩ ⟨j.val / kx', hj1⟩ rfl rfl
      have h2 := hb ⟨i.val / ky', hi1⟩ ⟨j.val / kx', hj1⟩ i' j'
        (by rw [hi]; simp only [Nat.div_div_eq_div_mul, mul_comm]) (by rw [hj]; simp only [Nat.div_div_eq_div_mul, mul_comm])
      show ((enlarge ⟨Ny, Nx, b⟩ fx fy enh).val i j) ^ 2 = a i' j' ^ 2
      rw [← h2]
      exact congrArg (· ^ 2) h1)
    (Spec.orderX k - Spec.orderX r) (Spec.orderY k - Spec.orderY r)
  rw [e1]
  refine hK (ky * ky', kx * kx') ⟨?_, ?_⟩ r k
  · exact ((le_max_left _ _).trans ((le_max_left _ _).trans hky)).trans (Nat.le_mul_of_pos_right _ hky')
  · exact ((le_max_right _ _).trans ((le_max_left _ _).trans hkx)).trans (Nat.le_mul_of_pos_right _ hkx')

/-- **C21 fails.**  For three rows of indices 1, 2, 3 the permittivity the continuous path sees (the image upside down,
see `C19_raster_matrices`) is not even a translate of the one the discrete path tends to. -/
theorem C21_negation : ∃ a : Fin 3 → Fin 1 → ℂ, (∀ i j, a i j ≠ 0) ∧ ∀ τy τx : ℝ, ¬ ∀ mx my : ℤ,
    Spec.fourierCoeffOn2 (Spec.pixelFun fun i j => a i.rev j ^ 2) 1 1 mx my
      = Complex.exp (-(2 * Real.pi * Complex.I * ((mx : ℂ) * τx + (my : ℂ) * τy)))
        * Spec.fourierCoeffOn2 (Spec.pixelFun fun i j => a i j ^ 2) 1 1 mx my := by
  refine ⟨fun i _ => (i.val : ℂ) + 1, fun i j => Nat.cast_add_one_ne_zero i.val, fun τy τx h => ?_⟩
  set ω : ℂ := Complex.exp (-(2 * Real.pi * Complex.I * τy)) with hω
  have hr1 : rootZ 3 1 = -(1 / 2 : ℂ) - (Real.sqrt 3 / 2 : ℝ) * Complex.I := by
    unfold rootZ
    have : -(2 * Real.pi * Complex.I * ((1 : ℤ) : ℂ) / ((3 : ℕ) : ℂ)) = ((-(2 * Real.pi / 3) : ℝ) : ℂ) * Complex.I := by
      push_cast; ring
    rw [this, Complex.exp_mul_I, ← Complex.ofReal_cos, ← Complex.ofReal_sin, Real.cos_neg, Real.sin_neg]
    have e : 2 * Real.pi / 3 = Real.pi - Real.pi / 3 := by ring
    rw [e, Real.cos_pi_sub, Real.sin_pi_sub, Real.cos_pi_div_three, Real.sin_pi_div_three]
    push_cast; ring
  have hs : (Real.sqrt 3) ^ 2 = 3 := Real.sq_sqrt (by norm_num)
  have hsc : ((Real.sqrt 3 : ℝ) : ℂ) ^ 2 = 3 := by rw [← Complex.ofReal_pow, hs]; norm_num
  have hr2 : rootZ 3 2 = rootZ 3 1 ^ 2 := by
    unfold rootZ
    rw [← Complex.exp_nat_mul]
    congr 1
    push_cast; ring
  set z := rootZ 3 1 with hz
  have hz3 : z ^ 2 + z + 1 = 0 := by
    rw [hr1]; push_cast; linear_combination (Complex.I ^ 2 / 4) * hsc + (3 / 4 : ℂ) * Complex.I_sq
  have hz1 : z ≠ 1 := by intro h1; rw [h1] at hz3; norm_num at hz3
  have hzm1 : z ≠ -1 := by intro h1; rw [h1] at hz3; norm_num at hz3
  have hpi : (Real.pi : ℂ) ≠ 0 := Complex.ofReal_ne_zero.mpr Real.pi_ne_zero
  have hk1 : pixKappa 3 1 ≠ 0 := by
    unfold pixKappa
    rw [if_neg one_ne_zero]
    refine div_ne_zero (mul_ne_zero (by norm_num) (sub_ne_zero.mpr hz1.symm)) ?_
    exact mul_ne_zero (mul_ne_zero (mul_ne_zero two_ne_zero hpi) Complex.I_ne_zero) (by norm_num)
  have hk2 : pixKappa 3 2 ≠ 0 := by
    unfold pixKappa
    rw [if_neg two_ne_zero]
    refine div_ne_zero (mul_ne_zero (by norm_num) ?_) ?_
    · rw [hr2]
      have : 1 - z ^ 2 = (1 - z) * (1 - -z) := by ring
      rw [this]
      exact mul_ne_zero (sub_ne_zero.mpr hz1.symm) (sub_ne_zero.mpr fun h1 => hzm1 (by rw [h1, neg_neg]))
    · exact mul_ne_zero (mul_ne_zero (mul_ne_zero two_ne_zero hpi) Complex.I_ne_zero) (by norm_num)
  have hk0 : pixKappa 1 0 ≠ 0 := by unfold pixKappa; rw [if_pos rfl]; exact one_ne_zero
  have hdft : ∀ (b : Fin 3 → Fin 1 → ℂ) (m : ℤ), Spec.dftCoeff2 b 0 m = (b 0 0 + b 1 0 * rootZ 3 m + b 2 0 * rootZ 3 m ^ 2) / 3 := by
    intro b m
    unfold Spec.dftCoeff2 Spec.dftCoeff
    simp only [exp_pow_root, Fin.sum_univ_succ, Fin.sum_univ_zero]
    simp
    ring
  have h1 := h 0 1
  have h2 := h 0 2
  rw [fourier2_pixel, fourier2_pixel, hdft, hdft] at h1 h2
  have e1 : Complex.exp (-(2 * Real.pi * Complex.I * (((0 : ℤ) : ℂ) * τx + ((1 : ℤ) : ℂ) * τy))) = ω := by
    rw [hω]; congr 1; push_cast; ring
  have e2 : Complex.exp (-(2 * Real.pi * Complex.I * (((0 : ℤ) : ℂ) * τx + ((2 : ℤ) : ℂ) * τy))) = ω ^ 2 := by
    rw [hω, ← Complex.exp_nat_mul]; congr 1; push_cast; ring
  rw [e1] at h1
  rw [e2, hr2] at h2
  rw [← hz] at h1
  have hv0 : ((0 : Fin 3).rev).val = 2 := rfl
  have hv1 : ((1 : Fin 3).rev).val = 1 := rfl
  have hv2 : ((2 : Fin 3).rev).val = 0 := rfl
  have hw0 : (0 : Fin 3).val = 0 := rfl
  have hw1 : (1 : Fin 3).val = 1 := rfl
  have hw2 : (2 : Fin 3).val = 2 := rfl
  simp only [hv0, hv1, hv2, hw0, hw1, hw2] at h1 h2
  push_cast at h1 h2
  have g1 : 9 + 4 * z + z ^ 2 = ω * (1 + 4 * z + 9 * z ^ 2) := by
    have := mul_left_cancel₀ (mul_ne_zero hk0 hk1) (a := pixKappa 1 0 * pixKappa 3 1)
      (b := (9 + 4 * z + z ^ 2) / 3) (c := ω * ((1 + 4 * z + 9 * z ^ 2) / 3)) (by linear_combination h1)
    linear_combination 3 * this
  have g2 : 9 + 4 * z ^ 2 + z ^ 4 = ω ^ 2 * (1 + 4 * z ^ 2 + 9 * z ^ 4) := by
    have := mul_left_cancel₀ (mul_ne_zero hk0 hk2) (a := pixKappa 1 0 * pixKappa 3 2)
      (b := (9 + 4 * z ^ 2 + z ^ 4) / 3) (c := ω ^ 2 * ((1 + 4 * z ^ 2 + 9 * z ^ 4) / 3)) (by linear_combination h2)
    linear_combination 3 * this
  have hzsq : z ^ 2 = -z - 1 := by linear_combination hz3
  have hz3' : z ^ 3 = 1 := by linear_combination (z - 1) * hz3
  have hz4 : z ^ 4 = z := by linear_combination z * hz3'
  rw [hz4, hzsq] at g2
  rw [hzsq] at g1
  -- (8 + 3 z) = ω (-8 - 5 z),   (5 - 3 z) = ω² (-3 + 5 z)
  have key : (8 + 3 * z) ^ 2 * (-3 + 5 * z) = (-8 - 5 * z) ^ 2 * (5 - 3 * z) := by
    have a1 : (8 + 3 * z) = ω * (-8 - 5 * z) := by linear_combination g1
    have a2 : (5 - 3 * z) = ω ^ 2 * (-3 + 5 * z) := by linear_combination g2
    rw [a1, a2]; ring
  have hzv : z = -2 := by
    have : (-360 : ℂ) * z - 720 = 0 := by linear_combination key - (120 * z + 208) * hz3
    linear_combination (-1 / 360 : ℂ) * this
  rw [hzv] at hz3
  norm_num at hz3

/-- **C21, restricted to images equal to their mirror image along y.**  What is missing is every other image, for which the
claim is false by `C21_negation`. -/
theorem C21_symmetric_partial {ny nx : ℕ} (hy : 0 < ny) (hx : 0 < nx) (a : Fin ny → Fin nx → ℂ) (ha : ∀ i j, a i.rev j = a i j)
    (la₀ : LinAlg) (fx fy : ℕ) (cv : Conv (FlatIdx fx fy)) (hcv : convRasterContinuous la₀ ⟨ny, nx, a⟩ fx fy false = .ok cv)
    (ε : ℝ) (hε : 0 < ε) :
    ∃ K, ∀ (ky kx Ny Nx : ℕ) (b : Fin Ny → Fin Nx → ℂ), K ≤ ky → K ≤ kx → Spec.IsRepeatedBy ky kx a b →
      ∀ (la : LinAlg) (enh : Bool) (c : Conv (FlatIdx fx fy)), convDiscrete la ⟨Ny, Nx, b⟩ fx fy enh false = .ok c →
        ∃ epz epz', IsUnit epz.det ∧ IsUnit epz'.det ∧ c.epzi = epz⁻¹ ∧ cv.epzi = epz'⁻¹ ∧ ∀ r k, ‖epz r k - epz' r k‖ < ε := by
  obtain ⟨K, hK⟩ := C21_discrete_limit hy hx a fx fy ε hε
  refine ⟨K, fun ky kx Ny Nx b h1 h2 hb la enh c hc => ?_⟩
  obtain ⟨epz, hu, hi, hz⟩ := hK ky kx Ny Nx b h1 h2 hb la enh c hc
  obtain ⟨epz', hz', hu', hi'⟩ := (C19_raster_matrices la₀ ⟨ny, nx, a⟩ hy hx fx fy cv hcv).direct
  refine ⟨epz, epz', hu, hu', hi, hi', fun r k => ?_⟩
  rw [hz' r k]
  simp only [ha]
  exact hz r k

/-- Non-vacuity: an image equal to its mirror image, with two materials. -/
example : ∀ (i : Fin 3) (j : Fin 2), (fun i j => if i = 1 ∧ j = 0 then 2 else 1 : Fin 3 → Fin 2 → ℂ) i.rev j
    = (fun i j => if i = 1 ∧ j = 0 then 2 else 1 : Fin 3 → Fin 2 → ℂ) i j := by
  intro i j
  fin_cases i <;> fin_cases j <;> rfl

/-- Non-vacuity: doubling the pixels of that image is a repetition, and the repeated image has a direct matrix. -/
example : Spec.IsRepeatedBy 2 2 (fun i _ => (i.val : ℂ) + 1 : Fin 3 → Fin 1 → ℂ)
    (fun i _ => ((i.val / 2 : ℕ) : ℂ) + 1 : Fin 6 → Fin 2 → ℂ) :=
  ⟨rfl, rfl, fun i j i' j' hi _ => by show ((i.val / 2 : ℕ) : ℂ) + 1 = (i'.val : ℂ) + 1; rw [hi]⟩

end Meent

#print axioms Meent.C21_discrete_limit
#print axioms Meent.C21_negation
#print axioms Meent.C21_symmetric_partial
