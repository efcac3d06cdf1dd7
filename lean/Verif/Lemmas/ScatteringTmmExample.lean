import Verif.Lemmas.ScatteringTmm
import Verif.Lemmas.ScatteringExample

/-!
# The example problems solved by scattering matrices (helper lemmas)
-/

open Matrix

namespace Meent

theorem exLayer {pol : ℝ} (hpol : pol = 0 ∨ pol = 1) {o : Out1D 1} (ho : conv_solve exLA (exSettings pol none) = .ok (.tetm o)) :
    o.infos.reverse.map LayerInfo.scattering = [⟨1, diagonal fun _ => dv pol (1 / 2) (8 / 5) (5 / 2) (2 / 5), fun _ => dq pol (1 / 2) (8 / 5) (5 / 2) (2 / 5), 1 / 3⟩] := by
  obtain ⟨cs, hc, -, -, h1⟩ := conv_solve_tetm.mp ho
  rw [exConvMats] at hc
  obtain rfl := Except.ok.inj hc
  obtain ⟨init, hi, h⟩ := Except.bind_ok.mp h1
  obtain ⟨r, hr, h⟩ := Except.bind_ok.mp h
  obtain ⟨q, hq, h⟩ := Except.bind_ok.mp h
  obtain rfl := Except.ok.inj h
  have hr' : layerLoop (step1d exLA (exParams pol none) (2 * Real.pi / 1) (kxVec (exParams pol none) 1)) [exConv.row] [1 / 3] 1 (init.2.2, []) = .ok r := hr
  obtain ⟨c, hc, hr'⟩ := Except.bind_ok.mp hr'
  obtain ⟨d, hd, hr'⟩ := Except.bind_ok.mp hr'
  obtain rfl := Except.ok.inj hc
  obtain rfl := Except.ok.inj hd
  obtain ⟨y, hy, hr'⟩ := Except.bind_ok.mp hr'
  obtain rfl := Except.ok.inj hr'
  obtain ⟨m, hm, hy⟩ := Except.bind_ok.mp hy
  obtain ⟨⟨s', Ai, B⟩, -, hy⟩ := Except.bind_ok.mp hy
  obtain rfl := Except.ok.inj hy
  have hm' : transfer_1d_2 exLA pol (kxVec (exParams pol none) 1) exConv.row false = .ok m := hm
  have hm2 := (congrArg (fun c => transfer_1d_2 exLA pol (kxVec (exParams pol none) 1) c false) exConv_row).symm.trans hm'
  have hm3 := (transfer_1d_2_diag hpol (kxVec (exParams pol none) 1) (fun _ => 8 / 5) (fun _ => 5 / 2) (fun _ => 2 / 5) (fun _ => by norm_num)).symm.trans hm2
  obtain rfl := Except.ok.inj hm3
  simp only [List.nil_append, exKx]
  rfl

theorem exHomogeneous (pol : ℝ) (pol' : Option ℝ) : homogeneous_1D (kxVec (exParams pol none) 1) 1 pol' =
    .ok ((Complex.I * ((Real.sqrt 3 / 2 : ℝ) : ℂ)) • 1, fun _ => ((Real.sqrt 3 / 2 : ℝ) : ℂ)) := by
  have h3 : (Real.sqrt 3) ^ 2 = 3 := Real.sq_sqrt (by norm_num)
  have hs : ((Real.sqrt 3 / 2 : ℝ) : ℂ) ≠ 0 := by
    rw [Complex.ofReal_ne_zero]; positivity
  have hk : star (csqrt (((Real.sqrt 3 / 2 : ℝ) : ℂ) ^ 2)) = ((Real.sqrt 3 / 2 : ℝ) : ℂ) := by
    rw [csqrt_ofReal_sq (by positivity), Complex.star_def, Complex.conj_ofReal]
  unfold homogeneous_1D
  simp only [exKx, one_pow, mul_one, ite_self]
  have e : (1 : ℂ) - (1 / 2) ^ 2 = ((Real.sqrt 3 / 2 : ℝ) : ℂ) ^ 2 := by
    rw [← Complex.ofReal_pow, div_pow (Real.sqrt 3), h3]; push_cast; norm_num
  simp only [e, hk, if_neg hs, if_neg (pow_ne_zero 2 hs)]
  refine Except.bind_ok.mpr ⟨_, (congrArg npInv ?_).trans (npInv_scalar (c := -Complex.I * ((Real.sqrt 3 / 2 : ℝ) : ℂ)) (mul_ne_zero (neg_ne_zero.mpr Complex.I_ne_zero) hs)), ?_⟩
  · rw [← diagonal_one, ← diagonal_smul]
    congr 1
    funext i
    simp
  · congr 2
    rw [Matrix.mul_smul, mul_one, ← diagonal_one, ← diagonal_smul, ← diagonal_smul]
    congr 1
    funext i
    simp only [Pi.smul_apply, smul_eq_mul, mul_one]
    have hI := Complex.I_ne_zero
    field_simp
    rw [Complex.I_sq]

/-- The scattering functions solve the example problems. -/
theorem exScatter {pol : ℝ} (hpol : pol = 0 ∨ pol = 1) {q v : ℝ} (hv : 0 < v) :
    ∃ x, Spec.scatter1d (exParams pol none) [⟨1, diagonal fun _ => Complex.I * v, fun _ => Complex.I * q, 1 / 3⟩] = .ok x := by
  have hs0 : 0 < Real.sqrt 3 / 2 := by positivity
  set s := Real.sqrt 3 / 2 with hsd
  have hs : (s : ℂ) ≠ 0 := by exact_mod_cast hs0.ne'
  have hvc : (v : ℂ) ≠ 0 := by exact_mod_cast hv.ne'
  have hIs : Complex.I * (s : ℂ) ≠ 0 := mul_ne_zero Complex.I_ne_zero hs
  have hg : IsUnit ((Complex.I * (s : ℂ)) • (1 : Matrix (Fin (2 * (exParams pol none).fto.1 + 1)) (Fin (2 * (exParams pol none).fto.1 + 1)) ℂ)).det := by
    rw [det_smul, det_one, mul_one]
    exact (isUnit_iff_ne_zero.mpr hIs).pow _
  have hsv : 0 < s / v := div_pos hs0 hv
  have hAB : A_B_matrices (1 : Matrix (Fin (2 * (exParams pol none).fto.1 + 1)) (Fin (2 * (exParams pol none).fto.1 + 1)) ℂ) 1 (diagonal fun _ => Complex.I * v)
      ((Complex.I * (s : ℂ)) • 1) = .ok (((1 + s / v : ℝ) : ℂ) • 1, ((1 - s / v : ℝ) : ℂ) • 1) := by
    have hd : (diagonal fun _ => Complex.I * (v : ℂ) : Matrix (Fin (2 * (exParams pol none).fto.1 + 1)) (Fin (2 * (exParams pol none).fto.1 + 1)) ℂ)
        = (Complex.I * (v : ℂ)) • 1 := by
      rw [← diagonal_one, ← diagonal_smul]
      congr 1
      funext i
      simp
    rw [hd]
    have e : (Complex.I * (v : ℂ))⁻¹ * (Complex.I * (s : ℂ)) = (s / v : ℂ) := by
      have := Complex.I_ne_zero
      field_simp
    refine Except.bind_ok.mpr ⟨_, npInv_one, Except.bind_ok.mpr ⟨_, npInv_scalar (mul_ne_zero Complex.I_ne_zero hvc), ?_⟩⟩
    rw [smul_mul_smul_comm, mul_one, e]
    congr 2
    · push_cast
      module
    · push_cast
      module
  set k0 : ℝ := 2 * Real.pi / 1 with hk0
  obtain ⟨x, hx, hx1⟩ : ∃ x : ℂ, (diagonal fun _ => Complex.exp (-(Complex.I * q) * ((1 / 3 : ℝ) : ℂ) * (k0 : ℂ)) :
      Matrix (Fin (2 * (exParams pol none).fto.1 + 1)) (Fin (2 * (exParams pol none).fto.1 + 1)) ℂ) = x • 1 ∧ ‖x‖ = 1 := by
    refine ⟨Complex.exp (-(Complex.I * q) * ((1 / 3 : ℝ) : ℂ) * (k0 : ℂ)), ?_, ?_⟩
    · rw [← diagonal_one, ← diagonal_smul]
      congr 1
      funext i
      simp
    · rw [Complex.norm_exp]
      simp
  have hA0 : ((1 + s / v : ℝ) : ℂ) ≠ 0 := by
    norm_cast
    linarith
  have hT : ((1 + s / v : ℝ) : ℂ) - x * ((1 - s / v : ℝ) : ℂ) * ((1 + s / v : ℝ) : ℂ)⁻¹ * x * ((1 - s / v : ℝ) : ℂ) ≠ 0 := by
    intro h0
    have hgen : ∀ A B : ℂ, A ≠ 0 → A - x * B * A⁻¹ * x * B = 0 → A ^ 2 = x ^ 2 * B ^ 2 := by
      intro A B hA h
      linear_combination A * h + x ^ 2 * B ^ 2 * mul_inv_cancel₀ hA
    have h1 := hgen _ _ hA0 h0
    have h2 := congrArg norm h1
    rw [norm_mul, norm_pow, norm_pow, norm_pow, hx1, one_pow, one_mul, Complex.norm_real, Complex.norm_real, Real.norm_eq_abs, Real.norm_eq_abs, sq_abs, sq_abs] at h2
    nlinarith
  obtain ⟨S, hS⟩ : ∃ S, S_layer (((1 + s / v : ℝ) : ℂ) • (1 : Matrix (Fin (2 * (exParams pol none).fto.1 + 1)) (Fin (2 * (exParams pol none).fto.1 + 1)) ℂ))
      (((1 - s / v : ℝ) : ℂ) • 1) (1 / 3) k0 (fun _ => Complex.I * q) = .ok S := by
    unfold S_layer
    dsimp only
    rw [hx]
    refine ⟨_, Except.bind_ok.mpr ⟨_, npInv_scalar hA0, Except.bind_ok.mpr ⟨_, (congrArg npInv ?_).trans (npInv_scalar hT), rfl⟩⟩⟩
    simp only [smul_mul_smul_comm, mul_one, ← sub_smul]
  obtain ⟨x, hx⟩ : ∃ x, scattering_1d_3 ((Complex.I * (s : ℂ)) • 1) ((Complex.I * (s : ℂ)) • 1) S ⟨(exParams pol none).fto.1, by omega⟩ (fun _ => (s : ℂ)) (fun _ => (s : ℂ)) 1 1
      (exParams pol none).theta pol = .ok x := by
    unfold scattering_1d_3
    simp only [half_same hg, S_RT_same, star_one_right, bind, Except.bind]
    rcases hpol with rfl | rfl
    · exact ⟨_, if_pos rfl⟩
    · exact ⟨_, (if_neg one_ne_zero).trans (if_pos rfl)⟩
  refine ⟨x, Except.bind_ok.mpr ⟨⟨kxVec (exParams pol none) 1, (Complex.I * (s : ℂ)) • 1, fun _ => (s : ℂ), (Complex.I * (s : ℂ)) • 1, fun _ => (s : ℂ), ⟨0, 1, 1, 0⟩⟩, ?_,
    Except.bind_ok.mpr ⟨S, ?_, hx⟩⟩⟩
  · unfold scattering_1d_1
    dsimp only
    rw [scattering_kx (exIncidence pol none) rfl]
    exact Except.bind_ok.mpr ⟨_, exHomogeneous pol none, Except.bind_ok.mpr ⟨_, exHomogeneous pol _, Except.bind_ok.mpr ⟨_, exHomogeneous pol _,
      Except.bind_ok.mpr ⟨_, half_same hg, Except.bind_ok.mpr ⟨_, S_RT_same _, rfl⟩⟩⟩⟩⟩
  · exact Except.bind_ok.mpr ⟨S, Except.bind_ok.mpr ⟨_, hAB, Except.bind_ok.mpr ⟨_, hS, star_one_left S⟩⟩, rfl⟩

end Meent
