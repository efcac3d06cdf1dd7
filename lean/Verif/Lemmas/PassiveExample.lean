import Verif.Lemmas.Passive1D
import Verif.Lemmas.Example1D
import Verif.Lemmas.Dispersion

/-!
# An absorbing grating (helper lemmas)
-/

open Matrix

namespace Meent

set_option linter.unusedSectionVars false
set_option linter.unusedSimpArgs false

/-- Two pixels of index `1` and `2 - i`. -/
def absCell : Ucell := ⟨1, 2, [fun _ j => if j = 0 then 1 else 2 - Complex.I]⟩

noncomputable def absConv : Conv (FlatIdx 0 0) :=
  ⟨diagonal fun _ => (7 - Complex.I) / 4, diagonal fun _ => 2 - 2 * Complex.I, diagonal fun _ => (1 + Complex.I) / 4⟩

theorem absSq : (2 - Complex.I) ^ 2 = 3 - 4 * Complex.I := by
  have := Complex.I_sq
  linear_combination this

theorem ne_of_im {z : ℂ} (h : z.im ≠ 0) : z ≠ 0 := fun h0 => h (by rw [h0]; rfl)

theorem absCell_conv (la : LinAlg) :
    to_conv_mat_raster_discrete la absCell 0 0 false false = .ok [absConv] := by
  have hI := Complex.I_sq
  have n1 : (3 - 4 * Complex.I : ℂ) ≠ 0 := ne_of_im (by simp)
  have n2 : (2 - 2 * Complex.I : ℂ) ≠ 0 := ne_of_im (by simp)
  have n3 : (1 + (3 - 4 * Complex.I) : ℂ) ≠ 0 := ne_of_im (by simp)
  have n4 : (1 + (3 - 4 * Complex.I)⁻¹ : ℂ) ≠ 0 := by
    intro h0
    apply n3
    field_simp at h0
    linear_combination h0
  have i1 : (3 - 4 * Complex.I)⁻¹ = (3 + 4 * Complex.I) / 25 := inv_eq_of_mul_eq_one_right (by linear_combination (-16 / 25 : ℂ) * hI)
  have i2 : (2 - 2 * Complex.I)⁻¹ = (1 + Complex.I) / 4 := inv_eq_of_mul_eq_one_right (by linear_combination (-1 / 2 : ℂ) * hI)
  unfold to_conv_mat_raster_discrete
  rw [mapM_ok]
  simp only [Ucell.rasters, absCell, List.map_cons, List.map_nil]
  refine List.Forall₂.cons ?_ List.Forall₂.nil
  rw [convDiscrete_fromCell]
  have e : enlarge ⟨1, 2, fun _ j => if j = 0 then 1 else 2 - Complex.I⟩ 0 0 false
      = ⟨1, 2, fun _ j => if j = 0 then 1 else 2 - Complex.I⟩ := by
    simp [enlarge]
  rw [e]
  refine ⟨by norm_num, by norm_num, diagonal fun _ => 2 - 2 * Complex.I, ?_⟩
  have hne : ∀ (x : Fin 2) (y : Fin 1), (if x = 0 then (1 : ℂ) else 2 - Complex.I) ^ 2 ≠ 0 := by
    intro x y
    split
    · norm_num
    · rw [absSq]; exact n1
  refine ⟨?_, ?_, ?_, isUnit_det_diagonal fun _ => n2, ?_⟩
  · rw [genConv_00_tt]
    simp only [dftCoeff_zero, Raster.sq, Fin.sum_univ_two, Finset.univ_unique, Finset.sum_singleton, if_true,
      show ((1 : Fin 2) = 0) = False by simp, if_false, absSq]
    congr 2
    funext _
    push_cast
    ring
  · rw [genConv_00_tf]
    · simp only [dftCoeff_zero, Raster.sq, Fin.sum_univ_two, Finset.univ_unique, Finset.sum_singleton, if_true,
        show ((1 : Fin 2) = 0) = False by simp, if_false, absSq, absConv]
      congr 2
      funext _
      push_cast
      field_simp
      ring
    · exact hne
    · intro x
      simp only [dftCoeff_zero, Raster.sq, Finset.univ_unique, Finset.sum_singleton]
      have := hne x 0
      simpa using this
  · rw [genConv_00_ft]
    · simp only [dftCoeff_zero, Raster.sq, Fin.sum_univ_two, Finset.univ_unique, Finset.sum_singleton, if_true,
        show ((1 : Fin 2) = 0) = False by simp, if_false, absSq, absConv]
      congr 2
      funext _
      push_cast
      simp only [one_pow, div_one, one_div, inv_one]
      rw [i1]
      exact inv_eq_of_mul_eq_one_right (by linear_combination (-1 / 50 : ℂ) * hI)
    · intro x
      simp only [dftCoeff_zero, Raster.sq, Finset.univ_unique, Finset.sum_singleton]
      have := hne x 0
      simpa using this
    · simp only [dftCoeff_zero, Raster.sq, Fin.sum_univ_two, Finset.univ_unique, Finset.sum_singleton, if_true,
        show ((1 : Fin 2) = 0) = False by simp, if_false, absSq]
      push_cast
      simp only [one_pow, div_one, one_div, inv_one]
      exact div_ne_zero n4 two_ne_zero
  · rw [inv_diagonal' fun _ => n2]
    simp only [absConv]
    congr 1
    funext _
    simp only [one_div, i2]

/-- The settings of the absorbing grating. -/
noncomputable def absSettings (pol : ℝ) (phi : Option ℂ) : Settings where
  p := exParams pol phi
  ucell := .raster absCell
  fourier_type := 0
  enhanced_dfs := false
  algo := .tmm

theorem absSettings_passive (pol : ℝ) (phi : Option ℂ) (hphi : ∀ φ, phi = some φ → Spec.IsReal φ) :
    Spec.PassiveProblem (absSettings pol phi) := by
  have h := exSettings_lossless pol phi hphi
  refine ⟨h.toRealIllumination, ?_, ?_, h.n_bot_real, h.n_bot_pos⟩
  · intro l hl i j
    obtain rfl : l = fun _ j => if j = (0 : Fin 2) then 1 else 2 - Complex.I := by
      rcases List.mem_cons.mp hl with h | h
      · exact h
      · cases h
    simp only [Spec.PassiveMedium]
    split <;> simp
  · intro d hd
    obtain rfl : d = 1 / 3 := by simpa [absSettings, exParams] using hd
    norm_num

theorem absScalars {v : ℂ} (hv : 0 < v.im) :
    (1 : ℂ) + Complex.I * ((Real.sqrt 3 / 2 : ℝ) : ℂ) / v ≠ 0 ∧
    ∀ x2 : ℂ, ‖x2‖ ≤ 1 → v * (1 - x2 * dr v ((Real.sqrt 3 / 2 : ℝ) : ℂ))
      + Complex.I * ((Real.sqrt 3 / 2 : ℝ) : ℂ) * (1 + x2 * dr v ((Real.sqrt 3 / 2 : ℝ) : ℂ)) ≠ 0 := by
  have hs : 0 < Real.sqrt 3 / 2 := by positivity
  set y := Real.sqrt 3 / 2
  have hvc : v ≠ 0 := ne_of_im hv.ne'
  have h4 : v + Complex.I * y ≠ 0 := ne_of_im (by
    simp
    linarith)
  have h1 : (1 : ℂ) + Complex.I * (y : ℂ) / v ≠ 0 := by
    intro h0
    apply h4
    field_simp at h0
    linear_combination h0
  refine ⟨h1, fun x2 hx h0 => ?_⟩
  unfold dr at h0
  have h3 : (v + Complex.I * y) ^ 2 = x2 * (v - Complex.I * y) ^ 2 := by
    have e : (1 - Complex.I * y / v) / (1 + Complex.I * y / v) = (v - Complex.I * y) / (v + Complex.I * y) := by
      field_simp
    rw [e] at h0
    field_simp at h0
    linear_combination h0
  have h5 := congrArg norm h3
  rw [norm_mul, norm_pow, norm_pow, Complex.sq_norm, Complex.sq_norm] at h5
  have h6 : Complex.normSq (v - Complex.I * y) < Complex.normSq (v + Complex.I * y) := by
    simp only [Complex.normSq_apply, Complex.sub_re, Complex.sub_im, Complex.add_re, Complex.add_im, Complex.mul_re, Complex.mul_im,
      Complex.I_re, Complex.I_im, Complex.ofReal_re, Complex.ofReal_im]
    nlinarith [mul_pos hv hs]
  have h7 := Complex.normSq_nonneg (v - Complex.I * y)
  have h8 : ‖x2‖ * Complex.normSq (v - Complex.I * y) ≤ Complex.normSq (v - Complex.I * y) := by
    nlinarith
  linarith

theorem absPhase {q : ℂ} (hq : 0 ≤ q.re) {k d : ℝ} (hk : 0 ≤ k) (hd : 0 ≤ d) :
    ‖Complex.exp (-(k : ℂ) * q * (d : ℂ)) ^ 2‖ ≤ 1 := by
  rw [norm_pow, Complex.norm_exp]
  refine pow_le_one₀ (Real.exp_pos _).le (Real.exp_le_one_iff.mpr ?_)
  have : (-(k : ℂ) * q * (d : ℂ)).re = -(k * d * q.re) := by
    rw [← Complex.ofReal_neg, Complex.re_mul_ofReal, Complex.re_ofReal_mul]; ring
  rw [this]
  have := mul_nonneg (mul_nonneg hk hd) hq
  linarith

theorem csqrt_quadrant {z : ℂ} (h : 0 < z.im) : 0 < (csqrt z).re ∧ 0 < (csqrt z).im := by
  have h0 := csqrt_re_nonneg z
  have h1 : 2 * ((csqrt z).re * (csqrt z).im) = z.im := by
    have := congrArg Complex.im (csqrt_sq z)
    rw [sq, Complex.mul_im] at this
    linarith
  have h2 : (csqrt z).re ≠ 0 := by
    intro h2; rw [h2] at h1; linarith
  have h3 : 0 < (csqrt z).re := lt_of_le_of_ne h0 (Ne.symm h2)
  refine ⟨h3, ?_⟩
  by_contra h4
  have := mul_nonpos_of_nonneg_of_nonpos h0 (not_lt.mp h4)
  linarith

theorem absConv_row : absConv.row = (⟨diagonal fun _ => (7 - Complex.I) / 4, diagonal fun _ => 2 - 2 * Complex.I,
    diagonal fun _ => (1 + Complex.I) / 4⟩ : Conv (Fin (2 * 0 + 1))) := by
  unfold Conv.row absConv
  simp only [Conv.mk.injEq]
  refine ⟨?_, ?_, ?_⟩ <;> (ext i j; obtain rfl := Subsingleton.elim i j; simp)

theorem absConvMats (pol : ℝ) (phi : Option ℂ) : convMats exLA (absSettings pol phi) = .ok [absConv] := by
  unfold convMats
  simp only [absSettings, exParams, if_true]
  exact absCell_conv exLA

theorem abs_grating (pol : ℝ) (h : pol = 0 ∨ pol = 1) : gratingType (absSettings pol none) = 0 := by
  simp [gratingType, absSettings, absCell, exParams, h]

theorem abs_dq {pol : ℝ} (hpol : pol = 0 ∨ pol = 1) :
    0 < (dq pol (1 / 2) ((7 - Complex.I) / 4) (2 - 2 * Complex.I) ((1 + Complex.I) / 4)).re ∧
    0 < (dv pol (1 / 2) ((7 - Complex.I) / 4) (2 - 2 * Complex.I) ((1 + Complex.I) / 4)).im := by
  rcases hpol with rfl | rfl
  · unfold dv dq
    simp only [if_true]
    exact csqrt_quadrant (by norm_num [sq])
  · unfold dv dq
    simp only [if_neg one_ne_zero]
    have h := csqrt_quadrant (z := (7 - Complex.I) / 4 * (1 / 2 * ((1 + Complex.I) / 4) * (1 / 2) - 1)) (by norm_num)
    refine ⟨h.1, ?_⟩
    set q := csqrt ((7 - Complex.I) / 4 * (1 / 2 * ((1 + Complex.I) / 4) * (1 / 2) - 1))
    have : (7 - Complex.I) / 4 ≠ 0 := ne_of_im (by norm_num)
    have e : q / ((7 - Complex.I) / 4) = q * ((7 + Complex.I) * ((2 / 25 : ℝ) : ℂ)) := by
      have hI := Complex.I_sq
      rw [div_eq_iff this]
      push_cast
      linear_combination (q / 50) * hI
    rw [e, Complex.mul_im]
    norm_num
    linarith [h.1, h.2]

theorem abs_ok {pol : ℝ} (hpol : pol = 0 ∨ pol = 1) : ∃ o, conv_solve exLA (absSettings pol none) = .ok (.tetm o) := by
  have hy : ∀ z : ℂ, dy pol z 1 = z := by intro z; simp [dy]
  have h : ∃ o, solve_1d exLA (exParams pol none) 1
      [⟨diagonal fun _ => (7 - Complex.I) / 4, diagonal fun _ => 2 - 2 * Complex.I, diagonal fun _ => (1 + Complex.I) / 4⟩] = .ok o := by
    obtain ⟨hq, hv⟩ := abs_dq hpol
    have hs := absScalars hv
    refine solve_1d_diag_ok rfl hpol rfl _ _ _ (fun _ => ne_of_im (by norm_num)) ?_ ?_ ?_ []
    · intro i
      simp only [exKx, show (exParams pol none).pol = pol from rfl]
      exact ne_of_im hv.ne'
    · intro i
      simp only [exKx, show (exParams pol none).pol = pol from rfl,
        show (exParams pol none).n_bot = 1 from rfl, exKz, hy]
      exact hs.1
    · intro i
      simp only [exKx, show (exParams pol none).pol = pol from rfl,
        show (exParams pol none).n_bot = 1 from rfl, show (exParams pol none).n_top = 1 from rfl, exKz, hy]
      exact hs.2 _ (absPhase hq.le (by positivity) (by norm_num))
  obtain ⟨o, ho⟩ := h
  refine ⟨o, conv_solve_tetm.mpr ⟨[absConv], absConvMats pol none, abs_grating pol hpol, rfl, ?_⟩⟩
  have : [absConv].map Conv.row = [(⟨diagonal fun _ => (7 - Complex.I) / 4, diagonal fun _ => 2 - 2 * Complex.I,
    diagonal fun _ => (1 + Complex.I) / 4⟩ : Conv (Fin (2 * 0 + 1)))] := by simp only [List.map_cons, List.map_nil, absConv_row]
  exact (congrArg (solve_1d exLA (exParams pol none) 1) this).trans ho

end Meent
