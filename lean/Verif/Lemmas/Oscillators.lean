import Verif.Spec.Oscillators
import Verif.Lemmas.Dispersion
import Mathlib.MeasureTheory.Measure.Haar.NormedSpace

/-!
# Closed-form materials and the published models
-/

set_option linter.unusedSectionVars false
set_option linter.unusedSimpArgs false
set_option linter.unusedVariables false

namespace Meent

open Spec MeasureTheory

/-! ### Gaussian averages -/

theorem oscillator_value {w : ℂ → ℂ} (hw : IsFaddeeva w) {a : ℂ} (ha : 0 < a.im) (centre : ℝ) {s : ℝ} (hs : 0 < s) :
    Complex.I / a * (w ((a - centre) / (s : ℂ)) + w ((a + centre) / (s : ℂ))) =
      ((2 * s / Real.pi : ℝ) : ℂ) * ∫ t : ℝ, ((Real.exp (-t ^ 2) : ℝ) : ℂ) / (((centre + s * t : ℝ) : ℂ) ^ 2 - a ^ 2) := by
  have hs' : (s : ℂ) ≠ 0 := by exact_mod_cast hs.ne'
  have ha0 : a ≠ 0 := by rintro rfl; simp at ha
  have im1 : 0 < ((a - centre) / (s : ℂ)).im := by
    rw [Complex.div_ofReal_im]
    simpa using div_pos ha hs
  have im2 : 0 < ((a + centre) / (s : ℂ)).im := by
    rw [Complex.div_ofReal_im]
    simpa using div_pos ha hs
  have hI1 := gauss_integrable im1
  have hI2 := gauss_integrable im2
  rw [hw _ im1, hw _ im2, ← mul_add]
  have e2 : (∫ t : ℝ, ((Real.exp (-t ^ 2) : ℝ) : ℂ) / ((a + centre) / (s : ℂ) - (t : ℂ))) =
      ∫ t : ℝ, ((Real.exp (-t ^ 2) : ℝ) : ℂ) / ((a + centre) / (s : ℂ) + (t : ℂ)) := by
    rw [← integral_neg_eq_self]
    refine integral_congr_ae (Filter.Eventually.of_forall fun t => ?_)
    simp
  have hI2' : Integrable fun t : ℝ =>
      ((Real.exp (-t ^ 2) : ℝ) : ℂ) / ((a + centre) / (s : ℂ) + (t : ℂ)) := by
    have := hI2.comp_neg
    refine this.congr (Filter.Eventually.of_forall fun t => ?_)
    simp
  rw [e2, ← integral_add hI1 hI2']
  have e3 : ∀ t : ℝ, ((Real.exp (-t ^ 2) : ℝ) : ℂ) / ((a - centre) / (s : ℂ) - (t : ℂ)) +
      ((Real.exp (-t ^ 2) : ℝ) : ℂ) / ((a + centre) / (s : ℂ) + (t : ℂ)) =
      (-(2 * s * a)) * (((Real.exp (-t ^ 2) : ℝ) : ℂ) / (((centre + s * t : ℝ) : ℂ) ^ 2 - a ^ 2)) := by
    intro t
    have h1 : a - ((centre + s * t : ℝ) : ℂ) ≠ 0 := sub_ofReal_ne ha _
    have h2 : a + ((centre + s * t : ℝ) : ℂ) ≠ 0 := by
      have := sub_ofReal_ne ha (-(centre + s * t))
      rwa [Complex.ofReal_neg, sub_neg_eq_add] at this
    have h3 : ((centre + s * t : ℝ) : ℂ) ^ 2 - a ^ 2 ≠ 0 := by
      have : ((centre + s * t : ℝ) : ℂ) ^ 2 - a ^ 2 =
          -((a - ((centre + s * t : ℝ) : ℂ)) * (a + ((centre + s * t : ℝ) : ℂ))) := by ring
      rw [this]
      exact neg_ne_zero.mpr (mul_ne_zero h1 h2)
    have f1 : (a - centre) / (s : ℂ) - (t : ℂ) = (a - ((centre + s * t : ℝ) : ℂ)) / s := by
      push_cast
      field_simp
      ring
    have f2 : (a + centre) / (s : ℂ) + (t : ℂ) = (a + ((centre + s * t : ℝ) : ℂ)) / s := by
      push_cast
      field_simp
      ring
    rw [f1, f2]
    generalize ((centre + s * t : ℝ) : ℂ) = x at *
    generalize ((Real.exp (-t ^ 2) : ℝ) : ℂ) = e
    field_simp
    ring
  simp only [e3]
  rw [integral_const_mul]
  generalize (∫ t : ℝ, ((Real.exp (-t ^ 2) : ℝ) : ℂ) / (((centre + s * t : ℝ) : ℂ) ^ 2 - a ^ 2)) = J
  have hpi : (Real.pi : ℂ) ≠ 0 := by exact_mod_cast Real.pi_ne_zero
  push_cast
  field_simp
  rw [Complex.I_sq]
  ring

theorem gaussian_subst (f : ℝ → ℂ) (centre : ℝ) {width : ℝ} (hs : 0 < width) :
    ∫ x, f x ∂(ProbabilityTheory.gaussianReal centre (width ^ 2).toNNReal) =
      ((Real.sqrt Real.pi)⁻¹ : ℝ) * ∫ t : ℝ, ((Real.exp (-t ^ 2) : ℝ) : ℂ) * f (centre + Real.sqrt 2 * width * t) := by
  have hv : (width ^ 2).toNNReal ≠ 0 := (Real.toNNReal_pos.mpr (by positivity)).ne'
  rw [ProbabilityTheory.integral_gaussianReal_eq_integral_smul hv]
  set s : ℝ := Real.sqrt 2 * width with hsd
  have hs0 : 0 < s := by positivity
  have hss : s ^ 2 = 2 * width ^ 2 := by rw [hsd, mul_pow, Real.sq_sqrt two_pos.le]
  set g : ℝ → ℂ := fun x => ProbabilityTheory.gaussianPDFReal centre (width ^ 2).toNNReal x • f x with hg
  have e1 : (∫ x, g x) = s * ∫ t : ℝ, g (centre + s * t) := by
    rw [← integral_add_left_eq_self g centre, Measure.integral_comp_mul_left (fun y => g (centre + y)) s]
    rw [abs_of_pos (inv_pos.mpr hs0), Complex.real_smul, ← mul_assoc]
    have : (s : ℂ) ≠ 0 := by exact_mod_cast hs0.ne'
    push_cast
    field_simp
  rw [e1, ← integral_const_mul, ← integral_const_mul]
  refine integral_congr_ae (Filter.Eventually.of_forall fun t => ?_)
  simp only [hg, ProbabilityTheory.gaussianPDFReal, Real.coe_toNNReal _ (sq_nonneg width), Complex.real_smul]
  have e2 : -(centre + s * t - centre) ^ 2 / (2 * width ^ 2) = -t ^ 2 := by
    have : width ^ 2 ≠ 0 := by positivity
    rw [add_sub_cancel_left, mul_pow, hss]
    field_simp
  have e3 : s * (Real.sqrt (2 * Real.pi * width ^ 2))⁻¹ = (Real.sqrt Real.pi)⁻¹ := by
    have : Real.sqrt (2 * Real.pi * width ^ 2) = s * Real.sqrt Real.pi := by
      rw [Real.sqrt_mul (by positivity), Real.sqrt_mul two_pos.le, Real.sqrt_sq hs.le, hsd]
      ring
    rw [this, mul_inv, ← mul_assoc, mul_inv_cancel₀ hs0.ne', one_mul]
  show (s : ℂ) * (((_ : ℝ) : ℂ) * _) = _
  rw [e2]
  rw [← e3]
  push_cast
  ring

theorem mean_eq {o : Oscillator} (ho : o.Spread) (c ω : ℝ) (hω : 0 < ω) {a : ℂ}
    (ha2 : a ^ 2 = (ω : ℂ) ^ 2 + Complex.I * ω * o.damping) :
    o.mean c ω = ((c * o.strength / Real.sqrt Real.pi : ℝ) : ℂ) *
      ∫ t : ℝ, ((Real.exp (-t ^ 2) : ℝ) : ℂ) / (((o.centre + Real.sqrt 2 * o.width * t : ℝ) : ℂ) ^ 2 - a ^ 2) := by
  unfold Oscillator.mean
  rw [gaussian_subst _ _ ho.2, ← integral_const_mul, ← integral_const_mul]
  refine integral_congr_ae (Filter.Eventually.of_forall fun t => ?_)
  simp only [lorentz]
  rw [ha2, sub_sub]
  push_cast
  ring

theorem bb_term {w : ℂ → ℂ} (hw : IsFaddeeva w) {o : Oscillator} (ho : o.Spread) {c ω k : ℝ} (hω : 0 < ω)
    (hk : k = 2 * Real.sqrt 2) {z : ℂ} (hz : z = (ω : ℂ) ^ 2 + Complex.I * ω * o.damping) :
    Complex.I * Real.sqrt Real.pi * o.strength * c / ((k : ℂ) * csqrt z * o.width) *
      (w ((csqrt z - o.centre) / ((Real.sqrt 2 * o.width : ℝ) : ℂ)) + w ((csqrt z + o.centre) / ((Real.sqrt 2 * o.width : ℝ) : ℂ))) =
      o.mean c ω := by
  obtain ⟨h1, -⟩ := root_facts hω ho.1 hz
  have hsq := csqrt_sq z
  rw [mean_eq ho c ω hω (hsq.trans hz)]
  generalize csqrt z = a at *
  have key := oscillator_value hw h1 o.centre (s := Real.sqrt 2 * o.width) (mul_pos (Real.sqrt_pos.mpr two_pos) ho.2)
  have ha0 : a ≠ 0 := by rintro rfl; simp at h1
  have hk0 : (k : ℂ) ≠ 0 := by rw [hk]; exact_mod_cast (by positivity : (2 * Real.sqrt 2 : ℝ) ≠ 0)
  have hw0 : (o.width : ℂ) ≠ 0 := by exact_mod_cast ho.2.ne'
  have e : ∀ W : ℂ, Complex.I * Real.sqrt Real.pi * o.strength * c / ((k : ℂ) * a * o.width) * W =
      ((Real.sqrt Real.pi * o.strength * c / (k * o.width) : ℝ) : ℂ) * (Complex.I / a * W) := by
    intro W
    push_cast
    field_simp
  rw [e, key, ← mul_assoc]
  congr 1
  rw [← Complex.ofReal_mul]
  congr 1
  have hp : 0 < Real.sqrt Real.pi := Real.sqrt_pos.mpr Real.pi_pos
  have hp2 : Real.pi = Real.sqrt Real.pi ^ 2 := (Real.sq_sqrt Real.pi_pos.le).symm
  have h2 : 0 < Real.sqrt 2 := Real.sqrt_pos.mpr two_pos
  have := ho.2
  rw [hk]
  conv_lhs => rw [hp2]
  rw [Real.sqrt_sq hp.le]
  field_simp

theorem foldlM_sum {α : Type} (f : ℂ → α → Option ℂ) (g : α → ℂ) (l : List α) (x : ℂ)
    (h : ∀ o ∈ l, ∀ y, f y o = some (y + g o)) : l.foldlM f x = some (x + (l.map g).sum) := by
  induction l generalizing x with
  | nil => simp
  | cons o l ih =>
    rw [List.foldlM_cons, h o (by simp)]
    show l.foldlM f (x + g o) = _
    rw [ih _ fun o' ho' => h o' (by simp [ho']), List.map_cons, List.sum_cons, add_assoc]

theorem faddeevaPair_ok {sp : SciPy} {a : ℂ} {centre sigma : ℝ} (hs : 0 < sigma) :
    faddeevaPair sp a centre sigma = some (sp.wofz ((a - centre) / ((Real.sqrt 2 * sigma : ℝ) : ℂ)) +
      sp.wofz ((a + centre) / ((Real.sqrt 2 * sigma : ℝ) : ℂ))) := by
  have h : ((Real.sqrt 2 * sigma : ℝ) : ℂ) ≠ 0 := by
    have : (0 : ℝ) < Real.sqrt 2 * sigma := by positivity
    exact_mod_cast this.ne'
  unfold faddeevaPair cdiv
  rw [if_neg h, if_neg h]
  rfl

theorem cdiv_ok {a b : ℂ} (h : b ≠ 0) : cdiv a b = some (a / b) := by
  unfold cdiv
  rw [if_neg h]

theorem bbEvAt_value {sp : SciPy} (hw : IsFaddeeva sp.wofz) (plasma strength damping : ℝ) (osc : List Oscillator)
    (ho : ∀ o ∈ osc, o.Spread) {wl : ℝ} (hwl : 0 < wl) :
    bbEvAt sp plasma strength damping (osc.map fun o => (o.strength, o.damping, o.centre, o.width)) wl =
      some (rootIndex (metal plasma strength damping osc wl)) := by
  unfold bbEvAt
  rw [if_neg hwl.ne']
  simp only
  have e : (1e-2 : ℝ) / wl / wavenumberPerEv = photonEv wl := by
    unfold wavenumberPerEv photonEv perCm
    field_simp
    norm_num
  have hom : 0 < photonEv wl := by unfold photonEv perCm; positivity
  rw [e, metal]
  generalize photonEv wl = ω at hom ⊢
  have hd : (ω : ℂ) * (ω + Complex.I * damping) ≠ 0 := by
    refine mul_ne_zero (by exact_mod_cast hom.ne') fun h => ?_
    have := congrArg Complex.re h
    simp at this
    exact hom.ne' this
  rw [cdiv_ok hd]
  simp only [Option.bind_eq_bind, Option.bind_some]
  rw [List.foldlM_map, foldlM_sum _ (Oscillator.mean (plasma ^ 2) ω)]
  · rfl
  intro o hmem y
  obtain ⟨hg, hs⟩ := ho o hmem
  have h1 := (root_facts (z := (ω : ℂ) ^ 2 + Complex.I * ω * o.damping) hom hg rfl).1
  have ha0 : csqrt ((ω : ℂ) ^ 2 + Complex.I * ω * o.damping) ≠ 0 := by
    intro h; rw [h] at h1; simp at h1
  have hk : ((2 : ℝ) ^ (1.5 : ℝ)) = 2 * Real.sqrt 2 := by
    rw [show (1.5 : ℝ) = 1 + 1 / 2 by norm_num, Real.rpow_add two_pos, Real.rpow_one, Real.sqrt_eq_rpow]
  have hk0 : (((2 : ℝ) ^ (1.5 : ℝ) : ℝ) : ℂ) ≠ 0 := by exact_mod_cast (Real.rpow_pos_of_pos two_pos _).ne'
  have hs0 : (o.width : ℂ) ≠ 0 := by exact_mod_cast hs.ne'
  show (cdiv _ _).bind _ = _
  rw [cdiv_ok (mul_ne_zero (mul_ne_zero hk0 ha0) hs0), Option.bind_some]
  show (faddeevaPair _ _ _ _).bind _ = _
  rw [faddeevaPair_ok hs, Option.bind_some]
  rw [← bb_term hw (ho o hmem) (c := plasma ^ 2) hom hk rfl]
  push_cast
  rfl

theorem bbCmAt_value {sp : SciPy} (hw : IsFaddeeva sp.wofz) (eps_inf : ℝ) (osc : List Oscillator) (hne : osc ≠ [])
    (ho : ∀ o ∈ osc, o.Spread) {wl : ℝ} (hwl : 0 < wl) :
    bbCmAt sp eps_inf (osc.map fun o => (o.strength, o.damping, o.width, o.centre)) wl =
      some (rootIndex (crystal eps_inf osc wl)) := by
  unfold bbCmAt
  rw [if_neg (by simpa using hne), if_neg hwl.ne']
  simp only
  have e : (1e-2 : ℝ) / wl = perCm wl := by
    unfold perCm
    field_simp
    norm_num
  have hom : 0 < perCm wl := by unfold perCm; positivity
  rw [e, crystal]
  generalize perCm wl = ω at hom ⊢
  rw [List.foldlM_map, foldlM_sum _ (Oscillator.mean 1 ω)]
  · rfl
  intro o hmem y
  obtain ⟨hg, hs⟩ := ho o hmem
  have hz : (ω : ℂ) ^ 2 + Complex.I * o.damping * ω = (ω : ℂ) ^ 2 + Complex.I * ω * o.damping := by ring
  have h1 := (root_facts (z := (ω : ℂ) ^ 2 + Complex.I * o.damping * ω) hom hg hz).1
  have ha0 : csqrt ((ω : ℂ) ^ 2 + Complex.I * o.damping * ω) ≠ 0 := by
    intro h; rw [h] at h1; simp at h1
  have hk0 : ((2 * Real.sqrt 2 : ℝ) : ℂ) ≠ 0 := by
    exact_mod_cast (by positivity : (2 * Real.sqrt 2 : ℝ) ≠ 0)
  have hs0 : (o.width : ℂ) ≠ 0 := by exact_mod_cast hs.ne'
  show (cdiv _ _).bind _ = _
  rw [cdiv_ok (mul_ne_zero (mul_ne_zero hk0 hs0) ha0), Option.bind_some]
  show (faddeevaPair _ _ _ _).bind _ = _
  rw [faddeevaPair_ok hs, Option.bind_some]
  rw [← bb_term hw (ho o hmem) (c := 1) hom rfl hz]
  rw [Complex.ofReal_one, mul_one, mul_right_comm ((2 * Real.sqrt 2 : ℝ) : ℂ)]

/-! ### Graphene -/

theorem logaddexp_cosh (x : ℝ) : logaddexp x (-x) = Real.log (2 * Real.cosh x) := by
  rw [logaddexp, Real.cosh_eq]
  congr 1
  ring

theorem coshRatio_eq (a b : ℝ) :
    coshRatio a b = Real.exp (max (-745) (min (Real.log (Real.cosh a / Real.cosh b)) 709)) := by
  have ha := Real.cosh_pos a
  have hb := Real.cosh_pos b
  unfold coshRatio
  simp only [logaddexp_cosh]
  rw [Real.log_mul two_ne_zero ha.ne', Real.log_mul two_ne_zero hb.ne', Real.log_div ha.ne' hb.ne']
  congr 3
  ring

theorem gap_eq (μ T x : ℝ) :
    occupationGap μ T x = Real.tanh (x / T) / (Real.cosh (μ / T) / Real.cosh (x / T) + 1) := by
  unfold occupationGap
  rw [Real.tanh_eq_sinh_div_cosh]
  have ha := Real.cosh_pos (μ / T)
  have hb := Real.cosh_pos (x / T)
  field_simp

theorem occupation_rounded (μ T : ℝ) : RoundedGap μ T (occupation μ T) := by
  have hm : ∀ x, Real.exp (-745) ≤ Real.cosh (μ / T) / Real.cosh (x / T) →
      Real.cosh (μ / T) / Real.cosh (x / T) ≤ Real.exp 709 → occupation μ T x = occupationGap μ T x := by
    intro x h1 h2
    have hr : 0 < Real.cosh (μ / T) / Real.cosh (x / T) := div_pos (Real.cosh_pos _) (Real.cosh_pos _)
    rw [occupation, coshRatio_eq, gap_eq]
    rw [min_eq_left ((Real.log_le_iff_le_exp hr).mpr h2), max_eq_right ((Real.le_log_iff_exp_le hr).mpr h1), Real.exp_log hr]
  refine ⟨hm, fun x => ?_⟩
  have hr : 0 < Real.cosh (μ / T) / Real.cosh (x / T) := div_pos (Real.cosh_pos _) (Real.cosh_pos _)
  have ht := (Real.abs_tanh_lt_one (x / T)).le
  by_cases h1 : Real.exp (-745) ≤ Real.cosh (μ / T) / Real.cosh (x / T)
  · by_cases h2 : Real.cosh (μ / T) / Real.cosh (x / T) ≤ Real.exp 709
    · rw [hm x h1 h2, sub_self, abs_zero]
      exact (Real.exp_pos _).le
    · push Not at h2
      rw [occupation, coshRatio_eq, gap_eq]
      rw [min_eq_right ((Real.le_log_iff_exp_le hr).mpr h2.le), max_eq_right (by norm_num)]
      generalize Real.cosh (μ / T) / Real.cosh (x / T) = r at *
      generalize Real.tanh (x / T) = th at *
      have h7 := Real.exp_pos (709 : ℝ)
      rw [Real.exp_neg]
      generalize Real.exp (709 : ℝ) = M at *
      have e : th / (M + 1) - th / (r + 1) = th * (1 / (M + 1) - 1 / (r + 1)) := by ring
      rw [e, abs_mul]
      have hd : 1 / (r + 1) ≤ 1 / (M + 1) := one_div_le_one_div_of_le (by linarith) (by linarith)
      have hd2 : 0 < 1 / (r + 1) := by positivity
      have hd3 : 1 / (M + 1) ≤ M⁻¹ := by rw [← one_div]; exact one_div_le_one_div_of_le h7 (by linarith)
      rw [abs_of_nonneg (by linarith : 0 ≤ 1 / (M + 1) - 1 / (r + 1))]
      calc |th| * (1 / (M + 1) - 1 / (r + 1)) ≤ 1 * (1 / (M + 1) - 1 / (r + 1)) := mul_le_mul_of_nonneg_right ht (by linarith)
        _ ≤ M⁻¹ := by linarith
  · push Not at h1
    rw [occupation, coshRatio_eq, gap_eq]
    have hl : Real.log (Real.cosh (μ / T) / Real.cosh (x / T)) ≤ -745 := (Real.log_le_iff_le_exp hr).mpr h1.le
    rw [min_eq_left (by linarith), max_eq_left hl]
    have h45 : Real.exp (-745) ≤ Real.exp (-709) := Real.exp_le_exp.mpr (by norm_num)
    generalize Real.cosh (μ / T) / Real.cosh (x / T) = r at *
    generalize Real.tanh (x / T) = th at *
    have h7 := Real.exp_pos (-745 : ℝ)
    refine le_trans ?_ h45
    generalize Real.exp (-745 : ℝ) = M at *
    have e : th / (M + 1) - th / (r + 1) = th * ((r - M) / ((M + 1) * (r + 1))) := by
      field_simp
      ring
    rw [e, abs_mul, abs_div, abs_of_nonpos (by linarith : r - M ≤ 0), abs_of_pos (by positivity : 0 < (M + 1) * (r + 1))]
    have h3 : -(r - M) / ((M + 1) * (r + 1)) ≤ M := by
      rw [div_le_iff₀ (by positivity)]
      have := mul_pos h7 h7
      have := mul_pos h7 hr
      have := mul_pos (mul_pos h7 h7) hr
      nlinarith
    calc |th| * (-(r - M) / ((M + 1) * (r + 1))) ≤ 1 * (-(r - M) / ((M + 1) * (r + 1))) :=
          mul_le_mul_of_nonneg_right ht (div_nonneg (by linarith) (by positivity))
      _ ≤ M := by linarith

theorem occupation_lipschitz (μ T : ℝ) : LocallyLipschitz (occupation μ T) := by
  have h1 : LocallyLipschitz fun x : ℝ => Real.log (Real.cosh (μ / T) / Real.cosh (x / T)) := by
    refine ContDiff.locallyLipschitz (𝕂 := ℝ) ?_
    refine ContDiff.log ?_ fun x => (div_pos (Real.cosh_pos _) (Real.cosh_pos _)).ne'
    refine ContDiff.div contDiff_const ?_ fun x => (Real.cosh_pos _).ne'
    exact Real.contDiff_cosh.comp (contDiff_id.div_const T)
  have h2 := (h1.min_const 709).const_max (-745)
  have h3 : LocallyLipschitz fun x : ℝ => x / T := (contDiff_id.div_const T).locallyLipschitz (𝕂 := ℝ)
  have h4 : LocallyLipschitz fun p : ℝ × ℝ => Real.sinh p.1 / Real.cosh p.1 / (Real.exp p.2 + 1) := by
    refine ContDiff.locallyLipschitz (𝕂 := ℝ) ?_
    refine ContDiff.div (ContDiff.div ?_ ?_ fun p => (Real.cosh_pos _).ne') ?_ fun p => by positivity
    · exact Real.contDiff_sinh.comp contDiff_fst
    · exact Real.contDiff_cosh.comp contDiff_fst
    · exact (Real.contDiff_exp.comp contDiff_snd).add contDiff_const
  have h5 := h4.comp (h3.prodMk h2)
  have e : occupation μ T = (fun p : ℝ × ℝ => Real.sinh p.1 / Real.cosh p.1 / (Real.exp p.2 + 1)) ∘
      fun x => (x / T, max (-745) (min (Real.log (Real.cosh (μ / T) / Real.cosh (x / T))) 709)) := by
    funext x
    rw [occupation, coshRatio_eq, Real.tanh_eq_sinh_div_cosh]
    rfl
  rw [e]
  exact h5

theorem occupation_abs_le (μ T x : ℝ) : |occupation μ T x| ≤ 1 := by
  unfold occupation
  have hc : 0 < coshRatio (μ / T) (x / T) := Real.exp_pos _
  rw [abs_div, abs_of_pos (by linarith : 0 < coshRatio (μ / T) (x / T) + 1), div_le_one (by linarith)]
  have := (Real.abs_tanh_lt_one (x / T)).le
  linarith

theorem interband_integrable (μ T : ℝ) {E : ℝ} (hE : 0 < E) :
    IntervalIntegrable (fun z => (occupation μ T z - occupation μ T (E / 2)) / (E ^ 2 - 4 * z * z)) volume 0 1000 := by
  have hl := occupation_lipschitz μ T
  have hcont : Continuous (occupation μ T) := hl.continuous
  obtain ⟨K, s, hs, hK⟩ := hl (E / 2)
  obtain ⟨δ, hδ, hball⟩ := Metric.mem_nhds_iff.mp hs
  set h : ℝ := E / 2 with hh
  have hE2 : E = 2 * h := by rw [hh]; ring
  have hh0 : 0 < h := by rw [hh]; linarith
  rw [intervalIntegrable_iff]
  refine Measure.integrableOn_of_bounded (M := max ((K : ℝ) / (4 * h)) (2 / (4 * h * δ))) (by simp) ?_ ?_
  · refine Measurable.aestronglyMeasurable ?_
    exact (hcont.measurable.sub_const _).div (by fun_prop)
  · refine (ae_restrict_iff' measurableSet_uIoc).mpr (Filter.Eventually.of_forall fun z hz => ?_)
    rw [Set.uIoc_of_le (by norm_num)] at hz
    have hz0 : 0 < z := hz.1
    have hden : E ^ 2 - 4 * z * z = (h - z) * (4 * (h + z)) := by rw [hE2]; ring
    rw [hden, Real.norm_eq_abs, abs_div, abs_mul, abs_of_pos (by linarith : 0 < 4 * (h + z))]
    by_cases hzh : |z - h| < δ
    · refine le_max_of_le_left ?_
      rcases eq_or_ne z h with rfl | hne
      · simp
        positivity
      have hd : 0 < |h - z| := abs_pos.mpr (sub_ne_zero.mpr hne.symm)
      have h1 := hK.dist_le_mul z (hball (by rw [Metric.mem_ball, Real.dist_eq]; exact hzh)) h
        (hball (Metric.mem_ball_self hδ))
      rw [Real.dist_eq, Real.dist_eq, abs_sub_comm z h] at h1
      rw [div_le_div_iff₀ (by positivity) (by positivity)]
      have hK0 : (0 : ℝ) ≤ K := K.2
      calc |occupation μ T z - occupation μ T h| * (4 * h) ≤ (K * |h - z|) * (4 * h) :=
            mul_le_mul_of_nonneg_right h1 (by positivity)
        _ ≤ (K * |h - z|) * (4 * (h + z)) := mul_le_mul_of_nonneg_left (by linarith) (by positivity)
        _ = K * (|h - z| * (4 * (h + z))) := by ring
    · refine le_max_of_le_right ?_
      push Not at hzh
      rw [abs_sub_comm] at hzh
      have h1 : |occupation μ T z - occupation μ T h| ≤ 2 := by
        have a1 := abs_sub (occupation μ T z) (occupation μ T h)
        have a2 := occupation_abs_le μ T z
        have a3 := occupation_abs_le μ T h
        linarith
      have h3 : 0 < |h - z| := lt_of_lt_of_le hδ hzh
      rw [div_le_div_iff₀ (by positivity) (by positivity)]
      have h2 : 4 * h * δ ≤ |h - z| * (4 * (h + z)) := by
        calc 4 * h * δ = δ * (4 * h) := by ring
          _ ≤ |h - z| * (4 * (h + z)) := mul_le_mul hzh (by linarith) (by positivity) (abs_nonneg _)
      exact mul_le_mul h1 h2 (by positivity) (by norm_num)

theorem conductivity_eq {sp : SciPy} (hq : IsQuadrature sp.quad) (μ T Γ : ℝ) {E : ℝ} (hE : 0 < E) :
    conductivity sp μ T Γ E = sheetConductivity elementaryCharge hbar μ T Γ (occupation μ T) E := by
  unfold conductivity sheetConductivity
  simp only
  rw [hq _ _ (interband_integrable μ T hE)]
  rw [neg_div, logaddexp_cosh]
  have : ∀ z : ℝ, E ^ 2 - 4 * z * z = E ^ 2 - 4 * z ^ 2 := fun z => by ring
  simp only [this]

theorem si_pos : 0 < si.e ∧ 0 < si.hbar ∧ 0 < si.boltzmann ∧ 0 < si.c ∧ 0 < si.eps0 ∧ 0 < si.fermiVelocity := by
  unfold si
  norm_num

theorem grapheneAt_some (sp : SciPy) {μ mobility temperature thickness wl : ℝ} (hμ : 0 < μ) (hm : 0 < mobility)
    (hd : 0 < thickness) (hwl : 0 < wl) :
    grapheneAt sp μ mobility temperature thickness wl =
      some (rootIndex (sheetPermittivity si.eps0 (angular wl) thickness
        (conductivity sp μ (thermal temperature) (scattering μ mobility) (photonEnergy wl)))) := by
  obtain ⟨c1, c2, c3, c4, c5, c6⟩ := si_pos
  have e1 : temperature * boltzmann / elementaryCharge = thermal temperature := by
    unfold thermal
    rw [mul_comm]
    rfl
  have e2 : hbar * (2 * Real.pi * lightSpeed / wl) / elementaryCharge = photonEnergy wl := rfl
  have e3 : |hbar * fermiVelocity ^ 2 / (mobility * 1e-4 * elementaryCharge * μ)| = scattering μ mobility := by
    rw [abs_of_pos]
    · unfold scattering
      congr 1
      · show 1.0545718e-34 * (1e6 : ℝ) ^ 2 = 1.0545718e-34 * (1000000 : ℝ) ^ 2
        norm_num
      · show mobility * 1e-4 * 1.6021773349e-19 * μ = mobility / 10000 * 1.6021773349e-19 * μ
        ring
    · have : 0 < hbar := c2
      have : 0 < elementaryCharge := c1
      have : 0 < fermiVelocity := by unfold fermiVelocity; norm_num
      positivity
  have hω : 0 < angular wl := by unfold angular; positivity
  have e4 : elementaryCharge * photonEnergy wl / hbar = angular wl := by
    have h1 : elementaryCharge = si.e := rfl
    have h2 : hbar = si.hbar := rfl
    rw [h1, h2, photonEnergy]
    field_simp
  unfold grapheneAt
  simp only
  rw [e1, e2, e3, e4]
  have hne : ((angular wl : ℝ) : ℂ) * thickness * vacuumPermittivity ≠ 0 := by
    have : vacuumPermittivity = si.eps0 := rfl
    rw [this]
    refine mul_ne_zero (mul_ne_zero ?_ ?_) ?_
    · exact_mod_cast hω.ne'
    · exact_mod_cast hd.ne'
    · exact_mod_cast c5.ne'
  rw [cdiv_ok hne]
  show some (csqrt _) = _
  unfold rootIndex sheetPermittivity
  rw [mul_right_comm]
  rfl

theorem photonEnergy_pos {wl : ℝ} (hwl : 0 < wl) : 0 < photonEnergy wl := by
  obtain ⟨c1, c2, c3, c4, c5, c6⟩ := si_pos
  unfold photonEnergy angular
  positivity

theorem tanh_strictMono : StrictMono Real.tanh := by
  intro x y h
  rw [Real.tanh_eq_sinh_div_cosh, Real.tanh_eq_sinh_div_cosh, div_lt_div_iff₀ (Real.cosh_pos _) (Real.cosh_pos _)]
  have : 0 < Real.sinh (y - x) := Real.sinh_pos_iff.mpr (by linarith)
  rw [Real.sinh_sub] at this
  linarith

theorem occupation_strictMono (μ : ℝ) {T : ℝ} (hT : 0 < T) : StrictMonoOn (occupation μ T) (Set.Ici 0) := by
  intro x hx y hy h
  have hx0 : 0 ≤ x / T := div_nonneg hx hT.le
  have hxy : x / T < y / T := div_lt_div_of_pos_right h hT
  rw [occupation, occupation, coshRatio_eq, coshRatio_eq]
  have h1 := tanh_strictMono hxy
  have h0 : 0 ≤ Real.tanh (x / T) := by
    rw [← Real.tanh_zero]
    exact tanh_strictMono.monotone hx0
  have hc : Real.cosh (x / T) ≤ Real.cosh (y / T) := by
    rw [Real.cosh_le_cosh, abs_of_nonneg hx0, abs_of_nonneg (hx0.trans hxy.le)]
    exact hxy.le
  have hm := Real.cosh_pos (μ / T)
  have hcx := Real.cosh_pos (x / T)
  have hcy := Real.cosh_pos (y / T)
  have hr : Real.log (Real.cosh (μ / T) / Real.cosh (y / T)) ≤ Real.log (Real.cosh (μ / T) / Real.cosh (x / T)) :=
    Real.log_le_log (div_pos hm hcy) (div_le_div_of_nonneg_left hm.le hcx hc)
  have he := Real.exp_le_exp.mpr (max_le_max (le_refl (-745 : ℝ)) (min_le_min hr (le_refl (709 : ℝ))))
  have p1 := Real.exp_pos (max (-745) (min (Real.log (Real.cosh (μ / T) / Real.cosh (y / T))) 709))
  generalize Real.exp (max (-745) (min (Real.log (Real.cosh (μ / T) / Real.cosh (y / T))) 709)) = A at *
  generalize Real.exp (max (-745) (min (Real.log (Real.cosh (μ / T) / Real.cosh (x / T))) 709)) = B at *
  rw [div_lt_div_iff₀ (by linarith) (by linarith)]
  calc Real.tanh (x / T) * (A + 1) ≤ Real.tanh (x / T) * (B + 1) := mul_le_mul_of_nonneg_left (by linarith) h0
    _ < Real.tanh (y / T) * (B + 1) := mul_lt_mul_of_pos_right h1 (by linarith)

theorem occupation_lt_one (μ T x : ℝ) : occupation μ T x < 1 := by
  unfold occupation
  have hc : 0 < coshRatio (μ / T) (x / T) := Real.exp_pos _
  rw [div_lt_one (by linarith)]
  have := Real.tanh_lt_one (x / T)
  linarith

theorem occupation_fermi (μ T : ℝ) : occupation μ T μ = Real.tanh (μ / T) / 2 := by
  have h : Real.cosh (μ / T) / Real.cosh (μ / T) = 1 := div_self (Real.cosh_pos _).ne'
  rw [(occupation_rounded μ T).1 μ (by rw [h]; exact Real.exp_le_one_iff.mpr (by norm_num))
    (by rw [h]; exact Real.one_le_exp (by norm_num)), gap_eq, h]
  norm_num

/-- The real part of the sheet conductivity: a Drude part and the interband part. -/
theorem conductivity_re_eq (sp : SciPy) (μ T Γ : ℝ) {E : ℝ} (hE : 0 < E) :
    (conductivity sp μ T Γ E).re = 2 * elementaryCharge ^ 2 * T * logaddexp (μ / (2 * T)) (-μ / (2 * T)) / (Real.pi * hbar) *
      (Γ / (E ^ 2 + Γ ^ 2)) + elementaryCharge ^ 2 / (4 * hbar) * occupation μ T (E / 2) := by
  have hh : 0 < hbar := by unfold hbar; norm_num
  unfold conductivity
  simp only
  generalize occupation μ T (E / 2) = half at *
  generalize logaddexp (μ / (2 * T)) (-μ / (2 * T)) = L at *
  generalize sp.quad _ _ = Q
  rw [Complex.add_re]
  congr 1
  · have hn : (E : ℂ) + Complex.I * Γ ≠ 0 := by
      intro h
      have := congrArg Complex.re h
      simp at this
      exact hE.ne' this
    have e1 : (2 * Complex.I * (elementaryCharge : ℂ) ^ 2 * T) /
        (Real.pi * hbar * (E + Complex.I * Γ)) * L =
        ((2 * elementaryCharge ^ 2 * T * L / (Real.pi * hbar) : ℝ) : ℂ) *
          (Complex.I * ((E : ℂ) + Complex.I * Γ)⁻¹) := by
      push_cast
      have : (hbar : ℂ) ≠ 0 := by exact_mod_cast hh.ne'
      have : (Real.pi : ℂ) ≠ 0 := by exact_mod_cast Real.pi_ne_zero
      field_simp
    rw [e1, Complex.re_ofReal_mul]
    congr 1
    have e2 : (E : ℂ) + Complex.I * Γ = ⟨E, Γ⟩ := by apply Complex.ext <;> simp
    rw [e2, Complex.mul_re, Complex.I_re, Complex.I_im, zero_mul, zero_sub, one_mul,
      Complex.inv_im, neg_div, neg_neg, Complex.normSq_mk]
    ring_nf
  · have e1 : ((elementaryCharge : ℂ) ^ 2 / (4 * hbar)) *
        (half + (4 * Complex.I * E / Real.pi) * Q) =
        ((elementaryCharge ^ 2 / (4 * hbar) : ℝ) : ℂ) * half +
          ((elementaryCharge ^ 2 / (4 * hbar) * (4 * E / Real.pi) * Q : ℝ) : ℂ) * Complex.I := by
      push_cast
      ring
    rw [e1, Complex.add_re, Complex.re_ofReal_mul, Complex.re_ofReal_mul, Complex.I_re, mul_zero,
      add_zero, Complex.ofReal_re]

end Meent
