import Verif.Lemmas.Substitution
import Verif.Lemmas.Energy1D
import Mathlib.Analysis.SpecialFunctions.Gaussian.GaussianIntegral

/-!
# Closed-form materials (helper lemmas)
-/

set_option linter.unusedSimpArgs false

namespace Meent

open Spec MeasureTheory

/-! ### Sellmeier -/

theorem sellmeierLoop_ok (pole : ℝ → ℝ) (terms : List (ℝ × ℝ)) (n2 : ℝ → Option ℝ) :
    ∃ g, sellmeierLoop pole (terms.flatMap fun t => [t.1, t.2]) n2 = .ok g ∧
      ∀ w, ((∃ t ∈ terms, w ^ 2 = pole t.2) → g w = none) ∧
        (¬ (∃ t ∈ terms, w ^ 2 = pole t.2) → g w = (n2 w).map
          (· + (terms.map fun t => t.1 * w ^ 2 / (w ^ 2 - pole t.2)).sum)) := by
  induction terms generalizing n2 with
  | nil => exact ⟨n2, rfl, fun w => ⟨by simp, by simp⟩⟩
  | cons t terms ih =>
    obtain ⟨b, c⟩ := t
    simp only [List.flatMap_cons, List.cons_append, List.nil_append, sellmeierLoop]
    obtain ⟨g, hg, hw⟩ := ih (fun w => do
      let a ← n2 w
      if w ^ 2 - pole c = 0 then none else some (a + b * w ^ 2 / (w ^ 2 - pole c)))
    refine ⟨g, hg, fun w => ⟨?_, ?_⟩⟩
    · intro h
      by_cases h' : ∃ t ∈ terms, w ^ 2 = pole t.2
      · exact (hw w).1 h'
      · rw [(hw w).2 h']
        obtain ⟨t, ht, e⟩ := h
        rcases List.mem_cons.mp ht with rfl | ht
        · simp only at e
          cases n2 w with
          | none => rfl
          | some a => simp [e]
        · exact absurd ⟨t, ht, e⟩ h'
    · intro h
      have h' : ¬ ∃ t ∈ terms, w ^ 2 = pole t.2 := fun ⟨t, ht, e⟩ => h ⟨t, by simp [ht], e⟩
      have hc : w ^ 2 - pole c ≠ 0 := fun e => h ⟨(b, c), by simp, sub_eq_zero.mp e⟩
      rw [(hw w).2 h']
      cases n2 w with
      | none => rfl
      | some a =>
        simp [hc]
        ring

theorem sellmeier_value (pole : ℝ → ℝ) (c0 : ℝ) (terms : List (ℝ × ℝ)) (wl : List ℝ) :
    sellmeier pole (sellmeierCoefficients c0 terms) wl =
      .ok (wl.map (sellmeierIndex c0 (terms.map fun t => (t.1, pole t.2)))) := by
  obtain ⟨g, hg, hw⟩ := sellmeierLoop_ok pole terms (fun _ => some (1 + c0))
  simp only [sellmeier, sellmeierCoefficients, hg]
  change Except.ok _ = Except.ok _
  congr 1
  refine List.map_congr_left fun w _ => ?_
  have e1 : (∃ t ∈ terms.map (fun t => (t.1, pole t.2)), w ^ 2 = t.2) ↔
      ∃ t ∈ terms, w ^ 2 = pole t.2 := by
    simp [eq_comm]
  have e2 : sellmeierSquare c0 (terms.map fun t => (t.1, pole t.2)) w =
      1 + c0 + (terms.map fun t => t.1 * w ^ 2 / (w ^ 2 - pole t.2)).sum := by
    simp only [sellmeierSquare, List.map_map]
    rfl
  unfold sellmeierIndex
  simp only [e1, e2]
  by_cases h : ∃ t ∈ terms, w ^ 2 = pole t.2
  · rw [(hw w).1 h, if_pos (.inl h)]
    rfl
  · rw [(hw w).2 h]
    simp only [Option.map_some, Option.bind_some, realSqrt, h, false_or]
    split_ifs <;> rfl

theorem sellmeierLoop_odd (pole : ℝ → ℝ) (l : List ℝ) (h : l.length % 2 = 1) (n2 : ℝ → Option ℝ) :
    sellmeierLoop pole l n2 = .error .indexError := by
  induction l, n2 using sellmeierLoop.induct pole with
  | case1 n2 => simp at h
  | case2 _ n2 => rfl
  | case3 b c rest n2 ih =>
    rw [sellmeierLoop]
    exact ih (by simp only [List.length_cons] at h; omega)

theorem sellmeier_even (pole : ℝ → ℝ) (cs wl : List ℝ) (h : cs.length % 2 = 0) :
    sellmeier pole cs wl = .error .indexError := by
  unfold sellmeier
  cases cs with
  | nil => rfl
  | cons c l =>
    simp only
    rw [sellmeierLoop_odd pole l (by simp only [List.length_cons] at h; omega)]
    rfl

theorem coefficients_odd (cs : List ℝ) (h : cs.length % 2 = 1) :
    ∃ c0 terms, cs = sellmeierCoefficients c0 terms := by
  cases cs with
  | nil => simp at h
  | cons c l =>
    have hl : l.length % 2 = 0 := by simp only [List.length_cons] at h; omega
    clear h
    suffices H : ∃ terms : List (ℝ × ℝ), l = terms.flatMap fun t => [t.1, t.2] by
      obtain ⟨terms, rfl⟩ := H
      exact ⟨c, terms, rfl⟩
    induction l using List.twoStepInduction with
    | nil => exact ⟨[], rfl⟩
    | singleton x => simp at hl
    | cons_cons x y l ih _ =>
      obtain ⟨terms, rfl⟩ := ih (by simp only [List.length_cons] at hl; omega)
      exact ⟨(x, y) :: terms, rfl⟩

theorem sellmeier_real {pole : ℝ → ℝ} {cs wl : List ℝ} {r : List (Option ℂ)}
    (h : sellmeier pole cs wl = .ok r) (z : ℂ) (hz : some z ∈ r) : z.im = 0 := by
  rcases Nat.mod_two_eq_zero_or_one cs.length with he | ho
  · rw [sellmeier_even pole cs wl he] at h
    cases h
  · obtain ⟨c0, terms, rfl⟩ := coefficients_odd cs ho
    rw [sellmeier_value] at h
    cases h
    obtain ⟨w, -, hw⟩ := List.mem_map.mp hz
    unfold sellmeierIndex at hw
    split_ifs at hw
    cases hw
    simp

/-! ### Square roots -/

theorem csqrt_im_nonneg {z : ℂ} (h : 0 ≤ z.im) : 0 ≤ (csqrt z).im := by
  unfold csqrt
  by_cases hz : z = 0
  · rw [hz, Complex.zero_cpow (by norm_num)]
    simp
  · rw [Complex.cpow_def_of_ne_zero hz, Complex.exp_im]
    refine mul_nonneg (Real.exp_pos _).le (Real.sin_nonneg_of_nonneg_of_le_pi ?_ ?_)
    · have h1 := Complex.arg_nonneg_iff.mpr h
      have : (Complex.log z * (1 / 2)).im = Complex.arg z / 2 := by
        rw [show (1 / 2 : ℂ) = ((1 / 2 : ℝ) : ℂ) by norm_num, Complex.im_mul_ofReal,
          Complex.log_im]
        ring
      rw [this]
      linarith
    · have h1 := Complex.arg_le_pi z
      have : (Complex.log z * (1 / 2)).im = Complex.arg z / 2 := by
        rw [show (1 / 2 : ℂ) = ((1 / 2 : ℝ) : ℂ) by norm_num, Complex.im_mul_ofReal,
          Complex.log_im]
        ring
      rw [this]
      linarith [Real.pi_pos]

theorem csqrt_re_nonneg (z : ℂ) : 0 ≤ (csqrt z).re := by
  unfold csqrt
  by_cases hz : z = 0
  · rw [hz, Complex.zero_cpow (by norm_num)]
    simp
  · rw [Complex.cpow_def_of_ne_zero hz, Complex.exp_re]
    have : (Complex.log z * (1 / 2)).im = Complex.arg z / 2 := by
      rw [show (1 / 2 : ℂ) = ((1 / 2 : ℝ) : ℂ) by norm_num, Complex.im_mul_ofReal,
        Complex.log_im]
      ring
    rw [this]
    refine mul_nonneg (Real.exp_pos _).le (Real.cos_nonneg_of_mem_Icc ⟨?_, ?_⟩)
    · linarith [Complex.neg_pi_lt_arg z]
    · linarith [Complex.arg_le_pi z]

theorem csqrt_im_pos {z : ℂ} (h : 0 < z.im) : 0 < (csqrt z).im := by
  refine lt_of_le_of_ne (csqrt_im_nonneg h.le) fun e => ?_
  have h2 := congrArg Complex.im (csqrt_sq z)
  rw [sq, Complex.mul_im, ← e] at h2
  simp at h2
  exact h.ne h2

/-! ### Brendel-Bormann oscillators -/

theorem sub_ofReal_ne {z : ℂ} (hz : 0 < z.im) (t : ℝ) : z - (t : ℂ) ≠ 0 := by
  intro h
  have := congrArg Complex.im h
  simp at this
  exact hz.ne' this

theorem gauss_integrable {z : ℂ} (hz : 0 < z.im) :
    Integrable fun t : ℝ => ((Real.exp (-t ^ 2) : ℝ) : ℂ) / (z - (t : ℂ)) := by
  have hg : Integrable fun t : ℝ => ((Real.exp (-t ^ 2) : ℝ) : ℂ) := by
    have := (integrable_exp_neg_mul_sq (b := 1) one_pos).ofReal (𝕜 := ℂ)
    simpa using this
  have := hg.bdd_mul (f := fun t : ℝ => (z - (t : ℂ))⁻¹) (c := z.im⁻¹) ?_ ?_
  · refine this.congr (Filter.Eventually.of_forall fun t => ?_)
    simp only [div_eq_mul_inv]
    ring
  · refine Continuous.aestronglyMeasurable ?_
    exact Continuous.inv₀ (by fun_prop) (sub_ofReal_ne hz)
  · refine Filter.Eventually.of_forall fun t => ?_
    rw [norm_inv]
    refine inv_anti₀ hz ?_
    have := Complex.abs_im_le_norm (z - (t : ℂ))
    simp only [Complex.sub_im, Complex.ofReal_im, sub_zero, abs_of_pos hz] at this
    exact this

/-- One Gaussian-broadened oscillator, without its positive prefactor, adds a non-negative
imaginary part to the permittivity. -/
theorem oscillator_im {w : ℂ → ℂ} (hw : IsFaddeeva w) {a : ℂ} (ha : 0 < a.im)
    (ha2 : 0 ≤ (a ^ 2).im) (centre : ℝ) {s : ℝ} (hs : 0 < s) :
    0 ≤ (Complex.I / a * (w ((a - centre) / (s : ℂ)) + w ((a + centre) / (s : ℂ)))).im := by
  have hs' : (s : ℂ) ≠ 0 := by exact_mod_cast hs.ne'
  have ha0 : a ≠ 0 := by rintro rfl; simp at ha
  have im1 : 0 < ((a - centre) / (s : ℂ)).im := by
    rw [Complex.div_ofReal_im]
    simpa using div_pos ha hs
  have im2 : 0 < ((a + centre) / (s : ℂ)).im := by
    rw [Complex.div_ofReal_im]
    simpa using div_pos ha hs
  have hI1 := gauss_integrable im1
  have hI2 := gauss_integrable im2
  rw [hw _ im1, hw _ im2, ← mul_add]
  have e2 : (∫ t : ℝ, ((Real.exp (-t ^ 2) : ℝ) : ℂ) / ((a + centre) / (s : ℂ) - (t : ℂ))) =
      ∫ t : ℝ, ((Real.exp (-t ^ 2) : ℝ) : ℂ) / ((a + centre) / (s : ℂ) + (t : ℂ)) := by
    rw [← integral_neg_eq_self]
    refine integral_congr_ae (Filter.Eventually.of_forall fun t => ?_)
    simp
  have hI2' : Integrable fun t : ℝ =>
      ((Real.exp (-t ^ 2) : ℝ) : ℂ) / ((a + centre) / (s : ℂ) + (t : ℂ)) := by
    have := hI2.comp_neg
    refine this.congr (Filter.Eventually.of_forall fun t => ?_)
    simp
  rw [e2, ← integral_add hI1 hI2']
  -- the integrand as a sum of sharp oscillators
  have e3 : ∀ t : ℝ, ((Real.exp (-t ^ 2) : ℝ) : ℂ) / ((a - centre) / (s : ℂ) - (t : ℂ)) +
      ((Real.exp (-t ^ 2) : ℝ) : ℂ) / ((a + centre) / (s : ℂ) + (t : ℂ)) =
      (-(2 * s * a)) * (((Real.exp (-t ^ 2) : ℝ) : ℂ) / (((centre + s * t : ℝ) : ℂ) ^ 2 - a ^ 2)) := by
    intro t
    have h1 : a - ((centre + s * t : ℝ) : ℂ) ≠ 0 := sub_ofReal_ne ha _
    have h2 : a + ((centre + s * t : ℝ) : ℂ) ≠ 0 := by
      have := sub_ofReal_ne ha (-(centre + s * t))
      rwa [Complex.ofReal_neg, sub_neg_eq_add] at this
    have h3 : ((centre + s * t : ℝ) : ℂ) ^ 2 - a ^ 2 ≠ 0 := by
      have : ((centre + s * t : ℝ) : ℂ) ^ 2 - a ^ 2 =
          -((a - ((centre + s * t : ℝ) : ℂ)) * (a + ((centre + s * t : ℝ) : ℂ))) := by ring
      rw [this]
      exact neg_ne_zero.mpr (mul_ne_zero h1 h2)
    have f1 : (a - centre) / (s : ℂ) - (t : ℂ) = (a - ((centre + s * t : ℝ) : ℂ)) / s := by
      push_cast
      field_simp
      ring
    have f2 : (a + centre) / (s : ℂ) + (t : ℂ) = (a + ((centre + s * t : ℝ) : ℂ)) / s := by
      push_cast
      field_simp
      ring
    rw [f1, f2]
    generalize ((centre + s * t : ℝ) : ℂ) = x at *
    generalize ((Real.exp (-t ^ 2) : ℝ) : ℂ) = e
    field_simp
    ring
  simp only [e3]
  rw [integral_const_mul]
  have e4 : ∀ J : ℂ, Complex.I / a * (Complex.I / Real.pi * (-(2 * s * a) * J)) =
      ((2 * s / Real.pi : ℝ) : ℂ) * J := by
    intro J
    have hpi : (Real.pi : ℂ) ≠ 0 := by exact_mod_cast Real.pi_ne_zero
    push_cast
    field_simp
    rw [Complex.I_sq]
    ring
  rw [e4, Complex.im_ofReal_mul]
  refine mul_nonneg (by positivity) ?_
  by_cases hJ : Integrable fun t : ℝ =>
      ((Real.exp (-t ^ 2) : ℝ) : ℂ) / (((centre + s * t : ℝ) : ℂ) ^ 2 - a ^ 2)
  · have := Complex.imCLM.integral_comp_comm hJ
    simp only [Complex.imCLM_apply] at this
    rw [← this]
    refine integral_nonneg fun t => ?_
    simp only [Pi.zero_apply]
    rw [div_eq_mul_inv, Complex.im_ofReal_mul, Complex.inv_im]
    refine mul_nonneg (Real.exp_pos _).le (div_nonneg ?_ (Complex.normSq_nonneg _))
    rw [← Complex.ofReal_pow, Complex.sub_im, Complex.ofReal_im]
    linarith
  · rw [integral_undef hJ]
    simp

theorem foldlM_inv {α : Type} {P : ℂ → Prop} (f : ℂ → α → Option ℂ) (l : List α) {a b : ℂ}
    (h : l.foldlM f a = some b) (ha : P a)
    (step : ∀ x o y, o ∈ l → P x → f x o = some y → P y) : P b := by
  induction l generalizing a with
  | nil => cases h; exact ha
  | cons o l ih =>
    rw [List.foldlM_cons] at h
    cases hf : f a o with
    | none => rw [hf] at h; cases h
    | some y =>
      rw [hf] at h
      exact ih h (step a o y (by simp) ha hf)
        (fun x o' y' ho => step x o' y' (by simp [ho]))

theorem cdiv_some {a b c : ℂ} (h : cdiv a b = some c) : b ≠ 0 ∧ c = a / b := by
  unfold cdiv at h
  split_ifs at h with hb
  cases h
  exact ⟨hb, rfl⟩

theorem faddeevaPair_some {sp : SciPy} {a : ℂ} {centre sigma : ℝ} {w : ℂ}
    (h : faddeevaPair sp a centre sigma = some w) :
    w = sp.wofz ((a - centre) / ((Real.sqrt 2 * sigma : ℝ) : ℂ)) +
      sp.wofz ((a + centre) / ((Real.sqrt 2 * sigma : ℝ) : ℂ)) := by
  unfold faddeevaPair at h
  cases h1 : cdiv (a - centre) (Real.sqrt 2 * sigma : ℝ) with
  | none => rw [h1] at h; cases h
  | some u =>
    cases h2 : cdiv (a + centre) (Real.sqrt 2 * sigma : ℝ) with
    | none => rw [h1, h2] at h; cases h
    | some v =>
      rw [h1, h2] at h
      cases h
      rw [(cdiv_some h1).2, (cdiv_some h2).2]

theorem root_facts {omega gamma : ℝ} (ho : 0 < omega) (hg : 0 < gamma) {z : ℂ}
    (hz : z = (omega : ℂ) ^ 2 + Complex.I * omega * gamma) :
    0 < (csqrt z).im ∧ 0 ≤ (csqrt z ^ 2).im := by
  have him : z.im = omega * gamma := by
    rw [hz]
    simp [sq]
  have hp : 0 < z.im := by rw [him]; positivity
  exact ⟨csqrt_im_pos hp, by rw [csqrt_sq]; exact hp.le⟩

theorem bbEvAt_im {sp : SciPy} (hw : IsFaddeeva sp.wofz) {plasma strength damping : ℝ}
    (hs : 0 ≤ strength) (hd : 0 ≤ damping) {osc : List (ℝ × ℝ × ℝ × ℝ)}
    (ho : ∀ o ∈ osc, Absorbing o.1 o.2.1 o.2.2.2) {wl : ℝ} (hwl : 0 < wl) {z : ℂ}
    (h : bbEvAt sp plasma strength damping osc wl = some z) : 0 ≤ z.im := by
  unfold bbEvAt at h
  rw [if_neg hwl.ne'] at h
  simp only at h
  have hom : (0 : ℝ) < 1e-2 / wl / wavenumberPerEv := by
    unfold wavenumberPerEv
    positivity
  generalize 1e-2 / wl / wavenumberPerEv = omega at h hom
  cases hdr : cdiv (strength * plasma ^ 2 : ℝ) ((omega : ℂ) * (omega + Complex.I * damping)) with
  | none => rw [hdr] at h; cases h
  | some dr =>
    rw [hdr] at h
    simp only [Option.bind_eq_bind, Option.bind_some] at h
    obtain ⟨eps, heps, h⟩ := Option.bind_eq_some_iff.mp h
    cases h
    refine csqrt_im_nonneg ?_
    refine foldlM_inv (P := fun x => 0 ≤ x.im) _ osc heps ?_ ?_
    · rw [(cdiv_some hdr).2, Complex.sub_im, Complex.one_im, zero_sub]
      have e : (omega : ℂ) * (omega + Complex.I * damping) =
          ⟨omega ^ 2, omega * damping⟩ := by
        apply Complex.ext
        · simp [sq]
        · simp
      rw [e, div_eq_mul_inv, Complex.im_ofReal_mul, Complex.inv_im]
      have : 0 ≤ strength * plasma ^ 2 * (omega * damping /
          Complex.normSq ⟨omega ^ 2, omega * damping⟩) :=
        mul_nonneg (by positivity) (div_nonneg (by positivity) (Complex.normSq_nonneg _))
      rw [neg_div, mul_neg, neg_neg]
      exact this
    · rintro x ⟨f, gamma, centre, sigma⟩ y hmem hx hy
      obtain ⟨hf, hg, hsig⟩ := ho _ hmem
      simp only at hf hg hsig hy
      obtain ⟨pre, hpre, hy⟩ := Option.bind_eq_some_iff.mp hy
      obtain ⟨w, hw', hy⟩ := Option.bind_eq_some_iff.mp hy
      cases hy
      obtain ⟨ha1, ha2⟩ := root_facts hom hg rfl
      generalize csqrt ((omega : ℂ) ^ 2 + Complex.I * omega * gamma) = a at *
      have ha0 : a ≠ 0 := by rintro rfl; simp at ha1
      have key := oscillator_im hw ha1 ha2 centre
        (s := Real.sqrt 2 * sigma) (mul_pos (Real.sqrt_pos.mpr two_pos) hsig)
      rw [← faddeevaPair_some hw'] at key
      rw [Complex.add_im, (cdiv_some hpre).2]
      have e : Complex.I * Real.sqrt Real.pi * f * plasma ^ 2 /
          ((((2 : ℝ) ^ (1.5 : ℝ) : ℝ) : ℂ) * a * sigma) * w =
          ((Real.sqrt Real.pi * f * plasma ^ 2 / ((2 : ℝ) ^ (1.5 : ℝ) * sigma) : ℝ) : ℂ) *
            (Complex.I / a * w) := by
        push_cast
        have h1 : (((2 : ℝ) ^ (1.5 : ℝ) : ℝ) : ℂ) ≠ 0 := by
          exact_mod_cast (Real.rpow_pos_of_pos two_pos _).ne'
        have h2 : (sigma : ℂ) ≠ 0 := by exact_mod_cast hsig.ne'
        field_simp
      rw [e, Complex.im_ofReal_mul]
      have : 0 ≤ Real.sqrt Real.pi * f * plasma ^ 2 / ((2 : ℝ) ^ (1.5 : ℝ) * sigma) := by
        have := Real.rpow_pos_of_pos two_pos (1.5 : ℝ)
        positivity
      exact add_nonneg hx (mul_nonneg this key)

theorem bbCmAt_im {sp : SciPy} (hw : IsFaddeeva sp.wofz) {eps_inf : ℝ}
    {osc : List (ℝ × ℝ × ℝ × ℝ)}
    (ho : ∀ o ∈ osc, Absorbing o.1 o.2.1 o.2.2.1) {wl : ℝ} (hwl : 0 < wl) {z : ℂ}
    (h : bbCmAt sp eps_inf osc wl = some z) : 0 ≤ z.im := by
  unfold bbCmAt at h
  by_cases hosc : osc = []
  · rw [if_pos hosc] at h
    obtain ⟨n, -, rfl⟩ := Option.map_eq_some_iff.mp h
    simp
  rw [if_neg hosc, if_neg hwl.ne'] at h
  simp only at h
  have hom : (0 : ℝ) < 1e-2 / wl := by positivity
  generalize 1e-2 / wl = omega at h hom
  obtain ⟨eps, heps, h⟩ := Option.bind_eq_some_iff.mp h
  cases h
  refine csqrt_im_nonneg ?_
  refine foldlM_inv (P := fun x => 0 ≤ x.im) _ osc heps (by simp) ?_
  rintro x ⟨f, gamma, sigma, centre⟩ y hmem hx hy
  obtain ⟨hf, hg, hsig⟩ := ho _ hmem
  simp only at hf hg hsig hy
  obtain ⟨pre, hpre, hy⟩ := Option.bind_eq_some_iff.mp hy
  obtain ⟨w, hw', hy⟩ := Option.bind_eq_some_iff.mp hy
  cases hy
  obtain ⟨ha1, ha2⟩ := root_facts (z := (omega : ℂ) ^ 2 + Complex.I * gamma * omega) hom hg
    (by ring)
  generalize csqrt ((omega : ℂ) ^ 2 + Complex.I * gamma * omega) = a at *
  have ha0 : a ≠ 0 := by rintro rfl; simp at ha1
  have key := oscillator_im hw ha1 ha2 centre
    (s := Real.sqrt 2 * sigma) (mul_pos (Real.sqrt_pos.mpr two_pos) hsig)
  rw [← faddeevaPair_some hw'] at key
  rw [Complex.add_im, (cdiv_some hpre).2]
  have h2' : (0 : ℝ) < 2 * Real.sqrt 2 := by positivity
  generalize 2 * Real.sqrt 2 = c at *
  have e : Complex.I * Real.sqrt Real.pi * f / ((c : ℂ) * sigma * a) * w =
      ((Real.sqrt Real.pi * f / (c * sigma) : ℝ) : ℂ) * (Complex.I / a * w) := by
    push_cast
    have h1 : (c : ℂ) ≠ 0 := by exact_mod_cast h2'.ne'
    have h2 : (sigma : ℂ) ≠ 0 := by exact_mod_cast hsig.ne'
    field_simp
  rw [e, Complex.im_ofReal_mul]
  exact add_nonneg hx (mul_nonneg (by positivity) key)

theorem chunks4_flatMap (osc : List (ℝ × ℝ × ℝ × ℝ)) :
    chunks4 (osc.flatMap fun o => [o.1, o.2.1, o.2.2.1, o.2.2.2]) = .ok osc := by
  induction osc with
  | nil => rfl
  | cons o osc ih =>
    simp only [List.flatMap_cons, List.cons_append, List.nil_append, chunks4, ih]
    rfl

/-! ### Graphene -/

theorem occupation_nonneg {f t e : ℝ} (ht : 0 < t) (he : 0 < e) : 0 ≤ occupation f t e := by
  unfold occupation coshRatio
  refine div_nonneg ?_ (by positivity)
  rw [Real.tanh_eq_sinh_div_cosh]
  exact div_nonneg (Real.sinh_nonneg_iff.mpr (div_pos he ht).le) (Real.cosh_pos _).le

theorem logaddexp_nonneg (x : ℝ) : 0 ≤ logaddexp x (-x) := by
  unfold logaddexp
  apply Real.log_nonneg
  rcases le_total 0 x with h | h
  · have := Real.one_le_exp h
    have := Real.exp_pos (-x)
    linarith
  · have := Real.one_le_exp (neg_nonneg.mpr h)
    have := Real.exp_pos x
    linarith

theorem conductivity_re {sp : SciPy} {f t g e : ℝ} (ht : 0 < t) (hg : 0 ≤ g) (he : 0 < e) :
    0 ≤ (conductivity sp f t g e).re := by
  have hh : 0 < hbar := by unfold hbar; norm_num
  unfold conductivity
  simp only
  have h1 := occupation_nonneg (f := f) ht (half_pos he)
  have h2 := logaddexp_nonneg (f / (2 * t))
  rw [← neg_div] at h2
  generalize occupation f t (e / 2) = half at *
  generalize logaddexp (f / (2 * t)) (-f / (2 * t)) = L at *
  generalize sp.quad _ _ = Q
  rw [Complex.add_re]
  refine add_nonneg ?_ ?_
  · have hn : (e : ℂ) + Complex.I * g ≠ 0 := by
      intro h
      have := congrArg Complex.re h
      simp at this
      exact he.ne' this
    have e1 : (2 * Complex.I * (elementaryCharge : ℂ) ^ 2 * t) /
        (Real.pi * hbar * (e + Complex.I * g)) * L =
        ((2 * elementaryCharge ^ 2 * t * L / (Real.pi * hbar) : ℝ) : ℂ) *
          (Complex.I * ((e : ℂ) + Complex.I * g)⁻¹) := by
      push_cast
      have : (hbar : ℂ) ≠ 0 := by exact_mod_cast hh.ne'
      have : (Real.pi : ℂ) ≠ 0 := by exact_mod_cast Real.pi_ne_zero
      field_simp
    rw [e1, Complex.re_ofReal_mul]
    refine mul_nonneg (by positivity) ?_
    have e2 : (e : ℂ) + Complex.I * g = ⟨e, g⟩ := by apply Complex.ext <;> simp
    rw [e2, Complex.mul_re, Complex.I_re, Complex.I_im, zero_mul, zero_sub, one_mul,
      Complex.inv_im, neg_div, neg_neg]
    exact div_nonneg hg (Complex.normSq_nonneg _)
  · have e1 : ((elementaryCharge : ℂ) ^ 2 / (4 * hbar)) *
        (half + (4 * Complex.I * e / Real.pi) * Q) =
        ((elementaryCharge ^ 2 / (4 * hbar) : ℝ) : ℂ) * half +
          ((elementaryCharge ^ 2 / (4 * hbar) * (4 * e / Real.pi) * Q : ℝ) : ℂ) * Complex.I := by
      push_cast
      ring
    rw [e1, Complex.add_re, Complex.re_ofReal_mul, Complex.re_ofReal_mul, Complex.I_re, mul_zero,
      add_zero, Complex.ofReal_re]
    positivity

theorem grapheneAt_im {sp : SciPy} {f m t d wl : ℝ} (ht : 0 < t) (hd : 0 < d) (hwl : 0 < wl)
    {z : ℂ} (h : grapheneAt sp f m t d wl = some z) : 0 ≤ z.im := by
  have c1 : 0 < hbar := by unfold hbar; norm_num
  have c2 : 0 < elementaryCharge := by unfold elementaryCharge; norm_num
  have c3 : 0 < boltzmann := by unfold boltzmann; norm_num
  have c4 : 0 < vacuumPermittivity := by unfold vacuumPermittivity; norm_num
  have c5 : 0 < lightSpeed := by unfold lightSpeed; norm_num
  unfold grapheneAt at h
  simp only at h
  have hph : 0 < hbar * (2 * Real.pi * lightSpeed / wl) / elementaryCharge := by positivity
  have hte : 0 < t * boltzmann / elementaryCharge := by positivity
  have hsc := abs_nonneg (hbar * fermiVelocity ^ 2 / (m * 1e-4 * elementaryCharge * f))
  have hc := conductivity_re (sp := sp) (f := f) hte hsc hph
  generalize conductivity sp f _ _ _ = S at h hc
  generalize hbar * (2 * Real.pi * lightSpeed / wl) / elementaryCharge = ph at h hph
  obtain ⟨x, hx, h⟩ := Option.bind_eq_some_iff.mp h
  cases h
  refine csqrt_im_nonneg ?_
  rw [(cdiv_some hx).2]
  have e : Complex.I * S / (((elementaryCharge * ph / hbar : ℝ) : ℂ) * d * vacuumPermittivity) =
      (((elementaryCharge * ph / hbar * d * vacuumPermittivity)⁻¹ : ℝ) : ℂ) * (Complex.I * S) := by
    rw [div_eq_mul_inv]
    push_cast
    ring
  rw [Complex.add_im, Complex.one_im, zero_add, e, Complex.im_ofReal_mul]
  refine mul_nonneg (by positivity) ?_
  simpa using hc

/-- Conjugating indices without gain in the `n + ik` convention. -/
theorem noGain_star {sp : SciPy} {s : FSpec} {wl : List ℝ} {r : List (Option ℂ)}
    (h : indexOf sp (.spec s) false wl = .ok r)
    (hp : ∀ n, evaluate sp s wl = .ok n → ∀ z, some z ∈ n → 0 ≤ z.im) : NoGain r := by
  simp only [indexOf] at h
  cases he : evaluate sp s wl with
  | error e => rw [he] at h; cases h
  | ok n =>
    rw [he] at h
    change Except.ok _ = _ at h
    cases h
    intro z hz
    simp only [Bool.false_eq_true, if_false] at hz
    obtain ⟨o, ho, e⟩ := List.mem_map.mp hz
    obtain ⟨y, rfl, rfl⟩ := Option.map_eq_some_iff.mp e
    have := hp n he y ho
    simpa using this

/-- A lookup that returns gives what the second part of `find_nk_index` computes. -/
theorem find_spec {sp : SciPy} {m : MatArg} {t : Table} {s : FSpec} {b : Bool} {wl : List ℝ}
    {r : List (Option ℂ)} (hd : Denotes t m (.spec s) b)
    (h : (find_nk_index sp m t wl).value = .ok r) : indexOf sp (.spec s) b wl = .ok r := by
  unfold find_nk_index at h
  rw [(selectMaterial_ok _ _ _ _).mpr hd] at h
  simp only at h
  cases hw : warn_if_out_of_range (.spec s) wl with
  | error e => rw [hw] at h; cases h
  | ok w => rw [hw] at h; exact h

theorem noGain_re {r : List (Option ℂ)} :
    NoGain (r.map (Option.map fun z => ((z.re : ℝ) : ℂ))) := by
  intro z hz
  obtain ⟨o, -, e⟩ := List.mem_map.mp hz
  obtain ⟨y, -, rfl⟩ := Option.map_eq_some_iff.mp e
  simp

theorem noGain_find {sp : SciPy} {m : MatArg} {t : Table} {s : FSpec} {b : Bool} {wl : List ℝ}
    {r : List (Option ℂ)} (hd : Denotes t m (.spec s) b)
    (h : (find_nk_index sp m t wl).value = .ok r)
    (hp : ∀ n, evaluate sp s wl = .ok n → ∀ z, some z ∈ n → 0 ≤ z.im) : NoGain r := by
  have h' := find_spec hd h
  cases b with
  | false => exact noGain_star h' hp
  | true =>
    simp only [indexOf] at h'
    cases he : evaluate sp s wl with
    | error e => rw [he] at h'; cases h'
    | ok n =>
      rw [he] at h'
      change Except.ok _ = _ at h'
      cases h'
      exact noGain_re

theorem evaluate_ev (sp : SciPy) (cs wl : List ℝ) (range : Option (EReal × EReal)) :
    evaluate sp ⟨some (.name "brendel-bormann-ev".toList), some cs, range⟩ wl =
      model_brendel_bormann_ev sp cs wl := by
  have : FORMULAS sp (.name "brendel-bormann-ev".toList) = some (model_brendel_bormann_ev sp) := by
    rw [FORMULAS, if_pos rfl]
  simp only [evaluate, this]

theorem evaluate_cm (sp : SciPy) (cs wl : List ℝ) (range : Option (EReal × EReal)) :
    evaluate sp ⟨some (.name "brendel-bormann-cm".toList), some cs, range⟩ wl =
      model_brendel_bormann_cm sp cs wl := by
  have : FORMULAS sp (.name "brendel-bormann-cm".toList) = some (model_brendel_bormann_cm sp) := by
    rw [FORMULAS, if_neg (by decide), if_pos rfl]
  simp only [evaluate, this]

theorem evaluate_graphene (sp : SciPy) (cs wl : List ℝ) (range : Option (EReal × EReal)) :
    evaluate sp ⟨some (.name "graphene-falkovsky".toList), some cs, range⟩ wl =
      model_graphene_falkovsky sp cs wl := by
  have : FORMULAS sp (.name "graphene-falkovsky".toList) = some (model_graphene_falkovsky sp) := by
    rw [FORMULAS, if_neg (by decide), if_neg (by decide), if_pos rfl]
  simp only [evaluate, this]

/-! ### Validation of graphene conditions -/

theorem finiteValue_unique {a : ScalarArg} {x y : ℝ} (h : FiniteValue a x) (h' : FiniteValue a y) :
    x = y := by
  cases a with
  | int z => exact Eq.trans h (Eq.symm h')
  | finite z => exact Eq.trans h (Eq.symm h')
  | nonFinite => exact h.elim
  | notScalar => exact h.elim

theorem normalizeArg_ok (a : ScalarArg) (v : ℝ) :
    normalizeArg a = .ok v ↔ FiniteValue a v ∧ 0 < v ∧ ¬ TooLarge a := by
  cases a with
  | int z =>
    simp only [normalizeArg, FiniteValue, TooLarge]
    split_ifs with h1 h2
    · simp [h1]
    · simp only [reduceCtorEq, false_iff, not_and, not_not]
      rintro rfl h
      exact absurd h2 (not_le.mpr h)
    · simp only [Except.ok.injEq, h1, not_false_eq_true, and_true]
      constructor
      · rintro rfl
        exact ⟨rfl, not_le.mp h2⟩
      · rintro ⟨rfl, -⟩
        rfl
  | finite x =>
    simp only [normalizeArg, FiniteValue, TooLarge]
    split_ifs with h2
    · simp only [reduceCtorEq, false_iff, not_and, not_not]
      rintro rfl h
      exact absurd h2 (not_le.mpr h)
    · simp only [Except.ok.injEq, not_false_eq_true, and_true]
      constructor
      · rintro rfl
        exact ⟨rfl, not_le.mp h2⟩
      · rintro ⟨rfl, -⟩
        rfl
  | nonFinite => simp [normalizeArg, FiniteValue]
  | notScalar => simp [normalizeArg, FiniteValue]

theorem normalizeArg_error (a : ScalarArg) (e : Err) :
    normalizeArg a = .error e ↔
      ((a = .notScalar ∧ e = .typeError) ∨ (TooLarge a ∧ e = .overflow) ∨
        ((a = .nonFinite ∨ ∃ v, FiniteValue a v ∧ v ≤ 0 ∧ ¬ TooLarge a) ∧ e = .valueError)) := by
  cases a with
  | int z =>
    simp only [normalizeArg, FiniteValue, TooLarge]
    split_ifs with h1 h2
    · simp [h1, eq_comm]
    · simp [h1, h2, eq_comm]
    · simp [h1, h2]
  | finite x =>
    simp only [normalizeArg, FiniteValue, TooLarge]
    split_ifs with h2
    · simp [h2, eq_comm]
    · simp [h2]
  | nonFinite => simp [normalizeArg, FiniteValue, TooLarge, eq_comm]
  | notScalar => simp [normalizeArg, FiniteValue, TooLarge, eq_comm]

theorem graphene_ok (f m t d : ScalarArg) (s : FSpec) :
    graphene_falkovsky f m t d = .ok s ↔
      ∃ vf vm vt vd, normalizeArg f = .ok vf ∧ normalizeArg m = .ok vm ∧ normalizeArg t = .ok vt ∧
        normalizeArg d = .ok vd ∧
        s = ⟨some (.name "graphene-falkovsky".toList), some [vf, vm, vt, vd], some (0, ⊤)⟩ := by
  unfold graphene_falkovsky
  constructor
  · intro h
    cases h1 : normalizeArg f with
    | error e => rw [h1] at h; cases h
    | ok vf =>
    cases h2 : normalizeArg m with
    | error e => rw [h1, h2] at h; cases h
    | ok vm =>
    cases h3 : normalizeArg t with
    | error e => rw [h1, h2, h3] at h; cases h
    | ok vt =>
    cases h4 : normalizeArg d with
    | error e => rw [h1, h2, h3, h4] at h; cases h
    | ok vd =>
      rw [h1, h2, h3, h4] at h
      cases h
      exact ⟨vf, vm, vt, vd, rfl, rfl, rfl, rfl, rfl⟩
  · rintro ⟨vf, vm, vt, vd, h1, h2, h3, h4, rfl⟩
    rw [h1, h2, h3, h4]
    rfl

theorem graphene_error (f m t d : ScalarArg) (e : Err) :
    graphene_falkovsky f m t d = .error e ↔
      ∃ before x after, [f, m, t, d] = before ++ x :: after ∧
        (∀ y ∈ before, ∃ v, normalizeArg y = .ok v) ∧ normalizeArg x = .error e := by
  unfold graphene_falkovsky
  constructor
  · intro h
    cases h1 : normalizeArg f with
    | error e' =>
      rw [h1] at h; cases h
      exact ⟨[], f, [m, t, d], rfl, by simp, h1⟩
    | ok vf =>
    cases h2 : normalizeArg m with
    | error e' =>
      rw [h1, h2] at h; cases h
      exact ⟨[f], m, [t, d], rfl, by simp [h1], h2⟩
    | ok vm =>
    cases h3 : normalizeArg t with
    | error e' =>
      rw [h1, h2, h3] at h; cases h
      exact ⟨[f, m], t, [d], rfl, by simp [h1, h2], h3⟩
    | ok vt =>
    cases h4 : normalizeArg d with
    | error e' =>
      rw [h1, h2, h3, h4] at h; cases h
      exact ⟨[f, m, t], d, [], rfl, by simp [h1, h2, h3], h4⟩
    | ok vd =>
      rw [h1, h2, h3, h4] at h
      cases h
  · rintro ⟨before, x, after, hl, hb, hx⟩
    match before, hl, hb with
    | [], hl, hb =>
      simp only [List.nil_append, List.cons.injEq] at hl
      rw [hl.1, hx]; rfl
    | [y1], hl, hb =>
      simp only [List.cons_append, List.nil_append, List.cons.injEq] at hl
      obtain ⟨v1, hv1⟩ := hb y1 (by simp)
      rw [hl.1, hv1, hl.2.1, hx]; rfl
    | [y1, y2], hl, hb =>
      simp only [List.cons_append, List.nil_append, List.cons.injEq] at hl
      obtain ⟨v1, hv1⟩ := hb y1 (by simp)
      obtain ⟨v2, hv2⟩ := hb y2 (by simp)
      rw [hl.1, hv1, hl.2.1, hv2, hl.2.2.1, hx]; rfl
    | [y1, y2, y3], hl, hb =>
      simp only [List.cons_append, List.nil_append, List.cons.injEq] at hl
      obtain ⟨v1, hv1⟩ := hb y1 (by simp)
      obtain ⟨v2, hv2⟩ := hb y2 (by simp)
      obtain ⟨v3, hv3⟩ := hb y3 (by simp)
      rw [hl.1, hv1, hl.2.1, hv2, hl.2.2.1, hv3, hl.2.2.2.1, hx]; rfl
    | y1 :: y2 :: y3 :: y4 :: l, hl, hb =>
      have := congrArg List.length hl
      simp at this

end Meent
