import Verif.Lemmas.BareExample
import Verif.Lemmas.StackSpec

/-!
# The bare surface of an absorbing substrate in PyTorch's conical solver (helper lemmas)
-/

open Matrix

namespace Meent

set_option linter.unusedSectionVars false
set_option linter.unusedSimpArgs false
set_option linter.unusedVariables false

section
variable {m : Type} [Fintype m] [DecidableEq m]

/-- The state of the recursion at the surface of the substrate. -/
noncomputable def bareState (nb : ℂ) (kb : m → ℂ) : TState (m ⊕ m) :=
  { F := fromBlocks 1 0 0 (((1 : ℂ) / nb ^ 2) • (Complex.I • diagonal kb)), G := fromBlocks (Complex.I • diagonal kb) 0 0 1, T := 1 }

theorem bare_eqs {nt nb th ps : ℂ} {kt kb δ : m → ℂ} {rt : (m ⊕ m) ⊕ (m ⊕ m) → ℂ}
    (h : finalA nt kt (bareState nb kb) *ᵥ rt = finalB δ ps th nt) (i : m) :
    rt (.inr (.inl i)) = rt (.inl (.inl i)) + Complex.sin ps * δ i ∧
    kb i * rt (.inr (.inl i)) = -(kt i * rt (.inl (.inl i))) + Complex.sin ps * nt * Complex.cos th * δ i ∧
    rt (.inr (.inr i)) = rt (.inl (.inr i)) + Complex.I * nt * Complex.cos ps * δ i ∧
    kb i / nb ^ 2 * rt (.inr (.inr i)) = -(kt i / nt ^ 2 * rt (.inl (.inr i))) + Complex.I * Complex.cos ps * Complex.cos th * δ i := by
  obtain ⟨q1, q2, q3, q4⟩ := final_eqs h
  have c1 : ∀ (A B : Matrix m m ℂ) (v : m ⊕ m → ℂ),
      (fromBlocks A 0 0 B *ᵥ v) = Sum.elim (A *ᵥ (v ∘ Sum.inl)) (B *ᵥ (v ∘ Sum.inr)) := by
    intro A B v
    rw [fromBlocks_mulVec]; simp
  have q1 := q1 i; have q2 := q2 i; have q3 := q3 i; have q4 := q4 i
  simp only [bareState, c1, Sum.elim_inl, Sum.elim_inr, one_mulVec, smul_mulVec, Pi.smul_apply, mulVec_diagonal, smul_eq_mul,
    Function.comp_apply] at q1 q2 q3 q4
  have hI := Complex.I_ne_zero
  have hII := Complex.I_mul_I
  refine ⟨q1, ?_, ?_, ?_⟩
  · refine mul_left_cancel₀ hI ?_
    linear_combination q3
  · linear_combination q4
  · refine mul_left_cancel₀ hI ?_
    linear_combination q2 - Complex.cos ps * Complex.cos th * δ i * hII

theorem bare_unit {nt nb : ℂ} {kt kb : m → ℂ} (h1 : ∀ i, kb i + kt i ≠ 0) (h2 : ∀ i, kb i / nb ^ 2 + kt i / nt ^ 2 ≠ 0) :
    IsUnit (finalA nt kt (bareState nb kb)).det := by
  rw [← isUnit_iff_isUnit_det, ← mulVec_injective_iff_isUnit]
  rw [← coe_mulVecLin, injective_iff_map_eq_zero]
  intro rt h0
  have hz : finalB (fun _ : m => (0 : ℂ)) 0 0 nt = 0 := by
    ext k
    rcases k with (k | k) | (k | k) <;> simp [finalB]
  rw [mulVecLin_apply, ← hz] at h0
  have q := bare_eqs h0
  simp only [mul_zero, add_zero] at q
  have e1 : ∀ i, rt (.inr (.inl i)) = 0 := by
    intro i
    obtain ⟨a, b, -⟩ := q i
    rw [← a] at b
    refine (mul_eq_zero.mp ?_).resolve_left (h1 i)
    linear_combination b
  have e2 : ∀ i, rt (.inr (.inr i)) = 0 := by
    intro i
    obtain ⟨-, -, a, b⟩ := q i
    rw [← a] at b
    refine (mul_eq_zero.mp ?_).resolve_left (h2 i)
    linear_combination b
  ext k
  rcases k with (k | k) | (k | k)
  · rw [← (q k).1, e1]; rfl
  · rw [← (q k).2.2.1, e2]; rfl
  · exact e1 k
  · exact e2 k

end

/-- The power that enters an absorbing medium at oblique incidence, `Re (kz / n²)`, is more than `Re kz / |n|²`. -/
theorem p_power_lt {nn z : ℂ} {k2 : ℝ} (hk : 0 < k2) (hz : z ^ 2 = nn ^ 2 - k2) (hr : 0 < z.re) (hi : z.im ≠ 0) (hn : nn ≠ 0) :
    z.re / Complex.normSq nn < (z / nn ^ 2).re := by
  have e : nn ^ 2 = z ^ 2 + k2 := by rw [hz]; ring
  have hN : 0 < Complex.normSq nn := Complex.normSq_pos.mpr hn
  have h1 : (z ^ 2 + (k2 : ℂ)).re = z.re ^ 2 - z.im ^ 2 + k2 := by simp [pow_two]
  have h2 : (z ^ 2 + (k2 : ℂ)).im = 2 * z.re * z.im := by simp [pow_two]; ring
  have hN2 : Complex.normSq nn ^ 2 = (z.re ^ 2 - z.im ^ 2 + k2) ^ 2 + (2 * z.re * z.im) ^ 2 := by
    rw [← map_pow, e, Complex.normSq_apply, h1, h2]; ring
  have hlt : Complex.normSq nn < z.re ^ 2 + z.im ^ 2 + k2 := by
    refine lt_of_pow_lt_pow_left₀ 2 (by positivity) ?_
    rw [hN2]
    have : 0 < z.im ^ 2 := by positivity
    nlinarith [mul_pos hk this]
  have e3 : (z / nn ^ 2).re = z.re * (z.re ^ 2 + z.im ^ 2 + k2) / Complex.normSq nn ^ 2 := by
    have : Complex.normSq (nn ^ 2) = Complex.normSq nn ^ 2 := map_pow _ _ _
    rw [Complex.div_re, this, ← add_div, e, h1, h2]
    congr 1
    ring
  rw [e3, div_lt_div_iff₀ hN (by positivity)]
  have : z.re * Complex.normSq nn ^ 2 = (z.re * Complex.normSq nn) * Complex.normSq nn := by ring
  rw [this]
  have := mul_lt_mul_of_pos_left hlt (mul_pos hr hN)
  nlinarith

/-- Reflected and transmitted power of one p-polarised order at a bare surface, as PyTorch reports them. -/
theorem p_balance {a : ℝ} (ha : 0 < a) {y R T : ℂ} {w : ℝ} (hy : 0 ≤ y.re) (hw : w < y.re) (h1 : T = R + 1)
    (h2 : y * T = -(a * R) + a) : Complex.normSq R + Complex.normSq T * w / a < 1 := by
  have hne : (a : ℂ) + y ≠ 0 := by
    intro h0
    have := congrArg Complex.re h0
    simp at this
    linarith
  have hT : ((a : ℂ) + y) * T = 2 * a := by rw [h1] at h2 ⊢; linear_combination h2
  have hT0 : T ≠ 0 := by
    intro h0
    rw [h0, mul_zero] at hT
    have : (a : ℂ) = 0 := by linear_combination -hT / 2
    exact ha.ne' (by exact_mod_cast this)
  have hpos := Complex.normSq_pos.mpr hT0
  have hbal : Complex.normSq R + Complex.normSq T * y.re / a = 1 := by
    have hR : R = T - 1 := by rw [h1]; ring
    have e : (y * T * star T).re = (-(a * (T - 1)) * star T + a * star T).re := by
      rw [h2, hR]; congr 1; ring
    have e1 : (y * T * star T).re = Complex.normSq T * y.re := by
      rw [mul_assoc, Complex.star_def, Complex.mul_conj, Complex.mul_re, Complex.ofReal_re, Complex.ofReal_im]; ring
    rw [e1] at e
    rw [e, hR]
    simp only [Complex.normSq_apply, Complex.star_def, Complex.add_re, Complex.mul_re, Complex.neg_re, Complex.sub_re, Complex.sub_im,
      Complex.mul_im, Complex.neg_im, Complex.conj_re, Complex.conj_im, Complex.ofReal_re, Complex.ofReal_im, Complex.one_re, Complex.one_im]
    field_simp
    ring
  rw [← hbal]
  have := mul_lt_mul_of_pos_left hw hpos
  have h3 := div_lt_div_of_pos_right this ha
  linarith

/-- The p-polarised conical calculation of the bare surface of an absorbing substrate. -/
theorem bare_oblique (la : LinAlg) (nb : ℂ) (hr : 0 < nb.re) (hi : nb.im < 0) :
    ∃ o, tConv_solve la (bareSettings nb 1 (some (Real.pi : ℝ))).torch = .ok (.conical o) ∧
      ∑ j, ∑ i, o.out.res.de_ri j i + ∑ j, ∑ i, o.out.res.de_ti j i < 1 := by
  set p := (bareSettings nb 1 (some (Real.pi : ℝ))).p with hpdef
  have hill := bareSettings_illumination nb 1 (some (Real.pi : ℝ)) (by intro φ h; cases h; simp [Spec.IsReal])
  have hkx : ∀ k, tileX (fy := p.fto.2) (tKxVec p p.wavelength) k = ((-1 : ℝ) : ℂ) := by
    intro k
    have : tKxVec p p.wavelength = kxVec p p.wavelength := tKxVec_eq hill _
    rw [this]
    show kxF p p.wavelength k = _
    obtain ⟨⟨j, i⟩, rfl⟩ := finProdFinEquiv.surjective k
    rw [kxF_order hill, bareSettings_col]
    unfold Spec.orderKx
    simp only [hpdef, bareSettings, Complex.ofReal_re, Real.sin_pi_div_six, Option.getD_some, Real.cos_pi,
      Int.cast_zero, zero_mul, add_zero]
    norm_num
  have hky : ∀ k, tileY (fx := p.fto.1) (tKyVec p p.wavelength) k = ((0 : ℝ) : ℂ) := by
    intro k
    have : tKyVec p p.wavelength = kyVec p p.wavelength := tKyVec_eq hill _
    rw [this]
    show kyF p p.wavelength k = _
    obtain ⟨⟨j, i⟩, rfl⟩ := finProdFinEquiv.surjective k
    rw [kyF_order hill, bareSettings_row]
    unfold Spec.orderKy
    simp [hpdef, bareSettings]
  obtain ⟨v, hv⟩ : ∃ v, varphiAll (tileX (fy := p.fto.2) (tKxVec p p.wavelength)) (tileY (fx := p.fto.1) (tKyVec p p.wavelength)) = .ok v := by
    unfold varphiAll
    rw [dif_pos (by intro i; rw [hkx, hky]; simp [varphi1])]
    exact ⟨_, rfl⟩
  have hkt : tKz2d p.n_top (tileX (fy := p.fto.2) (tKxVec p p.wavelength)) (tileY (fx := p.fto.1) (tKyVec p p.wavelength))
      = fun _ => ((Real.sqrt 3 : ℝ) : ℂ) := by
    funext k
    rw [tKz2d_real _ _ _ _ _ _ (hkx k) (hky k)]
    show kzPhys (2 : ℂ) _ = _
    unfold kzPhys
    rw [if_neg (by norm_num)]
    have : (2 : ℂ) ^ 2 - (((-1 : ℝ) ^ 2 + 0 ^ 2 : ℝ) : ℂ) = ((Real.sqrt 3 ^ 2 : ℝ) : ℂ) := by
      rw [Real.sq_sqrt (by norm_num)]; norm_num
    rw [this]
    push_cast
    exact csqrt_ofReal_sq (Real.sqrt_nonneg 3)
  have hpass : Spec.PassiveIndex nb := ⟨hr, hi.le⟩
  set z := kzPhys nb 1 with hz
  have hzz : z ^ 2 = nb ^ 2 - ((1 : ℝ) : ℂ) := kzPhys_sq nb 1
  have hzr : 0 < z.re := kzPhys_re_pos hpass hr hi 1
  have hzi : z.im ≠ 0 := by
    intro h0
    have hs := congrArg Complex.im hzz
    rw [sq_im, Complex.sub_im, sq_im, Complex.ofReal_im, h0] at hs
    have : nb.re * nb.im < 0 := mul_neg_of_pos_of_neg hr hi
    linarith
  have hnb0 : nb ≠ 0 := by intro h0; rw [h0] at hr; exact lt_irrefl _ hr
  have hkb : tKz2d p.n_bot (tileX (fy := p.fto.2) (tKxVec p p.wavelength)) (tileY (fx := p.fto.1) (tKyVec p p.wavelength))
      = fun _ => z := by
    funext k
    rw [tKz2d_real _ _ _ _ _ _ (hkx k) (hky k)]
    show kzPhys nb _ = _
    norm_num [hz]
  have h3 : 0 < Real.sqrt 3 := Real.sqrt_pos.mpr (by norm_num)
  have hyre := kz_over_sq_re_pos zero_le_one hzz hzr hnb0
  have hu : IsUnit (finalA p.n_top (fun _ : FlatIdx p.fto.1 p.fto.2 => ((Real.sqrt 3 : ℝ) : ℂ)) (bareState p.n_bot fun _ => z)).det := by
    refine bare_unit (fun _ => ?_) (fun _ => ?_)
    · exact add_ne_zero_of_re hzr (by simpa using h3.le)
    · refine add_ne_zero_of_re hyre ?_
      show 0 ≤ (((Real.sqrt 3 : ℝ) : ℂ) / (2 : ℂ) ^ 2).re
      have : ((Real.sqrt 3 : ℝ) : ℂ) / (2 : ℂ) ^ 2 = ((Real.sqrt 3 / 4 : ℝ) : ℂ) := by push_cast; norm_num
      rw [this, Complex.ofReal_re]
      positivity
  set out : Out4 p.fto.1 p.fto.2 := tTransfer_2d_4 la (bareState p.n_bot fun _ => z) (tKxVec p p.wavelength)
    (fun _ => ((Real.sqrt 3 : ℝ) : ℂ)) (fun _ => z) p.psi p.theta p.n_top p.n_bot false with hout
  have hsolve : tSolve_1d_conical la p p.wavelength [] = .ok ⟨out, []⟩ := by
    unfold tSolve_1d_conical
    refine Except.bind_ok.mpr ⟨((fun _ => ((Real.sqrt 3 : ℝ) : ℂ)), (fun _ => z), v, bareState p.n_bot fun _ => z), ?_,
      Except.bind_ok.mpr ⟨(bareState p.n_bot fun _ => z, []), rfl, ?_⟩⟩
    · unfold tTransfer_2d_1
      refine Except.bind_ok.mpr ⟨v, hv, ?_⟩
      rw [hkt, hkb]
      rfl
    · exact if_neg (by simp [hpdef, bareSettings])
  refine ⟨⟨out, []⟩, ?_, ?_⟩
  · refine tConv_solve_of (bareSettings_convs la nb 1 _) (tSolve_for_conv_one ?_ rfl hsolve)
    refine tGrating_one (by simp [gratingType, bareSettings]) ?_
    simp [bareSettings, Real.pi_ne_zero]
  · have hpsi : p.psi = 0 := by simp [hpdef, bareSettings]
    have hcos : Complex.cos p.theta = ((Real.sqrt 3 / 2 : ℝ) : ℂ) := by
      show Complex.cos ((Real.pi / 6 : ℝ) : ℂ) = _
      rw [← Complex.ofReal_cos, Real.cos_pi_div_six]
    have hnt : p.n_top = 2 := rfl
    have hnbp : p.n_bot = nb := rfl
    set rt := (finalA p.n_top (fun _ : FlatIdx p.fto.1 p.fto.2 => ((Real.sqrt 3 : ℝ) : ℂ)) (bareState p.n_bot fun _ => z))⁻¹
      *ᵥ tFinalB deltaI0 p.psi p.theta p.n_top with hrt
    have hres : out.res = tSubResPsi (bareState p.n_bot fun _ => z) (tKxVec p p.wavelength) (fun _ => ((Real.sqrt 3 : ℝ) : ℂ))
        (fun _ => z) p.theta p.n_top p.n_bot rt := by
      rw [hout]
      unfold tTransfer_2d_4 tMeeinv
      simp only [Bool.false_eq_true, if_false, if_pos hu]
      rfl
    have heq : finalA p.n_top (fun _ : FlatIdx p.fto.1 p.fto.2 => ((Real.sqrt 3 : ℝ) : ℂ)) (bareState p.n_bot fun _ => z) *ᵥ rt
        = finalB deltaI0 (Real.pi - p.psi) p.theta p.n_top := by
      rw [hrt, mulVec_mulVec, mul_nonsing_inv _ hu, one_mulVec, tFinalB_eq]
    have hδ : (deltaI0 : FlatIdx p.fto.1 p.fto.2 → ℂ) 0 = 1 := by
      have := deltaI0_order (fx := p.fto.1) (fy := p.fto.2) 0 0
      show (deltaI0 : FlatIdx 0 0 → ℂ) 0 = 1
      simp [deltaI0]
    obtain ⟨q1, q2, q3, q4⟩ := bare_eqs heq 0
    rw [hpsi, sub_zero] at q1 q2 q3 q4
    simp only [Complex.sin_pi, Complex.cos_pi, zero_mul, add_zero, hδ, mul_one, hnt, hnbp, hcos] at q1 q2 q3 q4
    have hs0 : rt (.inr (.inl 0)) = 0 := by
      rw [← q1] at q2
      refine (mul_eq_zero.mp (?_ : (z + ((Real.sqrt 3 : ℝ) : ℂ)) * _ = 0)).resolve_left (add_ne_zero_of_re hzr (by simpa using h3.le))
      linear_combination q2
    have hr0 : rt (.inl (.inl 0)) = 0 := by rw [← q1, hs0]
    have hI := Complex.I_ne_zero
    have hII := Complex.I_mul_I
    have hbal := p_balance (a := Real.sqrt 3 / 4) (by positivity) (y := z / nb ^ 2) (R := Complex.I / 2 * rt (.inl (.inr 0)))
      (T := Complex.I / 2 * rt (.inr (.inr 0))) (w := z.re / Complex.normSq nb) hyre.le (p_power_lt one_pos hzz hzr hzi hnb0)
      (by rw [q3]; linear_combination -hII)
      (by
        have : z / nb ^ 2 * (Complex.I / 2 * rt (.inr (.inr 0))) = Complex.I / 2 * (z / nb ^ 2 * rt (.inr (.inr 0))) := by ring
        rw [this, q4]
        push_cast
        linear_combination -(((Real.sqrt 3 : ℝ) : ℂ) / 4) * hII)
    have hsum : ∀ f : Fin (2 * p.fto.2 + 1) → Fin (2 * p.fto.1 + 1) → ℝ, ∑ j, ∑ i, f j i = f 0 0 := by
      intro f
      have : ∀ f : Fin 1 → Fin 1 → ℝ, ∑ j, ∑ i, f j i = f 0 0 := by intro f; simp
      exact this f
    have hidx : (finProdFinEquiv ((0 : Fin (2 * p.fto.2 + 1)), (0 : Fin (2 * p.fto.1 + 1))) : FlatIdx p.fto.1 p.fto.2) = 0 := by
      apply Fin.ext
      show (finProdFinEquiv ((0 : Fin 1), (0 : Fin 1)) : Fin 1).val = 0
      simp
    have hph := phaseConv_signs (tKxVec p p.wavelength)
    have key : ∑ j, ∑ i, out.res.de_ri j i + ∑ j, ∑ i, out.res.de_ti j i < 1 := by
      rw [hres, hsum, hsum]
      refine lt_of_le_of_lt (le_of_eq ?_) hbal
      simp only [tSubResPsi, tSubRes, effOf_eq, bareState, one_mulVec, hnt, hnbp, hcos, Complex.normSq_mul, sign_normSq (hph _), normSq_star]
      rw [hidx, hs0, hr0]
      have w1 : ((Real.sqrt 3 : ℝ) : ℂ) / (2 * ((Real.sqrt 3 / 2 : ℝ) : ℂ)) = 1 := by
        have : (((Real.sqrt 3 : ℝ)) : ℂ) ≠ 0 := by exact_mod_cast h3.ne'
        push_cast
        field_simp
      have w2 : (z / (2 * ((Real.sqrt 3 / 2 : ℝ) : ℂ))).re = z.re / Real.sqrt 3 := by
        have : (2 : ℂ) * ((Real.sqrt 3 / 2 : ℝ) : ℂ) = ((Real.sqrt 3 : ℝ) : ℂ) := by push_cast; ring
        rw [this, Complex.div_ofReal_re]
      have n2 : Complex.normSq (2 : ℂ) = 4 := by simp [Complex.normSq_apply]; norm_num
      have hN : Complex.normSq nb ≠ 0 := (Complex.normSq_pos.mpr hnb0).ne'
      rw [w1, w2]
      simp only [map_zero, zero_mul, zero_add, mul_one, Complex.one_re, Complex.normSq_div, Complex.normSq_I, n2, one_div]
      field_simp
    exact key

end Meent
