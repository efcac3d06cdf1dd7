import Verif.Lemmas.BareExample
import Verif.Props.C04

/-!
# C08: flat stacks put all light in the zeroth order and a bare interface obeys Fresnel
-/

open Matrix

namespace Meent

/-- **C08, specular order only.**  When every layer is homogeneous, every amplitude and every efficiency
of every order other than `(0, 0)` is zero, for any truncation order, in every formulation. -/
theorem C08_flat_specular {la : LinAlg} {s : Settings} (hp : s.p.use_pinv = false)
    (hf : Spec.FlatStructure s.ucell) (hx : s.p.period.1 ≠ 0) (hy : s.p.period.2 ≠ 0)
    {sol : Solved s.p.fto.1 s.p.fto.2} (h : conv_solve la s = .ok sol)
    {x} (hr : Spec.Reports sol.result x) {j i} (hji : ¬(Spec.colOrder i = 0 ∧ Spec.rowOrder j = 0)) :
    (x.R_s j i = 0 ∧ x.R_p j i = 0 ∧ x.T_s j i = 0 ∧ x.T_p j i = 0) ∧
    (x.de_ri_s j i = 0 ∧ x.de_ri_p j i = 0 ∧ x.de_ti_s j i = 0 ∧ x.de_ti_p j i = 0) ∧
    x.de_ri j i = 0 ∧ x.de_ti j i = 0 := by
  obtain ⟨h1, h2, h3, h4⟩ := flat_zero hp (fun cs hcs => convMats_flat hf hx hy hcs) h hr
    (j := j) (i := i) (by rw [deltaI0_order, if_neg hji])
  have he := conv_solve_eff h hr
  have e1 : x.de_ri_s j i = 0 := by rw [he.ri_s, h1, effOf_zero]
  have e2 : x.de_ri_p j i = 0 := by rw [he.ri_p, h2, effOf_zero]
  have e3 : x.de_ti_s j i = 0 := by rw [he.ti_s, h3, effOf_zero]
  have e4 : x.de_ti_p j i = 0 := by rw [he.ti_p, h4, effOf_zero]
  refine ⟨⟨h1, h2, h3, h4⟩, ⟨e1, e2, e3, e4⟩, ?_, ?_⟩
  · rw [he.ri, e1, e2, add_zero]
  · rw [he.ti, e3, e4, add_zero]

private theorem fresnel_den {n₁ n₂ θ : ℝ} {c₂ : ℂ} (h1 : 0 < n₁) (h2 : 0 < n₂) (hc : 0 < Real.cos θ)
    (h : Spec.RefractionCos n₁ n₂ θ c₂) :
    (n₁ : ℂ) * (Real.cos θ : ℂ) + n₂ * c₂ ≠ 0 ∧ (n₂ : ℂ) * (Real.cos θ : ℂ) + n₁ * c₂ ≠ 0 := by
  constructor
  · refine add_ne_zero_of_re ?_ ?_
    · rw [← Complex.ofReal_mul, Complex.ofReal_re]; positivity
    · rw [Complex.re_ofReal_mul]; exact mul_nonneg h2.le h.2.1
  · refine add_ne_zero_of_re ?_ ?_
    · rw [← Complex.ofReal_mul, Complex.ofReal_re]; positivity
    · rw [Complex.re_ofReal_mul]; exact mul_nonneg h1.le h.2.1

/-- **C08, Fresnel, TE/TM solver.**  With no layer between two lossless media the zeroth-order amplitudes
are the Fresnel coefficients, also under total internal reflection. -/
theorem C08_fresnel_tetm_partial {la : LinAlg} {s : Settings} (hp : s.p.use_pinv = false) (ht : s.p.thickness = [])
    (hi : Spec.RealIllumination s.p) (hb : Spec.IsReal s.p.n_bot) (hb0 : 0 < s.p.n_bot.re)
    {c₂ : ℂ} (hc : Spec.RefractionCos s.p.n_top.re s.p.n_bot.re s.p.theta.re c₂)
    {sol : Solved s.p.fto.1 s.p.fto.2} (h : conv_solve la s = .ok sol) (hg : gratingType s = 0)
    {x} (hr : sol.result.res = some x) {j i} (h0i : Spec.colOrder i = 0) :
    (s.p.pol = 0 ∧ x.R_s j i = Spec.rTE s.p.n_top s.p.n_bot (Complex.cos s.p.theta) c₂ ∧
      x.T_s j i = Spec.tTE s.p.n_top s.p.n_bot (Complex.cos s.p.theta) c₂) ∨
    (s.p.pol = 1 ∧ x.R_p j i = Spec.rTM s.p.n_top s.p.n_bot (Complex.cos s.p.theta) c₂ ∧
      x.T_p j i = Spec.tTM s.p.n_top s.p.n_bot (Complex.cos s.p.theta) c₂) := by
  have hinc := RealIncidence.of_spec hi
  have hphi := (gratingType_zero hg).choose_spec.2.2.2.1
  rcases conv_solve_cases h with ⟨-, o, rfl⟩ | ⟨h1, -⟩ | ⟨h1, -⟩
  · obtain ⟨cs, -, -, -, hs⟩ := conv_solve_tetm.mp h
    obtain ⟨R, T, hT, hcase⟩ := bare_1d hp ht hs
    obtain rfl : o.res.row1 s.p.fto.2 = x := Option.some.inj hr
    have hδ : (deltaI0 i : ℂ) = 1 := by rw [deltaI0_eq, if_pos (colOrder_zero.mp h0i)]
    have kzt : kz1d s.p.n_top (kxVec s.p s.p.wavelength) i = s.p.n_top * Complex.cos s.p.theta := by
      rw [colOrder_zero.mp h0i, hinc.kz_ctr hphi, hinc.cos_eq, Complex.ofReal_mul, ← hinc.hn]
    have kzb : kz1d s.p.n_bot (kxVec s.p s.p.wavelength) i = s.p.n_bot * c₂ := by
      rw [kz1d_order hi hphi hb, kz_refraction hb0 hc (by rw [h0i, inPlane_zero])]
      congr 1
      exact (Complex.ext rfl hb.symm)
    have hcpos := hinc.cos_pos
    obtain ⟨d1, d2⟩ := fresnel_den hi.n_top_pos hb0 hcpos hc
    have en : (s.p.n_top.re : ℂ) = s.p.n_top := hinc.hn.symm
    have eb : (s.p.n_bot.re : ℂ) = s.p.n_bot := Complex.ext rfl hb.symm
    have ec : ((Real.cos s.p.theta.re : ℝ) : ℂ) = Complex.cos s.p.theta := hinc.cos_eq.symm
    rw [en, eb, ec] at d1 d2
    have hnt : s.p.n_top ≠ 0 := by rw [← en]; exact_mod_cast hi.n_top_pos.ne'
    have hnb : s.p.n_bot ≠ 0 := by rw [← eb]; exact_mod_cast hb0.ne'
    have hTi : T i = R i + 1 := by rw [hT, Pi.add_apply, hδ]
    rcases hcase with ⟨h0, hR, hT', he⟩ | ⟨h0, hR, hT', he⟩
    · left
      have he := he i
      rw [hδ, kzt, kzb] at he
      obtain ⟨a1, a2⟩ := fresnel_solve d1 hTi (by linear_combination he)
      refine ⟨h0, ?_, ?_⟩
      · show o.res.R_s 0 i = _
        rw [hR, a1, one_mul, Spec.rTE]
      · show o.res.T_s 0 i = _
        rw [hT', a2, one_mul, Spec.tTE, mul_assoc]
    · right
      have he := he i
      rw [hδ, kzt, kzb] at he
      obtain ⟨b1, b2, b3⟩ := fresnel_tm hnt hnb d2
      have f1 : s.p.n_top * Complex.cos s.p.theta / s.p.n_top ^ 2 = Complex.cos s.p.theta / s.p.n_top := by
        field_simp
      have f2 : s.p.n_bot * c₂ / s.p.n_bot ^ 2 = c₂ / s.p.n_bot := by field_simp
      rw [f1, f2] at he
      obtain ⟨a1, a2⟩ := fresnel_solve b1 hTi (by linear_combination he)
      refine ⟨h0, ?_, ?_⟩
      · show o.res.R_p 0 i = _
        rw [hR, a1, one_mul, b2]
      · show o.res.T_p 0 i = _
        rw [hT', a2, one_mul, b3]
  · omega
  · omega

/-- **C08, Fresnel, conical and 2D solvers.**  With no layer between two lossless media the zeroth-order
amplitudes of `res` are the Fresnel coefficients times the s and p components of the incident wave; the p
amplitudes are those of the scaled magnetic field, whose incident value is `i n_top cos ψ`. -/
theorem C08_fresnel_conical_partial {la : LinAlg} {s : Settings} (hp : s.p.use_pinv = false) (ht : s.p.thickness = [])
    (hi : Spec.RealIllumination s.p) (hb : Spec.IsReal s.p.n_bot) (hb0 : 0 < s.p.n_bot.re)
    {c₂ : ℂ} (hc : Spec.RefractionCos s.p.n_top.re s.p.n_bot.re s.p.theta.re c₂)
    {sol : Solved s.p.fto.1 s.p.fto.2} (h : conv_solve la s = .ok sol) (hg : gratingType s ≠ 0)
    {x} (hr : sol.result.res = some x) {j i} (h0i : Spec.colOrder i = 0) (h0j : Spec.rowOrder j = 0) :
    x.R_s j i = Complex.sin s.p.psi * Spec.rTE s.p.n_top s.p.n_bot (Complex.cos s.p.theta) c₂ ∧
    x.T_s j i = Complex.sin s.p.psi * Spec.tTE s.p.n_top s.p.n_bot (Complex.cos s.p.theta) c₂ ∧
    x.R_p j i = Complex.I * s.p.n_top * Complex.cos s.p.psi
      * Spec.rTM s.p.n_top s.p.n_bot (Complex.cos s.p.theta) c₂ ∧
    x.T_p j i = Complex.I * s.p.n_top * Complex.cos s.p.psi
      * Spec.tTM s.p.n_top s.p.n_bot (Complex.cos s.p.theta) c₂ := by
  have hinc := RealIncidence.of_spec hi
  have ha : s.algo = .tmm := by
    rcases conv_solve_cases h with ⟨h1, -⟩ | ⟨h1, ⟨o, rfl⟩ | rfl⟩ | ⟨h1, o, rfl⟩
    · exact absurd h1 hg
    · obtain ⟨_, _, _, h, _⟩ := conv_solve_conical.mp h; exact h
    · cases hr
    · obtain ⟨_, _, _, h, _⟩ := conv_solve_twoD.mp h; exact h
  obtain ⟨x', xe, xm, e, hB⟩ := bare_2d hp ht ha hg h
  rw [e] at hr
  obtain rfl : x' = x := Option.some.inj hr
  obtain ⟨q1, q2, q3, q4⟩ := hB j i
  rw [deltaI0_order, if_pos ⟨h0i, h0j⟩] at q1 q2 q3 q4
  have kzt : kz2d s.p.n_top (kxF s.p s.p.wavelength) (kyF s.p s.p.wavelength) (finProdFinEquiv (j, i))
      = s.p.n_top * Complex.cos s.p.theta := by
    have := hinc.kz_ctr2 (phi_getD_real hi) s.p.wavelength
    rw [colOrder_zero.mp h0i, rowOrder_zero.mp h0j]
    refine this.trans ?_
    rw [hinc.cos_eq, Complex.ofReal_mul, ← hinc.hn]
  have kzb : kz2d s.p.n_bot (kxF s.p s.p.wavelength) (kyF s.p s.p.wavelength) (finProdFinEquiv (j, i))
      = s.p.n_bot * c₂ := by
    rw [kz2d_order hi hb, kz_refraction hb0 hc (by rw [h0i, h0j, inPlane_zero])]
    congr 1
    exact (Complex.ext rfl hb.symm)
  rw [kzt, kzb] at q2 q4
  obtain ⟨d1, d2⟩ := fresnel_den hi.n_top_pos hb0 hinc.cos_pos hc
  have en : (s.p.n_top.re : ℂ) = s.p.n_top := hinc.hn.symm
  have eb : (s.p.n_bot.re : ℂ) = s.p.n_bot := Complex.ext rfl hb.symm
  have ec : ((Real.cos s.p.theta.re : ℝ) : ℂ) = Complex.cos s.p.theta := hinc.cos_eq.symm
  rw [en, eb, ec] at d1 d2
  have hnt : s.p.n_top ≠ 0 := by rw [← en]; exact_mod_cast hi.n_top_pos.ne'
  have hnb : s.p.n_bot ≠ 0 := by rw [← eb]; exact_mod_cast hb0.ne'
  have f1 : s.p.n_top * Complex.cos s.p.theta / s.p.n_top ^ 2 = Complex.cos s.p.theta / s.p.n_top := by
    field_simp
  have f2 : s.p.n_bot * c₂ / s.p.n_bot ^ 2 = c₂ / s.p.n_bot := by field_simp
  rw [f1, f2] at q4
  obtain ⟨b1, b2, b3⟩ := fresnel_tm hnt hnb d2
  obtain ⟨a1, a2⟩ := fresnel_solve d1 (q1.trans (by rw [mul_one])) (by linear_combination q2)
  obtain ⟨a3, a4⟩ := fresnel_solve b1 (q3.trans (by rw [mul_one])) (by
    have : Complex.I * s.p.n_top * Complex.cos s.p.psi * (Complex.cos s.p.theta / s.p.n_top)
        = Complex.I * Complex.cos s.p.psi * Complex.cos s.p.theta := by field_simp
    rw [this]; linear_combination q4)
  refine ⟨a1, ?_, ?_, ?_⟩
  · rw [a2, Spec.tTE, mul_assoc 2]
  · rw [a3, b2]
  · rw [a4, b3]

/-- A 30-degree TE problem with three orders and one homogeneous layer of permittivity 5/2, two wavelengths
thick. -/
private noncomputable def exFlat : Settings where
  p := { n_top := 1, n_bot := 1, theta := ((Real.pi / 6 : ℝ) : ℂ), phi := none, psi := ((Real.pi / 2 : ℝ) : ℂ),
         pol := 0, fto := (1, 0), period := (1, 1), wavelength := 1, thickness := [2], use_pinv := false }
  ucell := .raster ⟨1, 1, [fun _ _ => ((Real.sqrt (5 / 2) : ℝ) : ℂ)]⟩
  fourier_type := 0
  enhanced_dfs := false
  algo := .tmm

private theorem exFlat_illumination : Spec.RealIllumination exFlat.p := by
  have := Real.pi_pos
  refine ⟨?_, ?_, ?_, ?_, ?_, ?_, ?_, ?_, ?_, ?_⟩ <;>
    simp only [exFlat, Spec.IsReal, Complex.ofReal_im, Complex.ofReal_re, Complex.one_re,
      Complex.one_im, zero_lt_one] <;> try linarith
  simp

private theorem exFlat_kx (i : Fin (2 * exFlat.p.fto.1 + 1)) :
    ∃ m : ℝ, kxVec exFlat.p exFlat.p.wavelength i = (m : ℂ) ∧ (m ^ 2 = 1 / 4 ∨ m ^ 2 = 9 / 4) := by
  refine ⟨Spec.orderKx exFlat.p (Spec.colOrder i), kxVec_order exFlat_illumination i, ?_⟩
  have hk : ∀ m : ℤ, Spec.orderKx exFlat.p m = 1 / 2 + m := by
    intro m
    unfold Spec.orderKx
    simp only [exFlat, Complex.ofReal_re, Real.sin_pi_div_six, Option.getD_none, Complex.zero_re, Real.cos_zero]
    norm_num
  rw [hk]
  have h3 : Spec.colOrder i = -1 ∨ Spec.colOrder i = 0 ∨ Spec.colOrder i = 1 := by
    have := i.isLt
    unfold Spec.colOrder
    simp only [exFlat] at this ⊢
    omega
  rcases h3 with h | h | h <;> rw [h] <;> norm_num

/-- Non-vacuity of `C08_flat_specular`: this problem has orders other than the zeroth and is solved. -/
example : Spec.FlatStructure exFlat.ucell ∧ ∃ o, conv_solve exLA exFlat = .ok (.tetm o) := by
  have hsq : Real.sqrt (5 / 2) ^ 2 = 5 / 2 := Real.sq_sqrt (by norm_num)
  have hn0 : ((Real.sqrt (5 / 2) : ℝ) : ℂ) ≠ 0 := by
    exact_mod_cast (Real.sqrt_pos.mpr (by norm_num : (0 : ℝ) < 5 / 2)).ne'
  refine ⟨⟨Nat.one_pos, Nat.one_pos, ?_⟩, ?_⟩
  · intro l hl
    rw [List.mem_singleton] at hl
    subst hl
    exact ⟨_, hn0, fun _ _ => rfl⟩
  have hc : convMats exLA exFlat = .ok [Spec.scalarConv 1 0 ((Real.sqrt (5 / 2) : ℝ) : ℂ)] := by
    unfold convMats
    simp only [exFlat, if_true]
    exact C18_homogeneous_discrete exLA 1 1 Nat.one_pos Nat.one_pos [((Real.sqrt (5 / 2) : ℝ) : ℂ)]
      (fun n h => by rw [List.mem_singleton] at h; rw [h]; exact hn0) 1 0 false false
  have hrow : (Spec.scalarConv 1 0 ((Real.sqrt (5 / 2) : ℝ) : ℂ)).row
      = ⟨diagonal fun _ => 5 / 2, diagonal fun _ => 5 / 2, diagonal fun _ => 2 / 5⟩ := by
    have h2 : (((Real.sqrt (5 / 2) : ℝ) : ℂ)) ^ 2 = 5 / 2 := by
      rw [← Complex.ofReal_pow, hsq]; push_cast; ring
    have hd : ∀ a : ℂ, (a • (1 : Matrix (FlatIdx 1 0) (FlatIdx 1 0) ℂ)).submatrix rowIdx rowIdx = diagonal fun _ => a := by
      intro a
      rw [Matrix.submatrix_smul]
      simp only [Pi.smul_apply, submatrix_one _ rowIdx_inj]
      rw [← diagonal_one, ← diagonal_smul]
      congr 1
      ext i
      simp
    unfold Spec.scalarConv Conv.row
    simp only [h2, hd]
    norm_num
  have hq : ∀ m : ℝ, m ^ 2 = 1 / 4 ∨ m ^ 2 = 9 / 4 →
      ∃ q : ℝ, (q = 3 / 2 ∨ q = 1 / 2) ∧ csqrt ((m : ℂ) ^ 2 - 5 / 2) = Complex.I * q := by
    intro m hm
    rcases hm with h | h
    · refine ⟨3 / 2, .inl rfl, ?_⟩
      rw [← csqrt_neg_sq (by norm_num), ← Complex.ofReal_pow, h]
      congr 1; push_cast; norm_num
    · refine ⟨1 / 2, .inr rfl, ?_⟩
      rw [← csqrt_neg_sq (by norm_num), ← Complex.ofReal_pow, h]
      congr 1; push_cast; norm_num
  have hkz : ∀ m : ℝ, (m ^ 2 = 1 / 4 ∨ m ^ 2 = 9 / 4) →
      0 ≤ (star (csqrt ((1 : ℂ) ^ 2 - (m : ℂ) ^ 2))).re ∧ star (csqrt ((1 : ℂ) ^ 2 - (m : ℂ) ^ 2)) ≠ 0 := by
    intro m hm
    rw [show (1 : ℂ) ^ 2 - (m : ℂ) ^ 2 = ((1 - m ^ 2 : ℝ) : ℂ) by push_cast; ring]
    refine ⟨by rw [star_csqrt_ofReal_re]; exact Real.sqrt_nonneg _, ?_⟩
    rcases hm with h | h
    · rw [csqrt_ofReal_nonneg (by rw [h]; norm_num), Complex.star_def, Complex.conj_ofReal]
      exact_mod_cast (Real.sqrt_pos.mpr (by rw [h]; norm_num)).ne'
    · rw [csqrt_ofReal_neg (by rw [h]; norm_num), star_ne_zero]
      refine mul_ne_zero Complex.I_ne_zero ?_
      exact_mod_cast (Real.sqrt_pos.mpr (by rw [h]; norm_num)).ne'
  have hD : ∀ (z : ℂ) (q : ℝ), (q = 3 / 2 ∨ q = 1 / 2) → 0 ≤ z.re → 1 + Complex.I * z / (Complex.I * q) ≠ 0 := by
    intro z q hq hz
    rw [mul_div_mul_left _ _ Complex.I_ne_zero]
    refine add_ne_zero_of_re (by simp) ?_
    rw [Complex.div_ofReal_re]
    rcases hq with rfl | rfl <;> positivity
  have hpol0 : exFlat.p.pol = 0 := rfl
  have hs : ∃ o, solve_1d exLA exFlat.p exFlat.p.wavelength
      [⟨diagonal fun _ => 5 / 2, diagonal fun _ => 5 / 2, diagonal fun _ => 2 / 5⟩] = .ok o := by
    refine solve_1d_diag_ok rfl (.inl rfl) (d := 2) rfl _ _ _ (fun _ => by norm_num) ?_ ?_ ?_ []
    all_goals
      intro i
      obtain ⟨m, hm, hm2⟩ := exFlat_kx i
      obtain ⟨q, hq1, hq2⟩ := hq m hm2
      obtain ⟨z1, z2⟩ := hkz m hm2
      have hv : dv exFlat.p.pol (kxVec exFlat.p exFlat.p.wavelength i) (5 / 2) (5 / 2) (2 / 5) = Complex.I * q := by
        unfold dv dq
        rw [if_pos hpol0, if_pos hpol0, hm, hq2]
      have hqq : dq exFlat.p.pol (kxVec exFlat.p exFlat.p.wavelength i) (5 / 2) (5 / 2) (2 / 5) = Complex.I * q := by
        unfold dq
        rw [if_pos hpol0, hm, hq2]
      have hyt : dy exFlat.p.pol (kz1d exFlat.p.n_top (kxVec exFlat.p exFlat.p.wavelength) i) exFlat.p.n_top
          = star (csqrt ((1 : ℂ) ^ 2 - (m : ℂ) ^ 2)) := by
        unfold dy kz1d
        rw [if_pos hpol0, hm]; rfl
      have hyb : dy exFlat.p.pol (kz1d exFlat.p.n_bot (kxVec exFlat.p exFlat.p.wavelength) i) exFlat.p.n_bot
          = star (csqrt ((1 : ℂ) ^ 2 - (m : ℂ) ^ 2)) := hyt
      have hq0 : Complex.I * (q : ℂ) ≠ 0 := by
        refine mul_ne_zero Complex.I_ne_zero ?_
        rcases hq1 with rfl | rfl <;> norm_num
    · rw [hv]; exact hq0
    · rw [hv, hyb]; exact hD _ q hq1 z1
    · rw [hv, hyb, hyt, hqq]
      have hX : Complex.exp (-((2 * Real.pi / exFlat.p.wavelength : ℝ) : ℂ) * (Complex.I * q) * ((2 : ℝ) : ℂ)) ^ 2 = 1 := by
        rw [← Complex.exp_nat_mul, Complex.exp_eq_one_iff]
        rcases hq1 with rfl | rfl
        · refine ⟨-6, ?_⟩
          simp only [exFlat]; push_cast; ring
        · refine ⟨-2, ?_⟩
          simp only [exFlat]; push_cast; ring
      rw [hX]
      have hd := hD _ q hq1 z1
      generalize star (csqrt ((1 : ℂ) ^ 2 - (m : ℂ) ^ 2)) = z at *
      generalize Complex.I * (q : ℂ) = v at *
      have : v * (1 - 1 * dr v z) + Complex.I * z * (1 + 1 * dr v z) = 4 * Complex.I * z / (1 + Complex.I * z / v) := by
        unfold dr
        rw [eq_div_iff hd]
        have : (1 - Complex.I * z / v) / (1 + Complex.I * z / v) * (1 + Complex.I * z / v) = 1 - Complex.I * z / v :=
          div_mul_cancel₀ _ hd
        have hvv : v * (Complex.I * z / v) = Complex.I * z := by field_simp
        linear_combination (-v + Complex.I * z) * this + 2 * hvv
      rw [this]
      exact div_ne_zero (mul_ne_zero (mul_ne_zero (by norm_num) Complex.I_ne_zero) z2) hd
  obtain ⟨o, ho⟩ := hs
  refine ⟨o, conv_solve_tetm.mpr ⟨_, hc, by simp [gratingType, exFlat], rfl, ?_⟩⟩
  rw [← ho]
  exact congrArg (fun c => solve_1d exLA exFlat.p exFlat.p.wavelength [c]) hrow

/-- The cosine of the refraction angle of the glass interface below. -/
private theorem exRefraction : Spec.RefractionCos 2 (5 / 4) (Real.pi / 6) ((3 / 5 : ℝ) : ℂ) := by
  refine ⟨?_, ?_, ?_⟩
  · rw [Real.sin_pi_div_six, ← Complex.ofReal_pow]
    congr 1
    norm_num
  · rw [Complex.ofReal_re]; norm_num
  · rw [Complex.ofReal_im]

/-- Non-vacuity of `C08_fresnel_tetm_partial`: index 2 over index 5/4 at 30 degrees, both polarizations, any
eigensolver. -/
example (la : LinAlg) (pol : ℝ) (hpol : pol = 0 ∨ pol = 1) :
    (∃ o, conv_solve la (bareSettings (5 / 4 : ℝ) pol none) = .ok (.tetm o)) ∧
    gratingType (bareSettings (5 / 4 : ℝ) pol none) = 0 ∧
    Spec.RealIllumination (bareSettings (5 / 4 : ℝ) pol none).p ∧
    Spec.RefractionCos (bareSettings (5 / 4 : ℝ) pol none).p.n_top.re (bareSettings (5 / 4 : ℝ) pol none).p.n_bot.re
      (bareSettings (5 / 4 : ℝ) pol none).p.theta.re ((3 / 5 : ℝ) : ℂ) := by
  refine ⟨bareSettings_ok la _ pol hpol ?_, by simp [gratingType, bareSettings, hpol],
    bareSettings_illumination _ _ _ (by simp), ?_⟩
  · have e : star (csqrt ((((5 / 4 : ℝ) : ℂ)) ^ 2 - 1)) = ((3 / 4 : ℝ) : ℂ) := by
      rw [show (((5 / 4 : ℝ) : ℂ)) ^ 2 - 1 = ((3 / 4 : ℝ) : ℂ) ^ 2 by push_cast; norm_num,
        csqrt_ofReal_sq (by norm_num), Complex.star_def, Complex.conj_ofReal]
    rw [e]
    have h3 : 0 < Real.sqrt 3 := Real.sqrt_pos.mpr (by norm_num)
    rcases hpol with rfl | rfl
    · simp only [dy, if_true]
      rw [← Complex.ofReal_add]
      exact_mod_cast (by positivity : (0 : ℝ) < 3 / 4 + Real.sqrt 3).ne'
    · simp only [dy, one_ne_zero, if_false]
      rw [show ((3 / 4 : ℝ) : ℂ) / ((5 / 4 : ℝ) : ℂ) ^ 2 + ((Real.sqrt 3 : ℝ) : ℂ) / 2 ^ 2
        = ((3 / 4 / (5 / 4) ^ 2 + Real.sqrt 3 / 2 ^ 2 : ℝ) : ℂ) by push_cast; ring]
      exact_mod_cast (by positivity : (0 : ℝ) < 3 / 4 / (5 / 4) ^ 2 + Real.sqrt 3 / 2 ^ 2).ne'
  · have := exRefraction
    simpa [bareSettings] using this

/-- Non-vacuity of `C08_fresnel_conical_partial`: the same interface in the conical solver, any polarization. -/
example (la : LinAlg) (pol : ℝ) :
    (∃ o, conv_solve la (bareSettings (5 / 4 : ℝ) pol (some 0)) = .ok (.conical o)) ∧
    gratingType (bareSettings (5 / 4 : ℝ) pol (some 0)) ≠ 0 ∧
    Spec.RefractionCos (bareSettings (5 / 4 : ℝ) pol (some 0)).p.n_top.re
      (bareSettings (5 / 4 : ℝ) pol (some 0)).p.n_bot.re
      (bareSettings (5 / 4 : ℝ) pol (some 0)).p.theta.re ((3 / 5 : ℝ) : ℂ) := by
  refine ⟨bareSettings_con_ok la (5 / 4) (by norm_num) pol, by simp [gratingType, bareSettings], ?_⟩
  have := exRefraction
  simpa [bareSettings] using this

/-- The witness of `C08_absorbing_negation`: index 2 over `(9 - 7i)/8` at 30 degrees, TM. -/
theorem absorbing_bare (la : LinAlg) : ∃ o, conv_solve la (bareSettings ⟨9 / 8, -(7 / 8)⟩ 1 none) = .ok (.tetm o) ∧
    ∀ j i, Spec.colOrder i = 0 → 3 < (o.res.row1 (bareSettings ⟨9 / 8, -(7 / 8)⟩ 1 none).p.fto.2).de_ri j i ∧
      ∀ c₂ : ℂ, ((⟨9 / 8, -(7 / 8)⟩ : ℂ) * c₂) ^ 2
          = (⟨9 / 8, -(7 / 8)⟩ : ℂ) ^ 2 - (2 * Complex.sin ((Real.pi / 6 : ℝ) : ℂ)) ^ 2 →
        (o.res.row1 (bareSettings ⟨9 / 8, -(7 / 8)⟩ 1 none).p.fto.2).R_p j i
          ≠ Spec.rTM 2 ⟨9 / 8, -(7 / 8)⟩ (Complex.cos ((Real.pi / 6 : ℝ) : ℂ)) c₂ := by
  set nb : ℂ := ⟨9 / 8, -(7 / 8)⟩ with hnb
  have hsq : nb ^ 2 - 1 = (⟨7 / 8, -(9 / 8)⟩ : ℂ) ^ 2 := by
    apply Complex.ext <;> simp [hnb, pow_two] <;> norm_num
  have hkzb : star (csqrt (nb ^ 2 - 1)) = (⟨7 / 8, 9 / 8⟩ : ℂ) := by
    rw [hsq]
    unfold csqrt
    have : (1 / 2 : ℂ) = 2⁻¹ := by norm_num
    rw [this, Complex.sq_cpow_two_inv (by norm_num)]
    apply Complex.ext <;> simp
  have hb : (⟨7 / 8, 9 / 8⟩ : ℂ) / nb ^ 2 = ⟨-(28 / 65), 36 / 65⟩ := by
    rw [div_eq_iff (by
      intro h
      have := congrArg Complex.re h
      simp [hnb, pow_two] at this
      norm_num at this)]
    apply Complex.ext <;> simp [hnb, pow_two] <;> norm_num
  have h3 : Real.sqrt 3 ^ 2 = 3 := Real.sq_sqrt (by norm_num)
  have h3p : 0 < Real.sqrt 3 := Real.sqrt_pos.mpr (by norm_num)
  obtain ⟨o, ho⟩ := bareSettings_ok la nb 1 (.inr rfl) (by
    simp only [dy, one_ne_zero, if_false]
    rw [hkzb, hb]
    intro h
    have := congrArg Complex.im h
    rw [show (2 : ℂ) ^ 2 = ((4 : ℝ) : ℂ) by push_cast; norm_num] at this
    rw [Complex.add_im, Complex.div_ofReal_im, Complex.ofReal_im] at this
    norm_num at this)
  have hi := bareSettings_illumination nb 1 none (by simp)
  have hinc := RealIncidence.of_spec hi
  refine ⟨o, ho, ?_⟩
  intro j i h0i
  obtain ⟨cs, -, -, -, hs⟩ := conv_solve_tetm.mp ho
  obtain ⟨R, T, hT, hcase⟩ := bare_1d rfl rfl hs
  have hδ : (deltaI0 i : ℂ) = 1 := by rw [deltaI0_eq, if_pos (colOrder_zero.mp h0i)]
  have ecos : Complex.cos (bareSettings nb 1 none).p.theta = ((Real.sqrt 3 / 2 : ℝ) : ℂ) := by
    simp only [bareSettings]
    rw [← Complex.ofReal_cos, Real.cos_pi_div_six]
  have kzt : kz1d (bareSettings nb 1 none).p.n_top (kxVec (bareSettings nb 1 none).p (bareSettings nb 1 none).p.wavelength) i
      = ((Real.sqrt 3 : ℝ) : ℂ) := by
    unfold kz1d
    rw [bareSettings_kx, one_pow]
    have e2 : ((bareSettings nb 1 none).p.n_top ^ 2 - 1 : ℂ) = 3 := by simp only [bareSettings]; norm_num
    rw [e2, sqrt3_csqrt]
  have kzb : kz1d (bareSettings nb 1 none).p.n_bot (kxVec (bareSettings nb 1 none).p (bareSettings nb 1 none).p.wavelength) i
      = ⟨7 / 8, 9 / 8⟩ := by
    unfold kz1d
    rw [bareSettings_kx, one_pow]
    exact hkzb
  have hTi : T i = R i + 1 := by rw [hT, Pi.add_apply, hδ]
  rcases hcase with ⟨h0, -⟩ | ⟨-, hR, -, he⟩
  · exact absurd h0 one_ne_zero
  have he := he i
  rw [hδ, kzt, kzb, ecos] at he
  simp only [bareSettings] at he
  rw [hb, hTi] at he
  set a : ℂ := ((Real.sqrt 3 / 4 : ℝ) : ℂ) with ha
  have e1 : ((Real.sqrt 3 / 2 : ℝ) : ℂ) / 2 = a := by rw [ha]; push_cast; ring
  have e2 : ((Real.sqrt 3 : ℝ) : ℂ) / 2 ^ 2 = a := by rw [ha]; push_cast; ring
  rw [e1, e2] at he
  have hRe : R i * (a + ⟨-(28 / 65), 36 / 65⟩) = a - ⟨-(28 / 65), 36 / 65⟩ := by linear_combination he
  refine ⟨?_, ?_⟩
  · have hn := congrArg Complex.normSq hRe
    rw [Complex.normSq_mul, Complex.normSq_apply (a + _), Complex.normSq_apply (a - _)] at hn
    simp only [ha, Complex.add_re, Complex.add_im, Complex.sub_re, Complex.sub_im, Complex.ofReal_re,
      Complex.ofReal_im] at hn
    have hlaw := (conv_solve_eff ho (.inl rfl)).ri j i
    have hs0 : (o.res.row1 (bareSettings nb 1 none).p.fto.2).de_ri j i = Complex.normSq (R i) := by
      obtain ⟨hl, init, r, x, hi', hr, hx, rfl⟩ := (solve_1d_iff rfl).mp hs
      obtain ⟨k1, k2⟩ := transfer_1d_1_kz hi'
      obtain ⟨R', T', hF, hT', hde, hc⟩ := transfer_1d_4_ok hx
      show x.1.de_ri 0 i = _
      rcases hc with ⟨h0, -⟩ | ⟨-, -, -, hR', -⟩
      · exact absurd h0 one_ne_zero
      · rw [hde, k1, kzt, ecos, show R' = R from (hR' 0).symm.trans (hR 0), effOf_eq]
        have : (((Real.sqrt 3 : ℝ) : ℂ) / ((bareSettings nb 1 none).p.n_top * ((Real.sqrt 3 / 2 : ℝ) : ℂ))) = 1 := by
          simp only [bareSettings]
          rw [div_eq_one_iff_eq]
          · push_cast; ring
          · exact mul_ne_zero two_ne_zero (by exact_mod_cast (by positivity : (0 : ℝ) < Real.sqrt 3 / 2).ne')
        rw [this, Complex.one_re, mul_one]
    rw [hs0]
    have l1 : 1.7 < Real.sqrt 3 := by rw [Real.lt_sqrt (by norm_num)]; norm_num
    have l2 : Real.sqrt 3 < 1.8 := by rw [Real.sqrt_lt' (by norm_num)]; norm_num
    have hpos : 0 < (Real.sqrt 3 / 4 + -(28 / 65)) * (Real.sqrt 3 / 4 + -(28 / 65)) + (0 + 36 / 65) * (0 + 36 / 65) := by
      nlinarith
    by_contra hle
    have hle := not_lt.mp hle
    have := mul_le_mul_of_nonneg_right hle hpos.le
    rw [hn] at this
    nlinarith
  · intro c₂ hc₂ hEq
    have hR0 : R i = Spec.rTM (bareSettings nb 1 none).p.n_top (bareSettings nb 1 none).p.n_bot
        (Complex.cos (bareSettings nb 1 none).p.theta) c₂ := by
      exact (congrFun (hR 0) i).symm.trans hEq
    have hsin : (2 * Complex.sin ((Real.pi / 6 : ℝ) : ℂ)) = 1 := by
      rw [← Complex.ofReal_sin, Real.sin_pi_div_six]; push_cast; norm_num
    rw [hsin, one_pow, hsq] at hc₂
    have hnb0 : nb ≠ 0 := by
      intro h
      have := congrArg Complex.re h
      simp [hnb] at this
    have hc2 : c₂ ≠ 0 := by
      rintro rfl
      have := congrArg Complex.im hc₂
      simp [pow_two] at this
      norm_num at this
    rw [ecos] at hR0
    simp only [bareSettings, Spec.rTM] at hR0
    have hden : nb * ((Real.sqrt 3 / 2 : ℝ) : ℂ) + 2 * c₂ ≠ 0 := by
      intro h0
      rw [h0, div_zero] at hR0
      rw [hR0, zero_mul] at hRe
      have := congrArg Complex.im hRe
      simp [ha] at this
    rw [eq_div_iff hden] at hR0
    -- the same amplitude forces the same admittance
    have hadm : c₂ / nb = (⟨-(28 / 65), 36 / 65⟩ : ℂ) := by
      have ha0 : a ≠ 0 := by rw [ha]; exact_mod_cast (by positivity : (0 : ℝ) < Real.sqrt 3 / 4).ne'
      have e3 : ((Real.sqrt 3 / 2 : ℝ) : ℂ) = 2 * a := by rw [ha]; push_cast; ring
      rw [e3] at hR0
      have h1 : R i * (a + c₂ / nb) = a - c₂ / nb := by
        field_simp
        linear_combination hR0 / 2
      have hr1 : R i + 1 ≠ 0 := by
        intro h0
        have hr : R i = -1 := by linear_combination h0
        rw [hr] at hRe
        apply ha0
        linear_combination -hRe / 2
      refine mul_left_cancel₀ hr1 ?_
      linear_combination h1 - hRe
    have : (⟨7 / 8, 9 / 8⟩ : ℂ) ^ 2 = (⟨7 / 8, -(9 / 8)⟩ : ℂ) ^ 2 := by
      rw [← hc₂]
      congr 1
      rw [(div_eq_iff hnb0).mp hadm, ← hb]
      field_simp
    have := congrArg Complex.im this
    simp [pow_two] at this
    norm_num at this

/-- **C08 fails for an absorbing substrate** (NumPy and JAX backends).  `kz_bot` is the conjugate of the
root of `n_bot² - kx²`, so it solves the dispersion relation of the conjugate medium, while the p
admittance divides it by `n_bot²` itself.  Index 2 over the passive metal `(9 - 7i)/8` at 30 degrees: the TM
reflectance comes out above 3 and the amplitude is no Fresnel coefficient. -/
theorem C08_absorbing_negation (la : LinAlg) : ∃ (s : Settings) (sol : Solved s.p.fto.1 s.p.fto.2) (x : _),
    Spec.RealIllumination s.p ∧ s.p.use_pinv = false ∧ s.p.thickness = [] ∧ 0 < s.p.n_bot.re ∧ s.p.n_bot.im < 0 ∧
    s.p.pol = 1 ∧ gratingType s = 0 ∧ conv_solve la s = .ok sol ∧ sol.result.res = some x ∧
    (∀ j i, Spec.colOrder i = 0 → 3 < x.de_ri j i ∧
      ∀ c₂ : ℂ, (s.p.n_bot * c₂) ^ 2 = s.p.n_bot ^ 2 - (s.p.n_top * Complex.sin s.p.theta) ^ 2 →
        x.R_p j i ≠ Spec.rTM s.p.n_top s.p.n_bot (Complex.cos s.p.theta) c₂) := by
  obtain ⟨o, ho, h⟩ := absorbing_bare la
  refine ⟨_, .tetm o, _, bareSettings_illumination _ 1 none (by simp), rfl, rfl, ?_, ?_, rfl, by simp [gratingType, bareSettings],
    ho, rfl, h⟩
  · simp only [bareSettings]; norm_num
  · simp only [bareSettings]; norm_num

end Meent

#print axioms Meent.C08_flat_specular
#print axioms Meent.C08_fresnel_tetm_partial
#print axioms Meent.C08_fresnel_conical_partial
#print axioms Meent.C08_absorbing_negation
