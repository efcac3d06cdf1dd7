import Verif.Lemmas.Transmission
import Verif.Lemmas.ReciprocityExample
import Verif.Spec.Reciprocity

/-!
# C53: reciprocity of transmission
-/

namespace Meent

/-- **C53, TE and TM.** For every structure (lossy or not, symmetric or not) between lossless claddings, as many
thicknesses as layers and real illumination (plain inverses, any two eigensolvers): the directly transmitted amplitude,
up to the ratio of the longitudinal wavenumbers, and the direct transmittance are the same through the stack and, along
the same path backwards, through the stack upside down. -/
theorem C53_transmission_tetm (la la' : LinAlg) (s : Settings) (θ' : ℂ) (hi : Spec.RealIllumination s.p)
    (hi' : Spec.RealIllumination (Spec.flipped s θ').p) (hb : Spec.Backwards s θ')
    (hlen : Spec.layerCount s.ucell = s.p.thickness.length) (hp : s.p.use_pinv = false)
    (o o' : Out1D (2 * s.p.fto.1 + 1)) (h : conv_solve la s = .ok (.tetm o))
    (h' : conv_solve la' (Spec.flipped s θ') = .ok (.tetm o')) :
    ∀ i, Spec.colOrder i = 0 →
      Spec.SameTransmission s.p.n_top s.p.n_bot (Complex.cos s.p.theta) (Complex.cos θ') o.res o'.res 0 i := by
  intro i h0
  obtain rfl := colOrder_zero.mp h0
  obtain ⟨cs, hc, fs, hd⟩ := tetm_bvp hp (RealIllumination.n_top_ne hi) h
  obtain ⟨cs', hc', gs, hd'⟩ := tetm_bvp (s := Spec.flipped s θ') hp (RealIllumination.n_top_ne hi') h'
  obtain rfl : cs.reverse = cs' := Except.ok.inj ((convMats_reversed hc).symm.trans
    ((convMats_la (s := Spec.flipped s θ') la la' hp).trans hc'))
  have hg := (conv_solve_tetm.mp h).choose_spec.2.1
  obtain ⟨u, hu, hy, hpol, hphi, hf⟩ := gratingType_zero hg
  have hJ := convMats_persym hp hc
  have hl : (cs.map Conv.row).length = s.p.thickness.length := by
    rw [List.length_map, convMats_length hc, hlen]
  have hd' : Spec.Diffraction1d (flipP s.p θ') (cs.map Conv.row).reverse o'.res gs := by
    rw [← List.map_reverse]; exact hd'
  have key := trans_core1 hi hi' hphi hb hl (fun c hcm => by
    obtain ⟨c0, h1, rfl⟩ := List.mem_map.mp hcm
    exact row_persym hf (hJ c0 h1)) hd hd'
  have hs : s.p.n_top * Complex.cos s.p.theta * o'.res.T_s 0 (ctr _) = s.p.n_bot * Complex.cos θ' * o.res.T_s 0 (ctr _) := by
    rcases tetm_other hp h with ⟨h0, -⟩ | ⟨h0, -, h1⟩
    · rwa [if_pos h0] at key
    · rcases tetm_other (s := Spec.flipped s θ') hp h' with ⟨h2, -⟩ | ⟨-, -, h2⟩
      · rw [show (Spec.flipped s θ').p.pol = s.p.pol from rfl, h0] at h2; exact absurd h2 one_ne_zero
      · rw [h1 0 (ctr _), show o'.res.T_s 0 (ctr s.p.fto.1) = 0 from h2 0 (ctr _), mul_zero, mul_zero]
  have hpp : Complex.cos s.p.theta / s.p.n_top * o'.res.T_p 0 (ctr _) = Complex.cos θ' / s.p.n_bot * o.res.T_p 0 (ctr _) := by
    rcases tetm_other hp h with ⟨h0, -, h1⟩ | ⟨h0, -⟩
    · rcases tetm_other (s := Spec.flipped s θ') hp h' with ⟨-, -, h2⟩ | ⟨h2, -⟩
      · rw [h1 0 (ctr _), show o'.res.T_p 0 (ctr s.p.fto.1) = 0 from h2 0 (ctr _), mul_zero, mul_zero]
      · rw [show (Spec.flipped s θ').p.pol = s.p.pol from rfl, h0] at h2; exact absurd h2 zero_ne_one
    · rwa [if_neg (by rw [h0]; exact one_ne_zero)] at key
  obtain ⟨f1, f2, f3⟩ := eff_direct hi hi' hb h (x := o.res.row1 s.p.fto.2) (.inl rfl)
  obtain ⟨g1, g2, g3⟩ := eff_direct (s := Spec.flipped s θ') hi' (flip_again hi) (back_again hb) h'
    (x := o'.res.row1 s.p.fto.2) (.inl rfl)
  have w1 : (pWeights s).2 = s.p.n_top.re ^ 2 / s.p.n_bot.re ^ 2 := by unfold pWeights; rw [if_pos hg]
  have w2 : (pWeights (Spec.flipped s θ')).2 = s.p.n_bot.re ^ 2 / s.p.n_top.re ^ 2 := by
    unfold pWeights; rw [gratingType_reversed, if_pos hg]
  rw [w1] at f2
  rw [w2] at g2
  have N1 := norm_ncos hi
  have N2 := norm_ncos hi'
  have P1 : 0 < Real.cos s.p.theta.re := (RealIncidence.of_spec hi).cos_pos
  have P2 : 0 < Real.cos θ'.re := (RealIncidence.of_spec hi').cos_pos
  have Q1 := hi.n_top_pos
  have Q2 : 0 < s.p.n_bot.re := hi'.n_top_pos
  have n1 := trans_norm N1.1 N2.1 (mul_pos Q1 P1) hs
  have n2 := trans_norm N1.2 N2.2 (div_pos P1 Q1) hpp
  have e1 : o'.res.de_ti_s 0 (ctr _) = o.res.de_ti_s 0 (ctr _) := by
    refine g1.trans (Eq.trans ?_ f1.symm)
    change ‖o'.res.T_s 0 (ctr _)‖ ^ 2 * _ = ‖o.res.T_s 0 (ctr _)‖ ^ 2 * _
    rw [n1]
    simp only
    field_simp
  have e2 : o'.res.de_ti_p 0 (ctr _) = o.res.de_ti_p 0 (ctr _) := by
    refine g2.trans (Eq.trans ?_ f2.symm)
    change _ * ‖o'.res.T_p 0 (ctr _)‖ ^ 2 * _ = _ * ‖o.res.T_p 0 (ctr _)‖ ^ 2 * _
    rw [n2]
    simp only
    field_simp
  exact ⟨hs, hpp, e1, e2, g3.trans ((congrArg₂ (· + ·) e1 e2).trans f3.symm)⟩

/-- **C53, conical and 2D.** The same with polarization: s to s and p to p transmission are the same both ways, and s to
p transmission one way is p to s transmission the other way. -/
theorem C53_transmission (la la' : LinAlg) (s : Settings) (θ' : ℂ) (hi : Spec.RealIllumination s.p)
    (hi' : Spec.RealIllumination (Spec.flipped s θ').p) (hb : Spec.Backwards s θ')
    (hlen : Spec.layerCount s.ucell = s.p.thickness.length) (hp : s.p.use_pinv = false)
    (ha : s.algo = .tmm) (hg : gratingType s ≠ 0) (sol sol' : Solved s.p.fto.1 s.p.fto.2)
    (h : conv_solve la s = .ok sol) (h' : conv_solve la' (Spec.flipped s θ') = .ok sol') :
    ∃ te tm te' tm', sol.result.res_te_inc = some te ∧ sol.result.res_tm_inc = some tm ∧
      sol'.result.res_te_inc = some te' ∧ sol'.result.res_tm_inc = some tm' ∧
      ∀ j i, Spec.rowOrder j = 0 → Spec.colOrder i = 0 →
        Spec.ReciprocalTransmission s.p.n_top s.p.n_bot (Complex.cos s.p.theta) (Complex.cos θ') te tm te' tm' j i := by
  have hn := RealIllumination.n_top_ne hi
  have hn' : s.p.n_bot ≠ 0 := RealIllumination.n_top_ne hi'
  obtain ⟨cs, y, te, tm, hc, er, -, ⟨fs, d1⟩, fs2, d2⟩ := solved_bvp hp ha hn hg h
  obtain ⟨cs', y', te', tm', hc', er', -, ⟨gs, d1'⟩, gs2, d2'⟩ :=
    solved_bvp (s := Spec.flipped s θ') hp ha hn' (by rw [gratingType_reversed]; exact hg) h'
  obtain rfl : cs.reverse = cs' := Except.ok.inj ((convMats_reversed hc).symm.trans
    ((convMats_la (s := Spec.flipped s θ') la la' hp).trans hc'))
  have hJ := convMats_persym hp hc
  have hl : cs.length = s.p.thickness.length := (convMats_length hc).trans hlen
  refine ⟨te, tm, te', tm', by rw [er], by rw [er], by rw [er'], by rw [er'], fun j i hj h0 => ?_⟩
  obtain rfl := colOrder_zero.mp h0
  obtain rfl := rowOrder_zero.mp hj
  have k1 := trans_core hi hi' hb hl hJ d1 d1'
  have k2 := trans_core hi hi' hb hl hJ d2 d2'
  have k3 := trans_core hi hi' hb hl hJ d1 d2'
  have k4 := trans_core hi hi' hb hl hJ d2 d1'
  unfold passed at k1 k2 k3 k4
  simp only [Complex.ofReal_div, Complex.ofReal_ofNat, Complex.sin_pi_div_two, Complex.cos_pi_div_two, Complex.sin_zero,
    Complex.cos_zero, one_mul, zero_mul, mul_zero, zero_div, mul_one, sub_zero, zero_sub] at k1 k2 k3 k4
  have e1 : Complex.cos s.p.theta * tm'.T_p (ctr _) (ctr _) = Complex.cos θ' * tm.T_p (ctr _) (ctr _) := by
    have := Complex.I_ne_zero
    field_simp at k2
    exact neg_injective k2
  have e2 : Complex.I * s.p.n_top * Complex.cos s.p.theta * tm'.T_s (ctr _) (ctr _)
      = Complex.cos θ' * te.T_p (ctr _) (ctr _) := by
    have := k3
    field_simp at this
    linear_combination Complex.I * this - Complex.cos θ' * te.T_p (ctr _) (ctr _) * Complex.I_sq
  have e3 : Complex.cos s.p.theta * te'.T_p (ctr _) (ctr _)
      = Complex.I * s.p.n_bot * Complex.cos θ' * tm.T_s (ctr _) (ctr _) := by
    have := k4
    field_simp at this
    linear_combination Complex.I * this + Complex.cos s.p.theta * te'.T_p (ctr _) (ctr _) * Complex.I_sq
  obtain ⟨f1, f2, -⟩ := eff_direct hi hi' hb h (x := te) (by rw [er]; exact .inr (.inl rfl))
  obtain ⟨f3, f4, -⟩ := eff_direct hi hi' hb h (x := tm) (by rw [er]; exact .inr (.inr rfl))
  obtain ⟨g1, g2, -⟩ := eff_direct (s := Spec.flipped s θ') hi' (flip_again hi) (back_again hb) h' (x := te')
    (by rw [er']; exact .inr (.inl rfl))
  obtain ⟨g3, g4, -⟩ := eff_direct (s := Spec.flipped s θ') hi' (flip_again hi) (back_again hb) h' (x := tm')
    (by rw [er']; exact .inr (.inr rfl))
  have w1 : (pWeights s).2 = 1 / s.p.n_bot.re ^ 2 := by unfold pWeights; rw [if_neg hg]
  have w2 : (pWeights (Spec.flipped s θ')).2 = 1 / s.p.n_top.re ^ 2 := by
    unfold pWeights; rw [gratingType_reversed, if_neg hg]
  rw [w1] at f2 f4
  rw [w2] at g2 g4
  have N1 := norm_ncos hi
  have N2 := norm_ncos hi'
  have C1 := norm_cos hi
  have C2 := norm_cos hi'
  have P1 : 0 < Real.cos s.p.theta.re := (RealIncidence.of_spec hi).cos_pos
  have P2 : 0 < Real.cos θ'.re := (RealIncidence.of_spec hi').cos_pos
  have Q1 := hi.n_top_pos
  have Q2 : 0 < s.p.n_bot.re := hi'.n_top_pos
  have I1 : ∀ z : ℂ, ‖Complex.I * z‖ = ‖z‖ := fun z => by rw [norm_mul, Complex.norm_I, one_mul]
  have n1 := trans_norm N1.1 N2.1 (mul_pos Q1 P1) k1
  have n2 := trans_norm C1 C2 P1 e1
  have n3 := trans_norm (x := s.p.n_top.re * Real.cos s.p.theta.re) (by rw [mul_assoc, I1]; exact N1.1) C2 (mul_pos Q1 P1) e2
  have n4 := trans_norm (y := s.p.n_bot.re * Real.cos θ'.re) C1 (by rw [mul_assoc, I1]; exact N2.1) P1 e3
  refine ⟨k1, e1, e2, e3, ?_, ?_, ?_, ?_⟩
  · refine g1.trans (Eq.trans ?_ f1.symm)
    rw [n1]; simp only; field_simp
  · refine g4.trans (Eq.trans ?_ f4.symm)
    rw [n2]; simp only; field_simp
  · refine g3.trans (Eq.trans ?_ f2.symm)
    rw [n3]; simp only; field_simp
  · refine g2.trans (Eq.trans ?_ f3.symm)
    rw [n4]; simp only; field_simp

/-- **C53, any polarization.** For the configured polarization angle `ψ`, the amplitude of the directly transmitted
wave on the polarization of the wave sent from its side is the same both ways, up to the longitudinal wavenumbers. -/
theorem C53_transmission_psi (la la' : LinAlg) (s : Settings) (θ' : ℂ) (hi : Spec.RealIllumination s.p)
    (hi' : Spec.RealIllumination (Spec.flipped s θ').p) (hb : Spec.Backwards s θ')
    (hlen : Spec.layerCount s.ucell = s.p.thickness.length) (hp : s.p.use_pinv = false)
    (ha : s.algo = .tmm) (hg : gratingType s ≠ 0) (sol sol' : Solved s.p.fto.1 s.p.fto.2)
    (h : conv_solve la s = .ok sol) (h' : conv_solve la' (Spec.flipped s θ') = .ok sol') :
    ∃ r r', sol.result.res = some r ∧ sol'.result.res = some r' ∧
      ∀ j i, Spec.rowOrder j = 0 → Spec.colOrder i = 0 →
        Complex.cos s.p.theta * (s.p.n_top * Complex.sin s.p.psi * r'.T_s j i - Complex.I * Complex.cos s.p.psi * r'.T_p j i)
          = Complex.cos θ' * (s.p.n_bot * Complex.sin s.p.psi * r.T_s j i - Complex.I * Complex.cos s.p.psi * r.T_p j i) := by
  have hn := RealIllumination.n_top_ne hi
  have hn' : s.p.n_bot ≠ 0 := RealIllumination.n_top_ne hi'
  obtain ⟨cs, y, te, tm, hc, er, ⟨fs, d1⟩, -⟩ := solved_bvp hp ha hn hg h
  obtain ⟨cs', y', te', tm', hc', er', ⟨gs, d1'⟩, -⟩ :=
    solved_bvp (s := Spec.flipped s θ') hp ha hn' (by rw [gratingType_reversed]; exact hg) h'
  obtain rfl : cs.reverse = cs' := Except.ok.inj ((convMats_reversed hc).symm.trans
    ((convMats_la (s := Spec.flipped s θ') la la' hp).trans hc'))
  refine ⟨y, y', by rw [er], by rw [er'], fun j i hj h0 => ?_⟩
  obtain rfl := colOrder_zero.mp h0
  obtain rfl := rowOrder_zero.mp hj
  have k1 := trans_core hi hi' hb ((convMats_length hc).trans hlen) (convMats_persym hp hc) d1 d1'
  unfold passed at k1
  field_simp at k1
  linear_combination k1

/-- Non-vacuity: the two-pixel grating, whose flipped stack is the grating at -30°: TE, TM, conical and 2D. -/
theorem flipped_example (pol : ℝ) (phi : Option ℂ) :
    Spec.flipped (exSettings pol phi) (-((Real.pi / 6 : ℝ) : ℂ)) = Spec.opposite (exSettings pol phi) := rfl

theorem backwards_example (pol : ℝ) (phi : Option ℂ) :
    Spec.Backwards (exSettings pol phi) (-((Real.pi / 6 : ℝ) : ℂ)) := by
  unfold Spec.Backwards
  rw [Complex.sin_neg]
  simp [exSettings, exParams]

example : ∃ o o', conv_solve exLA (exSettings 0 none) = .ok (.tetm o) ∧
    conv_solve exLA (Spec.flipped (exSettings 0 none) (-((Real.pi / 6 : ℝ) : ℂ))) = .ok (.tetm o') ∧
    ∀ i, Spec.colOrder i = 0 → Spec.SameTransmission 1 1 (Complex.cos ((Real.pi / 6 : ℝ) : ℂ))
      (Complex.cos (-((Real.pi / 6 : ℝ) : ℂ))) o.res o'.res 0 i := by
  obtain ⟨o, h⟩ := exTE_ok
  obtain ⟨o', h'⟩ := exTE_opp_ok
  exact ⟨o, o', h, h', C53_transmission_tetm exLA exLA (exSettings 0 none) _ (exParams_real 0 none (by simp))
    (illumination_opposite (exParams_real 0 none (by simp))) (backwards_example 0 none) rfl rfl o o' h h'⟩

example : ∃ o o', conv_solve exLA (exSettings 1 none) = .ok (.tetm o) ∧
    conv_solve exLA (Spec.flipped (exSettings 1 none) (-((Real.pi / 6 : ℝ) : ℂ))) = .ok (.tetm o') ∧
    ∀ i, Spec.colOrder i = 0 → Spec.SameTransmission 1 1 (Complex.cos ((Real.pi / 6 : ℝ) : ℂ))
      (Complex.cos (-((Real.pi / 6 : ℝ) : ℂ))) o.res o'.res 0 i := by
  obtain ⟨o, h⟩ := exTM_ok
  obtain ⟨o', h'⟩ := exTM_opp_ok
  exact ⟨o, o', h, h', C53_transmission_tetm exLA exLA (exSettings 1 none) _ (exParams_real 1 none (by simp))
    (illumination_opposite (exParams_real 1 none (by simp))) (backwards_example 1 none) rfl rfl o o' h h'⟩

example (pol : ℝ) : ∃ sol sol' te tm te' tm', conv_solve exLA (exSettings pol (some 0)) = .ok sol ∧
    conv_solve exLA (Spec.flipped (exSettings pol (some 0)) (-((Real.pi / 6 : ℝ) : ℂ))) = .ok sol' ∧
    sol.result.res_te_inc = some te ∧ sol.result.res_tm_inc = some tm ∧
    sol'.result.res_te_inc = some te' ∧ sol'.result.res_tm_inc = some tm' ∧
    ∀ j i, Spec.rowOrder j = 0 → Spec.colOrder i = 0 →
      Spec.ReciprocalTransmission 1 1 (Complex.cos ((Real.pi / 6 : ℝ) : ℂ)) (Complex.cos (-((Real.pi / 6 : ℝ) : ℂ)))
        te tm te' tm' j i := by
  obtain ⟨o, h⟩ := exCon_ok pol
  obtain ⟨o', h'⟩ := exCon_opp_ok pol
  have hg : gratingType (exSettings pol (some 0)) = 1 := by simp [gratingType, exSettings, exCell, exParams]
  have hr := exParams_real pol (some 0) (by intro φ h; cases h; rfl)
  obtain ⟨te, tm, te', tm', k⟩ := C53_transmission exLA exLA (exSettings pol (some 0)) (-((Real.pi / 6 : ℝ) : ℂ))
    hr (illumination_opposite hr) (backwards_example pol (some 0)) rfl rfl rfl (by rw [hg]; exact one_ne_zero) _ _ h h'
  exact ⟨_, _, te, tm, te', tm', h, h', k⟩

end Meent

#print axioms Meent.C53_transmission_psi
#print axioms Meent.C53_transmission_tetm
#print axioms Meent.C53_transmission
