import Verif.Lemmas.ReciprocitySolve
import Verif.Lemmas.ReciprocityExample
import Verif.Spec.Reciprocity
import Verif.Props.C49

/-!
# C51: reciprocity of specular reflection
-/

namespace Meent

/-- **C51, TE and TM.** For every structure (lossy or not, symmetric or not), substrate, and real illumination from a
lossless cover (plain inverses, any two eigensolvers): the specularly reflected amplitude and efficiency do not change
when the light comes from the opposite side. -/
theorem C51_reflection_tetm (la la' : LinAlg) (s : Settings) (hi : Spec.RealIllumination s.p) (hp : s.p.use_pinv = false)
    (o o' : Out1D (2 * s.p.fto.1 + 1)) (h : conv_solve la s = .ok (.tetm o))
    (h' : conv_solve la' (Spec.opposite s) = .ok (.tetm o')) :
    ∀ i, Spec.colOrder i = 0 → Spec.SameSpecular o.res o'.res 0 i := by
  intro i h0
  obtain rfl := colOrder_zero.mp h0
  obtain ⟨cs, hc, fs, hd⟩ := tetm_bvp hp (RealIllumination.n_top_ne hi) h
  obtain ⟨cs', hc', gs, hd'⟩ := tetm_bvp (s := Spec.opposite s) hp (RealIllumination.n_top_ne (illumination_opposite hi)) h'
  obtain rfl : cs = cs' := Except.ok.inj (hc.symm.trans ((convMats_la la la' hp).trans hc'))
  have hg := (conv_solve_tetm.mp h).choose_spec.2.1
  obtain ⟨u, hu, hy, hpol, hphi, hf⟩ := gratingType_zero hg
  have hJ := convMats_persym hp hc
  have key := refl_core1 hi hphi (fun c hcm => by
    obtain ⟨c0, h1, rfl⟩ := List.mem_map.mp hcm
    exact row_persym hf (hJ c0 h1)) hd hd'
  have f := eff_ctr1 hi h
  have f' := eff_ctr1 (s := Spec.opposite s) (illumination_opposite hi) h'
  have hs : o'.res.R_s 0 (ctr _) = o.res.R_s 0 (ctr _) := by
    rcases tetm_other hp h with ⟨h0, -⟩ | ⟨h0, h1, -⟩
    · rwa [if_pos h0] at key
    · rcases tetm_other (s := Spec.opposite s) hp h' with ⟨h2, -⟩ | ⟨-, h2, -⟩
      · rw [show (Spec.opposite s).p.pol = s.p.pol from rfl, h0] at h2; exact absurd h2 one_ne_zero
      · exact (h2 0 (ctr _)).trans (h1 0 (ctr _)).symm
  have hpp : o'.res.R_p 0 (ctr _) = o.res.R_p 0 (ctr _) := by
    rcases tetm_other hp h with ⟨h0, h1, -⟩ | ⟨h0, -⟩
    · rcases tetm_other (s := Spec.opposite s) hp h' with ⟨-, h2, -⟩ | ⟨h2, -⟩
      · exact (h2 0 (ctr _)).trans (h1 0 (ctr _)).symm
      · rw [show (Spec.opposite s).p.pol = s.p.pol from rfl, h0] at h2; exact absurd h2 zero_ne_one
    · rwa [if_neg (by rw [h0]; exact one_ne_zero)] at key
  have g1 : o'.res.de_ri_s 0 (ctr _) = o.res.de_ri_s 0 (ctr _) :=
    f'.1.trans ((congrArg (fun z => ‖z‖ ^ 2) hs).trans f.1.symm)
  have g2 : o'.res.de_ri_p 0 (ctr _) = o.res.de_ri_p 0 (ctr _) :=
    f'.2.1.trans ((congrArg (fun z => ‖z‖ ^ 2) hpp).trans f.2.1.symm)
  exact ⟨hs, hpp, g1, g2, f'.2.2.trans ((congrArg₂ (· + ·) g1 g2).trans f.2.2.symm)⟩

/-- **C51, conical and 2D.** The same with polarization: s to s and p to p reflection are unchanged, and s to p
reflection becomes p to s reflection. -/
theorem C51_reflection (la la' : LinAlg) (s : Settings) (hi : Spec.RealIllumination s.p) (hp : s.p.use_pinv = false)
    (ha : s.algo = .tmm) (hg : gratingType s ≠ 0) (sol sol' : Solved s.p.fto.1 s.p.fto.2)
    (h : conv_solve la s = .ok sol) (h' : conv_solve la' (Spec.opposite s) = .ok sol') :
    ∃ te tm te' tm', sol.result.res_te_inc = some te ∧ sol.result.res_tm_inc = some tm ∧
      sol'.result.res_te_inc = some te' ∧ sol'.result.res_tm_inc = some tm' ∧
      ∀ j i, Spec.rowOrder j = 0 → Spec.colOrder i = 0 → Spec.Reciprocal s.p.n_top te tm te' tm' j i := by
  have hn := RealIllumination.n_top_ne hi
  obtain ⟨cs, y, te, tm, hc, er, -, ⟨fs, d1⟩, fs2, d2⟩ := solved_bvp hp ha hn hg h
  obtain ⟨cs', y', te', tm', hc', er', -, ⟨gs, d1'⟩, gs2, d2'⟩ := solved_bvp (s := Spec.opposite s) hp ha hn hg h'
  obtain rfl : cs = cs' := Except.ok.inj (hc.symm.trans ((convMats_la la la' hp).trans hc'))
  have hJ := convMats_persym hp hc
  refine ⟨te, tm, te', tm', by rw [er], by rw [er], by rw [er'], by rw [er'], fun j i hj h0 => ?_⟩
  obtain rfl := colOrder_zero.mp h0
  obtain rfl := rowOrder_zero.mp hj
  have k1 := refl_core hi hJ d1 d1'
  have k2 := refl_core hi hJ d2 d2'
  have k3 := refl_core hi hJ d1 d2'
  have k4 := refl_core hi hJ d2 d1'
  unfold recip at k1 k2 k3 k4
  simp only [Complex.ofReal_div, Complex.ofReal_ofNat, Complex.sin_pi_div_two, Complex.cos_pi_div_two, Complex.sin_zero,
    Complex.cos_zero, one_mul, zero_mul, mul_zero, zero_div, add_zero, zero_add, mul_one] at k1 k2 k3 k4
  have e1 : tm'.R_p (ctr _) (ctr _) = tm.R_p (ctr _) (ctr _) := by
    have := Complex.I_ne_zero
    field_simp at k2
    exact k2
  have e2 : s.p.n_top * tm'.R_s (ctr _) (ctr _) = Complex.I * te.R_p (ctr _) (ctr _) := by rw [k3]; field_simp
  have e3 : Complex.I * te'.R_p (ctr _) (ctr _) = s.p.n_top * tm.R_s (ctr _) (ctr _) := by rw [← k4]; field_simp
  have f1 := eff_ctr hi h hg (x := te) (by rw [er]; exact .inr (.inl rfl))
  have f2 := eff_ctr hi h hg (x := tm) (by rw [er]; exact .inr (.inr rfl))
  have hi' := illumination_opposite hi
  have f1' := eff_ctr (s := Spec.opposite s) hi' h' hg (x := te') (by rw [er']; exact .inr (.inl rfl))
  have f2' := eff_ctr (s := Spec.opposite s) hi' h' hg (x := tm') (by rw [er']; exact .inr (.inr rfl))
  have hr : s.p.n_top = ((s.p.n_top.re : ℝ) : ℂ) := (RealIncidence.of_spec hi).hn
  exact ⟨k1, e1, e2, e3, f1'.1.trans ((congrArg (fun z => ‖z‖ ^ 2) k1).trans f1.1.symm),
    f2'.2.trans ((congrArg (fun z => ‖z‖ ^ 2 / s.p.n_top.re ^ 2) e1).trans f2.2.symm),
    f2'.1.trans ((refl_eff hr hi.n_top_pos e2).trans f1.2.symm),
    f1'.2.trans ((refl_eff hr hi.n_top_pos e3.symm).symm.trans f2.1.symm)⟩

/-- **C51, any polarization.** For the configured polarization angle `ψ`, the amplitude of the specularly reflected
wave on the incident polarization is the same from both sides. -/
theorem C51_reflection_psi (la la' : LinAlg) (s : Settings) (hi : Spec.RealIllumination s.p) (hp : s.p.use_pinv = false)
    (ha : s.algo = .tmm) (hg : gratingType s ≠ 0) (sol sol' : Solved s.p.fto.1 s.p.fto.2)
    (h : conv_solve la s = .ok sol) (h' : conv_solve la' (Spec.opposite s) = .ok sol') :
    ∃ r r', sol.result.res = some r ∧ sol'.result.res = some r' ∧
      ∀ j i, Spec.rowOrder j = 0 → Spec.colOrder i = 0 →
        s.p.n_top * Complex.sin s.p.psi * r'.R_s j i + Complex.I * Complex.cos s.p.psi * r'.R_p j i
          = s.p.n_top * Complex.sin s.p.psi * r.R_s j i + Complex.I * Complex.cos s.p.psi * r.R_p j i := by
  have hn := RealIllumination.n_top_ne hi
  obtain ⟨cs, y, te, tm, hc, er, ⟨fs, d1⟩, -⟩ := solved_bvp hp ha hn hg h
  obtain ⟨cs', y', te', tm', hc', er', ⟨gs, d1'⟩, -⟩ := solved_bvp (s := Spec.opposite s) hp ha hn hg h'
  obtain rfl : cs = cs' := Except.ok.inj (hc.symm.trans ((convMats_la la la' hp).trans hc'))
  refine ⟨y, y', by rw [er], by rw [er'], fun j i hj h0 => ?_⟩
  obtain rfl := colOrder_zero.mp h0
  obtain rfl := rowOrder_zero.mp hj
  have k1 := refl_core hi (convMats_persym hp hc) d1 d1'
  unfold recip at k1
  field_simp at k1
  linear_combination k1

/-- Non-vacuity: the two-pixel grating at 30° and at -30°, TE, TM, conical and (with two rows) 2D. -/
example : ∃ o o', conv_solve exLA (exSettings 0 none) = .ok (.tetm o) ∧
    conv_solve exLA (Spec.opposite (exSettings 0 none)) = .ok (.tetm o') ∧
    ∀ i, Spec.colOrder i = 0 → Spec.SameSpecular o.res o'.res 0 i := by
  obtain ⟨o, h⟩ := exTE_ok
  obtain ⟨o', h'⟩ := exTE_opp_ok
  exact ⟨o, o', h, h', C51_reflection_tetm exLA exLA (exSettings 0 none) (exParams_real 0 none (by simp)) rfl o o' h h'⟩

example : ∃ o o', conv_solve exLA (exSettings 1 none) = .ok (.tetm o) ∧
    conv_solve exLA (Spec.opposite (exSettings 1 none)) = .ok (.tetm o') ∧
    ∀ i, Spec.colOrder i = 0 → Spec.SameSpecular o.res o'.res 0 i := by
  obtain ⟨o, h⟩ := exTM_ok
  obtain ⟨o', h'⟩ := exTM_opp_ok
  exact ⟨o, o', h, h', C51_reflection_tetm exLA exLA (exSettings 1 none) (exParams_real 1 none (by simp)) rfl o o' h h'⟩

example (pol : ℝ) : ∃ sol sol' te tm te' tm', conv_solve exLA (exSettings pol (some 0)) = .ok sol ∧
    conv_solve exLA (Spec.opposite (exSettings pol (some 0))) = .ok sol' ∧
    sol.result.res_te_inc = some te ∧ sol.result.res_tm_inc = some tm ∧
    sol'.result.res_te_inc = some te' ∧ sol'.result.res_tm_inc = some tm' ∧
    ∀ j i, Spec.rowOrder j = 0 → Spec.colOrder i = 0 →
      Spec.Reciprocal (exSettings pol (some 0)).p.n_top te tm te' tm' j i := by
  obtain ⟨o, h⟩ := exCon_ok pol
  obtain ⟨o', h'⟩ := exCon_opp_ok pol
  have hg : gratingType (exSettings pol (some 0)) = 1 := by simp [gratingType, exSettings, exCell, exParams]
  obtain ⟨te, tm, te', tm', k⟩ := C51_reflection exLA exLA (exSettings pol (some 0))
    (exParams_real pol (some 0) (by intro φ h; cases h; rfl)) rfl rfl (by rw [hg]; exact one_ne_zero) _ _ h h'
  exact ⟨_, _, te, tm, te', tm', h, h', k⟩

example (pol : ℝ) : ∃ sol sol',
    conv_solve exLA (Spec.withUcell (exSettings pol (some 0)) (Spec.yInvariant 2 2 [exRow])) = .ok sol ∧
    conv_solve exLA (Spec.opposite (Spec.withUcell (exSettings pol (some 0)) (Spec.yInvariant 2 2 [exRow]))) = .ok sol' ∧
    gratingType (Spec.withUcell (exSettings pol (some 0)) (Spec.yInvariant 2 2 [exRow])) ≠ 0 := by
  obtain ⟨o, h⟩ := exTwoD_ok pol
  obtain ⟨o', h'⟩ := exTwoD_opp_ok pol
  exact ⟨_, _, h, h', by simp [gratingType]⟩

end Meent

#print axioms Meent.C51_reflection_tetm
#print axioms Meent.C51_reflection
#print axioms Meent.C51_reflection_psi
