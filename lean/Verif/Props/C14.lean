import Verif.Lemmas.BareExample
import Verif.Props.C16

/-!
# C14: output arrays are indexed by diffraction order
-/

open Matrix

namespace Meent

/-- **C14, efficiencies.**  For real claddings, entry `[j, i]` of every efficiency array is the squared modulus of
the amplitude at `[j, i]` weighted with the longitudinal wavenumber of order `(i - fto_x, j - fto_y)`: by
`Spec.EfficiencyLaw`, with the p amplitudes normalised as magnetic fields of unit amplitude in the TE/TM
solver and of amplitude `n_top` in the others.  (The shape `(2 fto_y + 1, 2 fto_x + 1)` is that of the index types.) -/
theorem C14_efficiency_order (la : LinAlg) (s : Settings) (h : Spec.RealIllumination s.p) (hb : Spec.IsReal s.p.n_bot)
    (sol : Solved s.p.fto.1 s.p.fto.2) (hs : conv_solve la s = .ok sol) (x) (hx : Spec.Reports sol.result x) :
    (gratingType s = 0 → Spec.EfficiencyLaw s.p 1 (s.p.n_top.re ^ 2 / s.p.n_bot.re ^ 2) x) ∧
    (gratingType s ≠ 0 → Spec.EfficiencyLaw s.p (1 / s.p.n_top.re ^ 2) (1 / s.p.n_bot.re ^ 2) x) := by
  have law := conv_solve_law h hb hs hx
  unfold pWeights at law
  constructor
  · intro hg; rw [if_pos hg] at law; exact law
  · intro hg; rw [if_neg hg] at law; exact law

/-- **C14, flattened order.**  The flat index of entry `[j, i]` used by the solvers and by the convolution matrices
carries x order `i - fto_x` and y order `j - fto_y`. -/
theorem C14_flat_order {fx fy : ℕ} (j : Fin (2 * fy + 1)) (i : Fin (2 * fx + 1)) :
    Spec.orderX (finProdFinEquiv (j, i) : FlatIdx fx fy) = Spec.colOrder i ∧
    Spec.orderY (finProdFinEquiv (j, i) : FlatIdx fx fy) = Spec.rowOrder j ∧
    Spec.rowOf (finProdFinEquiv (j, i) : FlatIdx fx fy) = j := by
  refine ⟨?_, ?_, divNat_prod j i⟩
  · have := congrArg Fin.val (modNat_prod j i)
    rw [Fin.coe_modNat] at this
    unfold Spec.orderX Spec.colOrder
    rw [this]
  · have := congrArg Fin.val (divNat_prod j i)
    rw [Fin.coe_divNat] at this
    unfold Spec.orderY Spec.rowOrder
    rw [this]

/-- **C14, convolution matrices.**  In the discrete Fourier type the direct matrix of every layer couples entry
`[j, i]` to entry `[j', i']` by the Fourier coefficient of the order difference `(i' - i, j' - j)`. -/
theorem C14_conv_order (la : LinAlg) (u : Ucell) (hy : 0 < u.ny) (hx : 0 < u.nx) (fx fy : ℕ)
    (enh : Bool) (convs : List (Conv (FlatIdx fx fy)))
    (h : to_conv_mat_raster_discrete la u fx fy enh false = .ok convs) :
    List.Forall₂ (fun layer c => ∃ (Ny Nx : ℕ) (img : Fin Ny → Fin Nx → ℂ), Spec.IsRepeated layer img ∧
      IsUnit c.epzi.det ∧ ∀ j i j' i',
        c.epzi⁻¹ (finProdFinEquiv (j, i)) (finProdFinEquiv (j', i'))
          = Spec.dftCoeff2 (fun y x => img y x ^ 2) (Spec.colOrder i' - Spec.colOrder i) (Spec.rowOrder j' - Spec.rowOrder j))
      u.layers convs := by
  refine (C16_discrete_conv la u hy hx fx fy enh convs h).imp fun layer c hc => ?_
  obtain ⟨Ny, Nx, img, h1, -, -, ⟨epz, h2, h3, h4⟩, -, -⟩ := hc.spec
  refine ⟨Ny, Nx, img, h1, ?_, fun j i j' i' => ?_⟩
  · rw [h4]; exact isUnit_nonsing_inv_det _ h3
  · rw [h4, nonsing_inv_nonsing_inv _ h3, h2, (C14_flat_order j i).1, (C14_flat_order j' i').1, (C14_flat_order j i).2.1,
      (C14_flat_order j' i').2.1]

/-- With no layers the structure does not matter, so it may be replaced by an empty (flat) one. -/
private theorem bare_flat {la : LinAlg} {s : Settings} (ht : s.p.thickness = []) {sol : Solved s.p.fto.1 s.p.fto.2}
    (h : conv_solve la s = .ok sol) :
    ∃ u', Spec.FlatStructure u' ∧ gratingType (Spec.withUcell s u') = gratingType s ∧
      conv_solve la (Spec.withUcell s u') = .ok sol := by
  have hu : ∃ u', Spec.FlatStructure u' ∧ gratingType (Spec.withUcell s u') = gratingType s ∧
      ((∃ cs, convMats la s = .ok cs) → convMats la (Spec.withUcell s u') = .ok []) := by
    cases hc : s.ucell with
    | vector ls =>
      refine ⟨.vector [], by simp [Spec.FlatStructure], by simp [gratingType, hc], fun _ => ?_⟩
      exact (convMats_vector rfl).mpr rfl
    | raster u =>
      by_cases hy : u.ny = 1
      · refine ⟨.raster ⟨1, 1, []⟩, ⟨Nat.one_pos, Nat.one_pos, by simp⟩, by simp [gratingType, hc, hy], ?_⟩
        rintro ⟨cs, hcs⟩
        exact (convMats_raster rfl).mpr ⟨((convMats_raster hc).mp hcs).1, rfl⟩
      · refine ⟨.vector [], by simp [Spec.FlatStructure], by simp [gratingType, hc, hy], fun _ => ?_⟩
        exact (convMats_vector rfl).mpr rfl
  obtain ⟨u', h1, h2, h3⟩ := hu
  refine ⟨u', h1, h2, ?_⟩
  obtain ⟨cs, hcs, hsol⟩ := conv_solve_ok.mp h
  refine conv_solve_ok.mpr ⟨[], h3 ⟨cs, hcs⟩, ?_⟩
  rw [← hsol]
  have e1 : ∀ cs cs', solve_1d la s.p s.p.wavelength cs = solve_1d la s.p s.p.wavelength cs' := by
    intro cs cs'
    unfold solve_1d
    simp only [ht, List.length_nil, layerLoop]
  have e2 : ∀ cs cs', solve_1d_conical la s.p s.p.wavelength cs = solve_1d_conical la s.p s.p.wavelength cs' := by
    intro cs cs'
    unfold solve_1d_conical
    simp only [ht, List.length_nil, layerLoop]
  have e3 : ∀ cs cs', solve_2d la s.p s.p.wavelength cs = solve_2d la s.p s.p.wavelength cs' := by
    intro cs cs'
    unfold solve_2d
    simp only [ht, List.length_nil, layerLoop]
  unfold solve_for_conv
  rw [h2]
  simp only [e1 _ (cs.map Conv.row), e2 _ cs, e3 _ cs]

/-- **C14, injection.**  Light sent through an interface that is none (no layer, `n_bot = n_top`) comes out unchanged:
nothing is reflected, and the transmitted amplitudes are those of the incident wave at order `(0, 0)` and zero at every
other order, in each formulation.  The p amplitude is 1 in the TE/TM solver and `i n_top cos ψ` in the others. -/
theorem C14_injection (la : LinAlg) (s : Settings) (hp : s.p.use_pinv = false) (ht : s.p.thickness = [])
    (h : Spec.RealIllumination s.p) (hb : s.p.n_bot = s.p.n_top) (hpx : s.p.period.1 ≠ 0) (hpy : s.p.period.2 ≠ 0)
    (sol : Solved s.p.fto.1 s.p.fto.2) (hs : conv_solve la s = .ok sol) (x) (hx : sol.result.res = some x) (j i) :
    (x.R_s j i = 0 ∧ x.R_p j i = 0) ∧
    (¬(Spec.colOrder i = 0 ∧ Spec.rowOrder j = 0) → x.T_s j i = 0 ∧ x.T_p j i = 0) ∧
    (Spec.colOrder i = 0 → Spec.rowOrder j = 0 →
      (gratingType s = 0 → (s.p.pol = 0 → x.T_s j i = 1 ∧ x.T_p j i = 0) ∧ (s.p.pol = 1 → x.T_s j i = 0 ∧ x.T_p j i = 1)) ∧
      (gratingType s ≠ 0 → x.T_s j i = Complex.sin s.p.psi ∧
        x.T_p j i = Complex.I * s.p.n_top * Complex.cos s.p.psi)) := by
  have hinc := RealIncidence.of_spec h
  -- away from the specular order
  have hoff : ¬(Spec.colOrder i = 0 ∧ Spec.rowOrder j = 0) →
      x.R_s j i = 0 ∧ x.R_p j i = 0 ∧ x.T_s j i = 0 ∧ x.T_p j i = 0 := by
    intro hji
    obtain ⟨u', h1, h2, h3⟩ := bare_flat ht hs
    exact flat_zero (s := Spec.withUcell s u') hp (fun cs hcs => convMats_flat (s := Spec.withUcell s u') h1 hpx hpy hcs) h3 (.inl hx)
      (by rw [deltaI0_order, if_neg hji])
  -- at the specular order
  have hk0 : s.p.n_top * Complex.cos s.p.theta ≠ 0 := by
    rw [hinc.cos_eq, hinc.hn, ← Complex.ofReal_mul]
    exact_mod_cast (mul_pos h.n_top_pos hinc.cos_pos).ne'
  have hnt : s.p.n_top ≠ 0 := fun h0 => hk0 (by rw [h0, zero_mul])
  have hct : Complex.cos s.p.theta ≠ 0 := fun h0 => hk0 (by rw [h0, mul_zero])
  have hat : Spec.colOrder i = 0 → Spec.rowOrder j = 0 → x.R_s j i = 0 ∧ x.R_p j i = 0 ∧
      (gratingType s = 0 → (s.p.pol = 0 → x.T_s j i = 1 ∧ x.T_p j i = 0) ∧ (s.p.pol = 1 → x.T_s j i = 0 ∧ x.T_p j i = 1)) ∧
      (gratingType s ≠ 0 → x.T_s j i = Complex.sin s.p.psi ∧
        x.T_p j i = Complex.I * s.p.n_top * Complex.cos s.p.psi) := by
    intro h0i h0j
    by_cases hg : gratingType s = 0
    · have hphi := (gratingType_zero hg).choose_spec.2.2.2.1
      rcases conv_solve_cases hs with ⟨-, o, rfl⟩ | ⟨h1, -⟩ | ⟨h1, -⟩
      · obtain ⟨cs, -, -, -, hs'⟩ := conv_solve_tetm.mp hs
        obtain ⟨R, T, hT, hcase⟩ := bare_1d hp ht hs'
        obtain rfl : o.res.row1 s.p.fto.2 = x := Option.some.inj hx
        have hδ : (deltaI0 i : ℂ) = 1 := by rw [deltaI0_eq, if_pos (colOrder_zero.mp h0i)]
        have kzt : kz1d s.p.n_top (kxVec s.p s.p.wavelength) i = s.p.n_top * Complex.cos s.p.theta := by
          rw [colOrder_zero.mp h0i, hinc.kz_ctr hphi, hinc.cos_eq, Complex.ofReal_mul, ← hinc.hn]
        have hTi : T i = R i + 1 := by rw [hT, Pi.add_apply, hδ]
        have hz : (s.p.pol = 0 → ∀ j i, o.res.R_p j i = 0 ∧ o.res.T_p j i = 0) ∧
            (s.p.pol = 1 → ∀ j i, o.res.R_s j i = 0 ∧ o.res.T_s j i = 0) := by
          obtain ⟨hl, init, r, y, hi', hr, hy, rfl⟩ := (solve_1d_iff hp).mp hs'
          obtain ⟨R', T', hF, hT', hde, ⟨h0, -, -, -, -, a, b⟩ | ⟨h0, -, -, -, -, a, b⟩⟩ := transfer_1d_4_ok hy
          · exact ⟨fun _ j i => ⟨a j i, b j i⟩, fun h1 => absurd (h0.symm.trans h1) zero_ne_one⟩
          · exact ⟨fun h1 => absurd (h1.symm.trans h0) zero_ne_one, fun _ j i => ⟨a j i, b j i⟩⟩
        rcases hcase with ⟨h0, hR, hT', he⟩ | ⟨h0, hR, hT', he⟩
        · have he := he i
          rw [hδ, hb, kzt, hTi] at he
          have r0 : R i = 0 := by
            have : s.p.n_top * Complex.cos s.p.theta * (2 * R i) = 0 := by linear_combination he
            simpa using (mul_eq_zero.mp this).resolve_left hk0
          refine ⟨(congrFun (hR 0) i).trans r0, (hz.1 h0 0 i).1, fun _ => ⟨fun _ => ⟨?_, (hz.1 h0 0 i).2⟩,
            fun h1 => absurd (h0.symm.trans h1) zero_ne_one⟩, fun h => absurd hg h⟩
          refine (congrFun (hT' 0) i).trans ?_
          rw [hTi, r0, zero_add]
        · have he := he i
          rw [hδ, hb, kzt, hTi] at he
          have r0 : R i = 0 := by
            have e : s.p.n_top * Complex.cos s.p.theta / s.p.n_top ^ 2 = Complex.cos s.p.theta / s.p.n_top := by field_simp
            rw [e] at he
            have : Complex.cos s.p.theta / s.p.n_top * (2 * R i) = 0 := by linear_combination he
            simpa using (mul_eq_zero.mp this).resolve_left (div_ne_zero hct hnt)
          refine ⟨(hz.2 h0 0 i).1, (congrFun (hR 0) i).trans r0, fun _ => ⟨fun h1 => absurd (h1.symm.trans h0) zero_ne_one,
            fun _ => ⟨(hz.2 h0 0 i).2, ?_⟩⟩, fun h => absurd hg h⟩
          refine (congrFun (hT' 0) i).trans ?_
          rw [hTi, r0, zero_add]
      · omega
      · omega
    · have ha : s.algo = .tmm := by
        rcases conv_solve_cases hs with ⟨h1, -⟩ | ⟨h1, ⟨o, rfl⟩ | rfl⟩ | ⟨h1, o, rfl⟩
        · exact absurd h1 hg
        · obtain ⟨_, _, _, h, _⟩ := conv_solve_conical.mp hs; exact h
        · cases hx
        · obtain ⟨_, _, _, h, _⟩ := conv_solve_twoD.mp hs; exact h
      obtain ⟨x', xe, xm, e, hB⟩ := bare_2d hp ht ha hg hs
      rw [e] at hx
      obtain rfl : x' = x := Option.some.inj hx
      obtain ⟨q1, q2, q3, q4⟩ := hB j i
      rw [deltaI0_order, if_pos ⟨h0i, h0j⟩, mul_one] at q1 q2 q3 q4
      have kzt : kz2d s.p.n_top (kxF s.p s.p.wavelength) (kyF s.p s.p.wavelength) (finProdFinEquiv (j, i))
          = s.p.n_top * Complex.cos s.p.theta := by
        have := hinc.kz_ctr2 (phi_getD_real h) s.p.wavelength
        rw [colOrder_zero.mp h0i, rowOrder_zero.mp h0j]
        refine this.trans ?_
        rw [hinc.cos_eq, Complex.ofReal_mul, ← hinc.hn]
      rw [hb, kzt] at q2 q4
      have r0 : x'.R_s j i = 0 := by
        rw [q1] at q2
        have : s.p.n_top * Complex.cos s.p.theta * (2 * x'.R_s j i) = 0 := by linear_combination q2
        simpa using (mul_eq_zero.mp this).resolve_left hk0
      have r1 : x'.R_p j i = 0 := by
        have e : s.p.n_top * Complex.cos s.p.theta / s.p.n_top ^ 2 = Complex.cos s.p.theta / s.p.n_top := by field_simp
        have e2 : Complex.cos s.p.theta / s.p.n_top * s.p.n_top = Complex.cos s.p.theta := by field_simp
        rw [e, q3] at q4
        have : Complex.cos s.p.theta / s.p.n_top * (2 * x'.R_p j i) = 0 := by
          linear_combination q4 - Complex.I * Complex.cos s.p.psi * e2
        simpa using (mul_eq_zero.mp this).resolve_left (div_ne_zero hct hnt)
      refine ⟨r0, r1, fun h => absurd h hg, fun _ => ⟨?_, ?_⟩⟩
      · rw [q1, r0, zero_add]
      · rw [q3, r1, zero_add]
  by_cases hji : Spec.colOrder i = 0 ∧ Spec.rowOrder j = 0
  · obtain ⟨a1, a2, a3, a4⟩ := hat hji.1 hji.2
    exact ⟨⟨a1, a2⟩, fun h => absurd hji h, fun _ _ => ⟨a3, a4⟩⟩
  · obtain ⟨a1, a2, a3, a4⟩ := hoff hji
    exact ⟨⟨a1, a2⟩, fun _ => ⟨a3, a4⟩, fun h1 h2 => absurd ⟨h1, h2⟩ hji⟩

/-- Non-vacuity of `C14_injection`: index 2 on both sides, 30 degrees, TE/TM and conical solvers. -/
example (la : LinAlg) : (∃ o, conv_solve la (bareSettings (2 : ℝ) 0 none) = .ok (.tetm o)) ∧
    (∀ pol, ∃ o, conv_solve la (bareSettings (2 : ℝ) pol (some 0)) = .ok (.conical o)) ∧
    (bareSettings (2 : ℝ) 0 none).p.n_bot = (bareSettings (2 : ℝ) 0 none).p.n_top := by
  refine ⟨bareSettings_ok la _ 0 (.inl rfl) ?_, fun pol => bareSettings_con_ok la 2 two_pos pol, by simp [bareSettings]⟩
  have e : star (csqrt (((2 : ℝ) : ℂ) ^ 2 - 1)) = ((Real.sqrt 3 : ℝ) : ℂ) := by
    rw [show ((2 : ℝ) : ℂ) ^ 2 - 1 = 3 by push_cast; norm_num, sqrt3_csqrt]
  rw [e]
  simp only [dy, if_true]
  rw [← Complex.ofReal_add]
  have h3 : 0 < Real.sqrt 3 := Real.sqrt_pos.mpr (by norm_num)
  exact_mod_cast (by positivity : (0 : ℝ) < Real.sqrt 3 + Real.sqrt 3).ne'

/-- Non-vacuity of `C14_efficiency_order` and `C14_conv_order`: the two-pixel grating. -/
example : Spec.RealIllumination (exSettings 0 none).p ∧ (∃ o, conv_solve exLA (exSettings 0 none) = .ok (.tetm o)) ∧
    to_conv_mat_raster_discrete exLA exCell 0 0 false false = .ok [exConv] :=
  ⟨(exSettings_lossless 0 none (by simp)).toRealIllumination, exTE_ok, exCell_conv exLA⟩

end Meent

#print axioms Meent.C14_efficiency_order
#print axioms Meent.C14_flat_order
#print axioms Meent.C14_conv_order
#print axioms Meent.C14_injection
