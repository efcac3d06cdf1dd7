import Verif.Lemmas.TorchNeg
import Verif.Props.C08
import Verif.Props.C08Torch
import Verif.Props.C12

/-!
# C40: the PyTorch and the NumPy backend report the same efficiencies

Both backends are given the same settings (`s` and `s.torch`) and the same linear algebra.

* `C40_tetm`: the TE/TM solver, any pixel structure, lossless claddings.
* `C40_pure`: the conical and 2D solvers at `pol = 0` or `pol = 1` (`sin ψ = 0` or `cos ψ = 0`), and the
  dictionaries for pure TE and TM incidence at every `ψ`.
* `C40_psi`: the same at every polarization angle, but NumPy has to be given `π - ψ`.
* `C40_phi_zero`: `phi = 0` on a 1D grating, where PyTorch dispatches to the TE/TM solver and NumPy to the conical one.
* `C40_mixed_negation`: for mixed polarization the property is false.
* `C40_absorbing_negation`: for an absorbing substrate the property is false.
-/

open Matrix

namespace Meent

/-- **C40, TE/TM solver.**  Whenever NumPy succeeds so does PyTorch, the efficiencies are identical and the
amplitudes are conjugated and signed order by order. -/
theorem C40_tetm_partial {la : LinAlg} {s : Settings} (h : Spec.LosslessCladdings s.p) (hg : gratingType s = 0)
    {sol : Solved s.p.fto.1 s.p.fto.2} (hs : conv_solve la s = .ok sol) :
    ∃ sol' : Solved s.p.fto.1 s.p.fto.2, tConv_solve la s.torch = .ok sol' ∧
      Spec.SameEfficiencies sol.result sol'.result ∧
      ∃ x x' σ, sol.result.res = some x ∧ sol'.result.res = some x' ∧ Spec.IsSigns σ ∧
        Spec.ConjAmplitudes σ 1 1 x x' := by
  rcases conv_solve_cases hs with ⟨-, o, rfl⟩ | ⟨h1, -⟩ | ⟨h1, -⟩
  · obtain ⟨o', ho', e1, e2⟩ := tetm_torch h hs
    refine ⟨.tetm o', ho', ⟨Option.Rel.some ?_, Option.Rel.none, Option.Rel.none⟩,
      _, _, phaseConv (tKxVec s.p s.p.wavelength), rfl, rfl, phaseConv_signs _, ?_⟩
    · obtain ⟨a1, a2, a3, a4, a5, a6⟩ := e1
      constructor <;> simp only [SubRes.row1] <;> funext j i <;> simp only [*]
    · obtain ⟨b1, b2, b3, b4⟩ := e2
      constructor <;> intro j i <;> simp only [SubRes.row1]
      · exact b1 _ _
      · exact b2 _ _
      · exact b3 _ _
      · exact b4 _ _
  · omega
  · omega

private theorem neg_signs {n : ℕ} {σ : Fin n → ℂ} (h : Spec.IsSigns σ) : Spec.IsSigns (fun i => -σ i) := by
  intro i
  rcases h i with h | h
  · right; show -σ i = -1; rw [h]
  · left; show -σ i = 1; rw [h]; norm_num

private theorem agree {la : LinAlg} {s : Settings} (h : Spec.LosslessCladdings s.p) {psi0 c : ℂ} (hc : c = 1 ∨ c = -1)
    (he : tFinalB (m := FlatIdx s.p.fto.1 s.p.fto.2) deltaI0 s.p.psi s.p.theta s.p.n_top
      = c • finalB deltaI0 psi0 s.p.theta s.p.n_top)
    (hg : gratingType s = 2 ∨ (gratingType s = 1 ∧ (s.p.phi ≠ some 0 ∨ ¬ (s.p.pol = 0 ∨ s.p.pol = 1)))) (ha : s.algo = .tmm)
    {sol : Solved s.p.fto.1 s.p.fto.2} (hs : conv_solve la (Spec.withPsi s psi0) = .ok sol) (hq : Spec.ModesAway sol) :
    ∃ sol' : Solved s.p.fto.1 s.p.fto.2, tConv_solve la s.torch = .ok sol' ∧
      Spec.AgreeUpToConvention s.p.n_top s.p.n_bot sol.result sol'.result := by
  obtain ⟨sol', x, x', h1, h2, h3, t, N, hT⟩ := out4_torch h psi0 hg ha hs hq
  have ht0 : s.p.n_top ≠ 0 := fun h0 => by have := h.n_top_pos; rw [h0] at this; simp at this
  have hb0 : s.p.n_bot ≠ 0 := fun h0 => by have := h.n_bot_pos; rw [h0] at this; simp at this
  obtain ⟨⟨a1, a2⟩, ⟨b1, b2⟩, ⟨c1, c2⟩⟩ := hT.rel hc he h.n_top_real ht0 h.n_bot_real hb0
  have hσ := phaseConv_signs (tKxVec s.p s.p.wavelength)
  refine ⟨sol', h1, ?_⟩
  rw [h2, h3]
  refine ⟨⟨Option.Rel.some a1, Option.Rel.some b1, Option.Rel.some c1⟩, ⟨_, _, _, rfl, rfl, ?_, a2⟩,
    ⟨_, _, _, _, rfl, rfl, hσ, Or.inl rfl, b2⟩, ⟨_, _, _, _, rfl, rfl, neg_signs hσ, Or.inr rfl, c2⟩⟩
  intro i
  rcases hc with rfl | rfl
  · simp only [one_mul]; exact hσ i
  · simp only [neg_one_mul]; exact neg_signs hσ i

/-- **C40, conical and 2D solvers, pure polarization.**  Every 2D structure and every 1D grating under conical
mounting, unless `phi` is the number zero and `pol` is 0 or 1. -/
theorem C40_pure_partial {la : LinAlg} {s : Settings} (h : Spec.LosslessCladdings s.p)
    (hpsi : Complex.sin s.p.psi = 0 ∨ Complex.cos s.p.psi = 0)
    (hg : gratingType s = 2 ∨ (gratingType s = 1 ∧ (s.p.phi ≠ some 0 ∨ ¬ (s.p.pol = 0 ∨ s.p.pol = 1)))) (ha : s.algo = .tmm)
    {sol : Solved s.p.fto.1 s.p.fto.2} (hs : conv_solve la s = .ok sol) (hq : Spec.ModesAway sol) :
    ∃ sol' : Solved s.p.fto.1 s.p.fto.2, tConv_solve la s.torch = .ok sol' ∧
      Spec.AgreeUpToConvention s.p.n_top s.p.n_bot sol.result sol'.result := by
  rcases hpsi with h0 | h0
  · exact agree h (c := -1) (Or.inr rfl) (tFinalB_of_sin _ h0) hg ha (psi0 := s.p.psi) hs hq
  · exact agree h (c := 1) (Or.inl rfl) (tFinalB_of_cos _ h0) hg ha (psi0 := s.p.psi) hs hq

/-- **C40, conical and 2D solvers, any polarization.**  PyTorch at polarization angle `ψ` agrees with NumPy at
`π - ψ`: the p component of the incident wave has the opposite sign. -/
theorem C40_psi {la : LinAlg} {s : Settings} (h : Spec.LosslessCladdings s.p)
    (hg : gratingType s = 2 ∨ (gratingType s = 1 ∧ (s.p.phi ≠ some 0 ∨ ¬ (s.p.pol = 0 ∨ s.p.pol = 1)))) (ha : s.algo = .tmm)
    {sol : Solved s.p.fto.1 s.p.fto.2} (hs : conv_solve la (Spec.withPsi s (Real.pi - s.p.psi)) = .ok sol)
    (hq : Spec.ModesAway sol) :
    ∃ sol' : Solved s.p.fto.1 s.p.fto.2, tConv_solve la s.torch = .ok sol' ∧
      Spec.AgreeUpToConvention s.p.n_top s.p.n_bot sol.result sol'.result :=
  agree h (c := 1) (Or.inl rfl) (by rw [one_smul]; exact tFinalB_eq _ _ _ _) hg ha hs hq

/-- **C40, `phi = 0` on a 1D grating.**  NumPy runs the conical solver, PyTorch the TE/TM solver; the
efficiencies of `res` agree all the same. -/
theorem C40_phi_zero_partial {la la' : LinAlg} {s : Settings} (h : Spec.LosslessCladdings s.p) (hp : s.p.use_pinv = false)
    (u : Ucell) (hu : s.ucell = .raster u) (hny : u.ny = 1) (hf : s.p.fto.2 = 0)
    (hpol : s.p.pol = 0 ∨ s.p.pol = 1) (hpsi : Spec.PsiFollowsPol s) (ha : s.algo = .tmm)
    {sol sol' : Solved s.p.fto.1 s.p.fto.2} (hs : conv_solve la' (Spec.withPhi s (some 0)) = .ok sol)
    (hs' : conv_solve la (Spec.withPhi s none) = .ok sol') :
    ∃ sol'' : Solved s.p.fto.1 s.p.fto.2, tConv_solve la (Spec.withPhi s (some 0)).torch = .ok sol'' ∧
      ∃ r r'', sol.result.res = some r ∧ sol''.result.res = some r'' ∧ Spec.SameEff r r'' := by
  have hn : Spec.LosslessCladdings (Spec.withPhi s none).p :=
    { h with phi_real := fun φ hφ => by cases hφ }
  have hg : gratingType (Spec.withPhi s none) = 0 := by simp [gratingType, hu, hny, hpol, hf]
  have hnt : s.p.n_top ≠ 0 := fun h0 => by have := h.n_top_pos; rw [h0] at this; simp at this
  obtain ⟨sol'', ht, he, x, x', σ, e1, e2, -, -⟩ := C40_tetm_partial hn hg hs'
  obtain ⟨r, r', f1, f2, f3⟩ := C12_phi_zero la la' s hp u hu hny hf hpol hpsi ha hnt h.n_top_real _ _ hs' hs
  have hee := he.1
  rw [e1, e2] at hee
  obtain rfl : x = r := Option.some.inj (e1.symm.trans f1)
  cases hee
  rename_i hee
  refine ⟨sol'', ?_, r', x', f2, e2, ?_⟩
  · have hc : tConvMats la (Spec.withPhi s (some 0)).torch = tConvMats la (Spec.withPhi s none).torch := rfl
    have hg0 : tGratingType (Spec.withPhi s (some 0)).torch = 0 := by
      simp [tGratingType, Settings.torch, TStructure.rows, hu, hny, hpol, hf]
    have hg1 : tGratingType (Spec.withPhi s none).torch = 0 := tGrating_zero hg
    unfold tConv_solve at ht ⊢
    obtain ⟨cs, h1, h2⟩ := Except.bind_ok.mp ht
    refine Except.bind_ok.mpr ⟨cs, hc.trans h1, ?_⟩
    have ha1 : (Spec.withPhi s none).torch.algo = .tmm := ha
    unfold tSolve_for_conv at h2
    simp only [hg1, ha1] at h2
    obtain ⟨o, ho, h3⟩ := Except.bind_ok.mp h2
    obtain rfl := Except.ok.inj h3
    exact tSolve_for_conv_zero (s := (Spec.withPhi s (some 0)).torch) hg0 ha ho
  · exact ⟨hee.de_ri_s.trans f3.de_ri_s.symm, hee.de_ri_p.trans f3.de_ri_p.symm, hee.de_ri.trans f3.de_ri.symm,
      hee.de_ti_s.trans f3.de_ti_s.symm, hee.de_ti_p.trans f3.de_ti_p.symm, hee.de_ti.trans f3.de_ti.symm⟩

/-- **C40 fails for mixed polarization.**  At `pol = 1/2` (`ψ = π/4`) a lossless two-pixel grating
under conical incidence reflects 1568/1681 of the power according to NumPy and 32/1681 according to PyTorch. -/
theorem C40_mixed_negation : ∃ (la : LinAlg) (s : Settings) (sol sol' : Solved s.p.fto.1 s.p.fto.2) (r r' : _),
    Spec.LosslessCladdings s.p ∧ s.p.pol = 1 / 2 ∧ Spec.PsiFollowsPol s ∧ s.p.use_pinv = false ∧ s.algo = .tmm ∧
    conv_solve la s = .ok sol ∧ tConv_solve la s.torch = .ok sol' ∧
    sol.result.res = some r ∧ sol'.result.res = some r' ∧
    ∀ j i, r.de_ri j i = 1568 / 1681 ∧ r'.de_ri j i = 32 / 1681 := by
  have hpi := Real.pi_pos
  have hr : ((Real.sqrt 2 / 2 : ℝ) : ℂ) ^ 2 = 1 / 2 := by
    rw [← Complex.ofReal_pow, div_pow, Real.sq_sqrt (by norm_num)]; norm_num
  have hsin : Complex.sin ((Real.pi / 4 : ℝ) : ℂ) = ((Real.sqrt 2 / 2 : ℝ) : ℂ) := by
    rw [← Complex.ofReal_sin, Real.sin_pi_div_four]
  have hcos : Complex.cos ((Real.pi / 4 : ℝ) : ℂ) = ((Real.sqrt 2 / 2 : ℝ) : ℂ) := by
    rw [← Complex.ofReal_cos, Real.cos_pi_div_four]
  have hq : Complex.normSq ((Real.sqrt 2 / 2 : ℝ) : ℂ) = 1 / 2 := by
    rw [Complex.normSq_ofReal]
    have := Real.mul_self_sqrt (show (0 : ℝ) ≤ 2 by norm_num)
    linarith [this]
  have hl := mixLossless (Real.pi / 4)
  obtain ⟨o, ho, e1, e2, e3⟩ := mix_ok ((Real.pi / 4 : ℝ) : ℂ)
  obtain ⟨o', ho', f1, f2, f3⟩ := mix_ok ((Real.pi : ℂ) - ((Real.pi / 4 : ℝ) : ℂ))
  obtain ⟨sol', ht, ha⟩ := C40_psi (s := mixSettings ((Real.pi / 4 : ℝ) : ℂ)) hl
    (Or.inr ⟨by simp [gratingType, mixSettings, mixCell, mixParams], Or.inl <| by
      simp only [mixSettings, mixParams, ne_eq, Option.some.injEq]
      intro h0
      have := Real.arctan_pos.mpr (show (0 : ℝ) < 1 / 2 by norm_num)
      exact this.ne' (by exact_mod_cast h0)⟩) rfl ho' (fun o h => by cases h)
  have hres := ha.eff.1
  obtain ⟨x, x', -, g1, g2, -⟩ := ha.res
  rw [g1, g2] at hres
  cases hres
  rename_i hres
  obtain rfl : o'.out.res = x := Option.some.inj g1
  refine ⟨exLA, mixSettings ((Real.pi / 4 : ℝ) : ℂ), .conical o, sol', _, x', hl, rfl, ?_, rfl, rfl, ho, ht, rfl, g2, ?_⟩
  · show ((Real.pi / 4 : ℝ) : ℂ) = ((Real.pi / 2 * (1 - 1 / 2) : ℝ) : ℂ)
    congr 1; ring
  · intro j i
    obtain rfl : j = 0 := Subsingleton.elim (α := Fin 1) j 0
    obtain rfl : i = 0 := Subsingleton.elim (α := Fin 1) i 0
    constructor
    · show o.out.res.de_ri 0 0 = _
      rw [e3, e1, e2, hsin, hcos, ← add_mul, ← add_mul]
      simp only [Complex.normSq_mul, Complex.normSq_div, Complex.normSq_neg, Complex.normSq_I, hq]
      norm_num [Complex.normSq_apply]
    · rw [hres.de_ri]
      show o'.out.res.de_ri 0 0 = _
      rw [f3, f1, f2, Complex.sin_pi_sub, Complex.cos_pi_sub, hsin, hcos, mul_neg, mul_neg, ← sub_eq_add_neg,
        ← sub_eq_add_neg, ← sub_mul, ← sub_mul]
      simp only [Complex.normSq_mul, Complex.normSq_div, Complex.normSq_neg, Complex.normSq_I, hq]
      norm_num [Complex.normSq_apply]

/-- **C40 fails for absorbing substrates.**  Index 2 over the metal `(9 - 7i)/8` at 30 degrees, TM, no layers:
NumPy reports a reflectance above 3, PyTorch one of at most 1. -/
theorem C40_absorbing_negation (la : LinAlg) : ∃ (s : Settings) (sol sol' : Solved s.p.fto.1 s.p.fto.2) (r r' : _),
    Spec.RealIllumination s.p ∧ Spec.PassiveIndex s.p.n_bot ∧ s.p.pol = 1 ∧ gratingType s = 0 ∧ s.p.use_pinv = false ∧
    conv_solve la s = .ok sol ∧ tConv_solve la s.torch = .ok sol' ∧
    sol.result.res = some r ∧ sol'.result.res = some r' ∧
    ∀ j i, 3 < r.de_ri j i ∧ r'.de_ri j i ≤ 1 := by
  obtain ⟨o, ho, h⟩ := absorbing_bare la
  obtain ⟨o', ho', h'⟩ := C08_torch_example la
  refine ⟨bareSettings ⟨9 / 8, -(7 / 8)⟩ 1 none, .tetm o, .tetm o', _, _, bareSettings_illumination _ 1 none (by simp),
    ?_, rfl, by simp [gratingType, bareSettings], rfl, ho, ho', rfl, rfl, fun j i => ⟨(h j i (bareSettings_col _ _ _ i)).1, h' j i⟩⟩
  constructor <;> simp only [bareSettings] <;> norm_num

/-- Non-vacuity of `C40_tetm_partial`: the two-pixel grating of `exSettings`. -/
example (pol : ℝ) (hpol : pol = 0 ∨ pol = 1) : ∃ (sol : Solved 0 0) (sol' : Solved 0 0),
    conv_solve exLA (exSettings pol none) = .ok sol ∧ tConv_solve exLA (exSettings pol none).torch = .ok sol' ∧
      Spec.SameEfficiencies sol.result sol'.result := by
  have hl : Spec.LosslessCladdings (exSettings pol none).p :=
    { (exSettings_lossless pol none (by simp)).toRealIllumination with
      n_bot_real := by simp [exSettings, exParams, Spec.IsReal], n_bot_pos := by simp [exSettings, exParams] }
  obtain ⟨o, ho⟩ : ∃ o, conv_solve exLA (exSettings pol none) = .ok (.tetm o) := by
    rcases hpol with rfl | rfl
    · exact exTE_ok
    · exact exTM_ok
  obtain ⟨sol', h1, h2, -⟩ := C40_tetm_partial hl (exSettings_grating pol hpol) ho
  exact ⟨_, sol', ho, h1, h2⟩

/-- Non-vacuity of `C40_pure_partial` and `C40_psi`: the grating of `C40_mixed_negation` at every real `ψ`. -/
example (psi : ℂ) : ∃ o, conv_solve exLA (mixSettings psi) = .ok (.conical o) ∧ Spec.ModesAway (.conical o) := by
  obtain ⟨o, ho, -⟩ := mix_ok psi
  exact ⟨o, ho, fun o h => by cases h⟩

#print axioms C40_tetm_partial
#print axioms C40_pure_partial
#print axioms C40_psi
#print axioms C40_phi_zero_partial
#print axioms C40_mixed_negation
#print axioms C40_absorbing_negation

end Meent
