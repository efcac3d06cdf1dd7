import Verif.Props.C40

/-!
# C10 for the PyTorch backend

Only `R_s` satisfies the property.  In `res_te_inc` and `res_tm_inc` the amplitude `R_p` has the opposite sign of `res`,
and `T_s`, `T_p` miss the conjugation and the sign of the order; the efficiencies do not see this.
-/

set_option linter.unusedSimpArgs false

open Matrix

namespace Meent

/-- Conical and 2D PyTorch solves end in `tTransfer_2d_4`. -/
theorem tSolved4 {la : LinAlg} {s : TSettings} {sol : Solved s.p.fto.1 s.p.fto.2} (hs : tConv_solve la s = .ok sol)
    (hg : tGratingType s ≠ 0) (ha : s.algo = .tmm) :
    ∃ (x : Out4 s.p.fto.1 s.p.fto.2) (t : _) (kzt kzb : _) (b : Bool),
      sol.result = ⟨some x.res, some x.res_te, some x.res_tm⟩ ∧
      x = tTransfer_2d_4 la t (tKxVec s.p s.p.wavelength) kzt kzb s.p.psi s.p.theta s.p.n_top s.p.n_bot b := by
  unfold tConv_solve at hs
  obtain ⟨convs, -, hs⟩ := Except.bind_ok.mp hs
  unfold tSolve_for_conv at hs
  rw [ha] at hs
  rcases hgt : tGratingType s with _ | _ | k
  · exact absurd hgt hg
  · simp only [hgt] at hs
    obtain ⟨o, ho, hs⟩ := Except.bind_ok.mp hs
    cases hs
    unfold tSolve_1d_conical at ho
    obtain ⟨init, -, ho⟩ := Except.bind_ok.mp ho
    obtain ⟨r, -, ho⟩ := Except.bind_ok.mp ho
    split_ifs at ho
    cases ho
    exact ⟨_, _, _, _, _, rfl, rfl⟩
  · simp only [hgt] at hs
    obtain ⟨o, ho, hs⟩ := Except.bind_ok.mp hs
    cases hs
    unfold tSolve_2d at ho
    obtain ⟨init, -, ho⟩ := Except.bind_ok.mp ho
    obtain ⟨r, -, ho⟩ := Except.bind_ok.mp ho
    cases ho
    exact ⟨_, _, _, _, _, rfl, rfl⟩

private theorem tFinalB_super {m : Type} (δ : m → ℂ) (psi th nt : ℂ) :
    tFinalB δ psi th nt = Complex.sin psi • tFinalB δ ((Real.pi / 2 : ℝ) : ℂ) th nt + Complex.cos psi • tFinalB δ 0 th nt := by
  have h1 : Complex.sin ((Real.pi / 2 : ℝ) : ℂ) = 1 := by rw [← Complex.ofReal_sin, Real.sin_pi_div_two]; norm_num
  have h2 : Complex.cos ((Real.pi / 2 : ℝ) : ℂ) = 0 := by rw [← Complex.ofReal_cos, Real.cos_pi_div_two]; norm_num
  ext k
  rcases k with (k | k) | (k | k) <;>
    simp only [tFinalB, Pi.add_apply, Pi.smul_apply, smul_eq_mul, h1, h2, Complex.sin_zero, Complex.cos_zero] <;> ring

private theorem star_real {z : ℂ} (h : Spec.IsReal z) : star z = z := Complex.conj_eq_iff_im.mpr h

private theorem sin_real {z : ℂ} (h : Spec.IsReal z) : Spec.IsReal (Complex.sin z) := by
  have e : z = (z.re : ℂ) := Complex.ext rfl h
  rw [e]; exact Complex.sin_ofReal_im _

private theorem cos_real {z : ℂ} (h : Spec.IsReal z) : Spec.IsReal (Complex.cos z) := by
  have e : z = (z.re : ℂ) := Complex.ext rfl h
  rw [e]; exact Complex.cos_ofReal_im _

/-- **C10 in PyTorch, what holds.**  At every real polarization angle `R_s` superposes as claimed.  `R_p` is minus the
claimed superposition; `T_s` is the conjugate of the claimed superposition times the sign `σ` of the order, and
`T_p` minus that. -/
theorem C10_torch_partial (la : LinAlg) (s : TSettings) (hg : tGratingType s ≠ 0) (ha : s.algo = .tmm)
    (hpsi : Spec.IsReal s.p.psi) (sol : Solved s.p.fto.1 s.p.fto.2) (h : tConv_solve la s = .ok sol) :
    ∃ x te tm, sol.result = ⟨some x, some te, some tm⟩ ∧
      (∀ j i, x.R_s j i = Complex.sin s.p.psi * te.R_s j i + Complex.cos s.p.psi * tm.R_s j i) ∧
      (∀ j i, x.R_p j i = -(Complex.sin s.p.psi * te.R_p j i + Complex.cos s.p.psi * tm.R_p j i)) ∧
      ∃ σ, Spec.IsSigns σ ∧
        (∀ j i, x.T_s j i = σ i * star (Complex.sin s.p.psi * te.T_s j i + Complex.cos s.p.psi * tm.T_s j i)) ∧
        (∀ j i, x.T_p j i = -σ i * star (Complex.sin s.p.psi * te.T_p j i + Complex.cos s.p.psi * tm.T_p j i)) := by
  obtain ⟨x, t, kzt, kzb, b, hr, rfl⟩ := tSolved4 h hg ha
  refine ⟨_, _, _, hr, ?_⟩
  have hs := star_real (sin_real hpsi)
  have hc := star_real (cos_real hpsi)
  have hadd : ∀ (a b : ℂ) (u v : (FlatIdx s.p.fto.1 s.p.fto.2 ⊕ FlatIdx s.p.fto.1 s.p.fto.2) ⊕ _ → ℂ),
      (t.T *ᵥ fun k => (a • u + b • v) (.inr k)) = a • (t.T *ᵥ fun k => u (.inr k)) + b • (t.T *ᵥ fun k => v (.inr k)) := by
    intro a b u v
    rw [← mulVec_smul, ← mulVec_smul, ← mulVec_add]
    rfl
  have hmod : ∀ (j : Fin (2 * s.p.fto.2 + 1)) (i : Fin (2 * s.p.fto.1 + 1)), (finProdFinEquiv (j, i)).modNat = i := fun j i =>
    congrArg Prod.snd (finProdFinEquiv.symm_apply_apply (j, i))
  unfold tTransfer_2d_4
  simp only [tSubResPsi, tSubResTetm, tSubRes]
  rw [tFinalB_super, mulVec_add, mulVec_smul, mulVec_smul]
  refine ⟨fun j i => ?_, fun j i => ?_, phaseConv (tKxVec s.p s.p.wavelength), phaseConv_signs _, fun j i => ?_, fun j i => ?_⟩
  · simp only [Pi.add_apply, Pi.smul_apply, smul_eq_mul, star_add, star_mul', hs, hc]
    ring
  · simp only [Pi.add_apply, Pi.smul_apply, smul_eq_mul, star_add, star_mul', hs, hc, neg_div, star_neg]
    ring
  · rw [hadd]
    simp only [Pi.add_apply, Pi.smul_apply, smul_eq_mul, star_add, star_mul', hs, hc, hmod]
    ring
  · rw [hadd]
    simp only [Pi.add_apply, Pi.smul_apply, smul_eq_mul, star_add, star_mul', hs, hc, hmod, neg_div, star_neg]
    ring

/-- **C10 in PyTorch, efficiencies at the pure polarizations.**  At `pol = 0` the efficiencies of `res` are those of
`res_te_inc`, at `pol = 1` those of `res_tm_inc`. -/
theorem C10_torch_pure_partial (la : LinAlg) (s : TSettings) (hg : tGratingType s ≠ 0) (ha : s.algo = .tmm)
    (hpol : s.p.psi = ((Real.pi / 2 * (1 - s.p.pol) : ℝ) : ℂ))
    (sol : Solved s.p.fto.1 s.p.fto.2) (h : tConv_solve la s = .ok sol) :
    ∃ x te tm, sol.result = ⟨some x, some te, some tm⟩ ∧
      (s.p.pol = 0 → Spec.SameEff te x) ∧ (s.p.pol = 1 → Spec.SameEff tm x) := by
  obtain ⟨x, t, kzt, kzb, b, hr, rfl⟩ := tSolved4 h hg ha
  refine ⟨_, _, _, hr, ?_⟩
  have key : ∀ rt, Spec.SameEff
      (tSubResTetm t (tKxVec s.p s.p.wavelength) kzt kzb s.p.theta s.p.n_top s.p.n_bot rt)
      (tSubResPsi t (tKxVec s.p s.p.wavelength) kzt kzb s.p.theta s.p.n_top s.p.n_bot rt) := by
    intro rt
    have hph : ∀ i, Complex.normSq (phaseConv (tKxVec s.p s.p.wavelength) i) = 1 := fun i =>
      sign_normSq (phaseConv_signs _ i)
    have h1 : ∀ z : ℂ, Complex.normSq (star z) = Complex.normSq z := fun z => Complex.normSq_conj z
    constructor <;> funext j i <;>
      simp only [tSubResPsi, tSubResTetm, tSubRes, effOf_eq, Complex.normSq_mul, hph, mul_one, h1, neg_div,
        neg_mul, Complex.normSq_neg, star_neg]
  unfold tTransfer_2d_4
  constructor
  · intro h0
    simp only [hpol, h0, sub_zero, mul_one]
    exact key _
  · intro h0
    simp only [hpol, h0, sub_self, mul_zero, Complex.ofReal_zero]
    exact key _

/-- **C10 fails in PyTorch.**  A conical solve at `pol = 1/2` with lossless claddings: `R_p` is not the superposition of
the TE and TM dictionaries. -/
theorem C10_torch_negation : ∃ (la : LinAlg) (s : TSettings) (sol : Solved s.p.fto.1 s.p.fto.2) (x te tm : _),
    Spec.LosslessCladdings s.p ∧ s.p.pol = 1 / 2 ∧ s.p.psi = ((Real.pi / 2 * (1 - s.p.pol) : ℝ) : ℂ) ∧
    tGratingType s ≠ 0 ∧ s.algo = .tmm ∧ s.p.use_pinv = false ∧
    tConv_solve la s = .ok sol ∧ sol.result = ⟨some x, some te, some tm⟩ ∧
    ∀ j i, x.R_p j i ≠ Complex.sin s.p.psi * te.R_p j i + Complex.cos s.p.psi * tm.R_p j i := by
  have hl := mixLossless (Real.pi / 4)
  have hphi : (mixSettings ((Real.pi / 4 : ℝ) : ℂ)).p.phi ≠ some 0 := by
    simp only [mixSettings, mixParams, ne_eq, Option.some.injEq]
    intro h0
    have := Real.arctan_pos.mpr (show (0 : ℝ) < 1 / 2 by norm_num)
    exact this.ne' (by exact_mod_cast h0)
  have hg1 : gratingType (mixSettings ((Real.pi / 4 : ℝ) : ℂ)) = 1 := by
    simp [gratingType, mixSettings, mixCell, mixParams]
  obtain ⟨o', ho', f1, f2, f3⟩ := mix_ok ((Real.pi : ℂ) - ((Real.pi / 4 : ℝ) : ℂ))
  obtain ⟨sol', ht, ha⟩ := C40_psi (s := mixSettings ((Real.pi / 4 : ℝ) : ℂ)) hl (Or.inr ⟨hg1, Or.inl hphi⟩) rfl ho' (fun o h => by cases h)
  have hg : tGratingType (mixSettings ((Real.pi / 4 : ℝ) : ℂ)).torch ≠ 0 := by
    rw [tGrating_one hg1 hphi]; omega
  obtain ⟨x, te, tm, hr, -, h2, -⟩ := C10_torch_partial exLA (mixSettings ((Real.pi / 4 : ℝ) : ℂ)).torch hg rfl hl.psi_real sol' ht
  obtain ⟨y, x', σ, g1, g2, hσ, g3⟩ := ha.res
  obtain rfl : o'.out.res = y := Option.some.inj g1
  obtain rfl : x = x' := Option.some.inj ((congrArg Result.res hr).symm.trans g2)
  refine ⟨exLA, _, sol', x, te, tm, hl, rfl, ?_, hg, rfl, rfl, ht, hr, ?_⟩
  · show ((Real.pi / 4 : ℝ) : ℂ) = ((Real.pi / 2 * (1 - 1 / 2) : ℝ) : ℂ)
    congr 1; ring
  · intro j i he
    have hx : x.R_p j i ≠ 0 := by
      refine ne_of_eq_of_ne (g3.R_p j i) ?_
      obtain rfl : j = 0 := Subsingleton.elim (α := Fin 1) j 0
      obtain rfl : i = 0 := Subsingleton.elim (α := Fin 1) i 0
      have hn : (mixSettings ((Real.pi / 4 : ℝ) : ℂ)).p.n_top ≠ 0 := by
        intro h0
        have := hl.n_top_pos
        rw [h0] at this
        simp at this
      have hσ0 : σ 0 ≠ 0 := by rcases hσ 0 with h | h <;> rw [h] <;> norm_num
      have hsin : Complex.sin ((Real.pi / 4 : ℝ) : ℂ) = ((Real.sqrt 2 / 2 : ℝ) : ℂ) := by
        rw [← Complex.ofReal_sin, Real.sin_pi_div_four]
      have hcos : Complex.cos ((Real.pi / 4 : ℝ) : ℂ) = ((Real.sqrt 2 / 2 : ℝ) : ℂ) := by
        rw [← Complex.ofReal_cos, Real.cos_pi_div_four]
      have hq : ((Real.sqrt 2 / 2 : ℝ) : ℂ) ≠ 0 := by
        rw [Ne, Complex.ofReal_eq_zero]
        positivity
      refine mul_ne_zero (mul_ne_zero (div_ne_zero (neg_ne_zero.mpr Complex.I_ne_zero) hn) hσ0) (star_ne_zero.mpr ?_)
      refine ne_of_eq_of_ne f2 ?_
      rw [Complex.sin_pi_sub, Complex.cos_pi_sub, hsin, hcos]
      have : -Complex.I * (288 * ((Real.sqrt 2 / 2 : ℝ) : ℂ) + 384 * -((Real.sqrt 2 / 2 : ℝ) : ℂ)) / 205
          = (96 / 205 * Complex.I) * ((Real.sqrt 2 / 2 : ℝ) : ℂ) := by ring
      rw [this]
      exact mul_ne_zero (mul_ne_zero (by norm_num) Complex.I_ne_zero) hq
    have h3 := h2 j i
    rw [← he] at h3
    apply hx
    linear_combination (1 / 2 : ℂ) * h3

/-- Non-vacuity: the grating of the negation at every real polarization; in particular at `pol = 0` and `pol = 1`. -/
example (pol : ℝ) (hp : pol = 0 ∨ pol = 1) : ∃ (s : Settings) (sol : Solved s.torch.p.fto.1 s.torch.p.fto.2),
    tGratingType s.torch ≠ 0 ∧ s.torch.algo = .tmm ∧ s.torch.p.pol = pol ∧ Spec.IsReal s.torch.p.psi ∧
    s.torch.p.psi = ((Real.pi / 2 * (1 - s.torch.p.pol) : ℝ) : ℂ) ∧ tConv_solve exLA s.torch = .ok sol := by
  let psi : ℝ := Real.pi / 2 * (1 - pol)
  let s : Settings := { mixSettings (psi : ℂ) with p := { mixParams (psi : ℂ) with pol := pol } }
  have hl0 := mixLossless psi
  have hl : Spec.LosslessCladdings s.p :=
    { n_top_real := hl0.n_top_real, n_top_pos := hl0.n_top_pos, theta_real := hl0.theta_real, theta_lo := hl0.theta_lo,
      theta_hi := hl0.theta_hi, phi_real := hl0.phi_real, psi_real := hl0.psi_real, wavelength_pos := hl0.wavelength_pos,
      period_x_pos := hl0.period_x_pos, period_y_pos := hl0.period_y_pos, n_bot_real := hl0.n_bot_real,
      n_bot_pos := hl0.n_bot_pos }
  have hphi : s.p.phi ≠ some 0 := by
    simp only [s, mixParams, ne_eq, Option.some.injEq]
    intro h0
    have := Real.arctan_pos.mpr (show (0 : ℝ) < 1 / 2 by norm_num)
    exact this.ne' (by exact_mod_cast h0)
  have hg1 : gratingType s = 1 := by
    simp [gratingType, s, mixSettings, mixCell, mixParams]
  obtain ⟨o, ho, -⟩ := mixSolveCon (psi : ℂ)
  have hc : convMats exLA s = .ok [mixC (FlatIdx 0 0)] := by
    unfold convMats
    simp only [s, mixSettings, mixParams, if_true]
    exact mixCell_conv exLA
  have hs : conv_solve exLA s = .ok (.conical o) := conv_solve_conical.mpr ⟨_, hc, hg1, rfl, ho⟩
  have hpsi : Complex.sin s.p.psi = 0 ∨ Complex.cos s.p.psi = 0 := by
    rcases hp with h | h <;> simp only [s, mixParams, psi, h]
    · right
      rw [sub_zero, mul_one, ← Complex.ofReal_cos, Real.cos_pi_div_two]; rfl
    · left
      simp
  obtain ⟨sol', ht, -⟩ := C40_pure_partial hl hpsi (Or.inr ⟨hg1, Or.inl hphi⟩) rfl hs (fun o h => by cases h)
  exact ⟨s, sol', by rw [tGrating_one hg1 hphi]; omega, rfl, rfl, hl.psi_real, rfl, ht⟩

end Meent

#print axioms Meent.C10_torch_partial
#print axioms Meent.C10_torch_pure_partial
#print axioms Meent.C10_torch_negation
