import Verif.Lemmas.ScatteringTmmExample
import Verif.Props.C01

/-!
# C95: scattering matrices and transfer matrices give the same efficiencies
-/

open Matrix

namespace Meent

/-- **C95.**  A TE or TM problem solved with transfer matrices between lossless half spaces, no order at grazing.  Feed the modes of its layers to the scattering functions, the topmost
layer first.  If they succeed, they return the efficiencies of the solver. -/
theorem C95_smm_tmm (la : LinAlg) (s : Settings) (hp : Spec.LosslessCladdings s.p) (hinv : s.p.use_pinv = false) (hg : Spec.NoGrazing s.p)
    (o : Out1D (2 * s.p.fto.1 + 1)) (h : conv_solve la s = .ok (.tetm o))
    (x : (Fin (2 * s.p.fto.1 + 1) → ℂ) × (Fin (2 * s.p.fto.1 + 1) → ℂ)) (hx : Spec.scatter1d s.p (o.infos.reverse.map LayerInfo.scattering) = .ok x) :
    x = (fun i => ((o.res.de_ri 0 i : ℝ) : ℂ), fun i => ((o.res.de_ti 0 i : ℝ) : ℂ)) := by
  obtain ⟨cs, -, hgt, -, h1⟩ := conv_solve_tetm.mp h
  obtain ⟨-, -, -, -, hphi, -⟩ := gratingType_zero hgt
  have hI := RealIncidence.of_spec hp.toRealIllumination
  obtain ⟨R, T, hs, hre, hte⟩ := solve_1d_scatters hI hphi hinv h1
  obtain ⟨Vg, S, hS, x1, x2, x3⟩ := scatter1d_ok hp hphi hg hx
  obtain ⟨eR, eT⟩ := (scatteringMatrix_scatters hS _ _ _ _).mpr hs
  rw [mulVec_zero, add_zero] at eR eT
  subst eR eT
  refine Prod.ext ?_ ?_
  · rw [x1]
    funext i
    exact congrArg Complex.ofReal (hre 0 i).symm
  · rcases hte with ⟨h0, e⟩ | ⟨h1, e⟩
    · rw [x2 h0]
      funext i
      exact congrArg Complex.ofReal (e 0 i).symm
    · rw [x3 h1]
      funext i
      exact congrArg Complex.ofReal (e 0 i).symm

/-- **C95, energy.**  For lossless structures the efficiencies of the scattering functions sum to one. -/
theorem C95_energy (la : LinAlg) (s : Settings) (hp : Spec.LosslessProblem s) (hinv : s.p.use_pinv = false) (hg : Spec.NoGrazing s.p)
    (o : Out1D (2 * s.p.fto.1 + 1)) (h : conv_solve la s = .ok (.tetm o))
    (x : (Fin (2 * s.p.fto.1 + 1) → ℂ) × (Fin (2 * s.p.fto.1 + 1) → ℂ)) (hx : Spec.scatter1d s.p (o.infos.reverse.map LayerInfo.scattering) = .ok x) :
    ∑ i, x.1 i + ∑ i, x.2 i = 1 := by
  rw [C95_smm_tmm la s ⟨hp.toRealIllumination, hp.n_bot_real, hp.n_bot_pos⟩ hinv hg o h x hx]
  obtain ⟨r, hr, he⟩ := C01_energy_1d la s hp hinv (conv_solve_tetm.mp h).choose_spec.2.1 _ h
  obtain rfl := Option.some.inj hr
  have e : ∑ i, o.res.de_ri 0 i + ∑ i, o.res.de_ti 0 i = 1 := by
    obtain ⟨-, -, -, -, -, hf⟩ := gratingType_zero (conv_solve_tetm.mp h).choose_spec.2.1
    unfold Spec.totalEfficiency SubRes.row1 at he
    simpa only [Finset.sum_const, Finset.card_univ, Fintype.card_fin, hf, mul_zero, zero_add, one_smul] using he
  dsimp only
  exact_mod_cast e

theorem C95_noGrazing (pol : ℝ) : Spec.NoGrazing (exParams pol none) := by
  intro i
  have e : kxVec (exParams pol none) (exParams pol none).wavelength i = 1 / 2 := exKx pol i
  rw [e]
  constructor <;> (simp only [exParams]; norm_num)

/-- Non-vacuity, TE: a grating layer with indices 1 and 2, solved by the solver and by the scattering functions. -/
example : ∃ o x, conv_solve exLA (exSettings 0 none) = .ok (.tetm o) ∧ Spec.LosslessCladdings (exSettings 0 none).p ∧ (exSettings 0 none).p.use_pinv = false ∧
    Spec.NoGrazing (exSettings 0 none).p ∧ Spec.scatter1d (exSettings 0 none).p (o.infos.reverse.map LayerInfo.scattering) = .ok x := by
  obtain ⟨o, ho⟩ := exTE_ok
  have hq : dq 0 (1 / 2) (8 / 5) (5 / 2) (2 / 5) = Complex.I * ((3 / 2 : ℝ) : ℂ) := by
    unfold dq
    rw [if_pos rfl, ← csqrt_neg_sq (by norm_num)]
    congr 1; push_cast; norm_num
  have hv : dv 0 (1 / 2) (8 / 5) (5 / 2) (2 / 5) = Complex.I * ((3 / 2 : ℝ) : ℂ) := by
    unfold dv
    rw [if_pos rfl, hq]
  obtain ⟨x, hx⟩ := exScatter (pol := 0) (.inl rfl) (q := 3 / 2) (v := 3 / 2) (by norm_num)
  refine ⟨o, x, ho, ⟨(exSettings_lossless 0 none (by simp)).toRealIllumination, (exSettings_lossless 0 none (by simp)).n_bot_real, (exSettings_lossless 0 none (by simp)).n_bot_pos⟩, rfl, C95_noGrazing 0, ?_⟩
  have e := exLayer (.inl rfl) ho
  rw [hq, hv] at e
  exact (congrArg (Spec.scatter1d (exParams 0 none)) e).trans hx

/-- Non-vacuity, TM. -/
example : ∃ o x, conv_solve exLA (exSettings 1 none) = .ok (.tetm o) ∧ Spec.LosslessCladdings (exSettings 1 none).p ∧ (exSettings 1 none).p.use_pinv = false ∧
    Spec.NoGrazing (exSettings 1 none).p ∧ Spec.scatter1d (exSettings 1 none).p (o.infos.reverse.map LayerInfo.scattering) = .ok x := by
  obtain ⟨o, ho⟩ := exTM_ok
  have hq : dq 1 (1 / 2) (8 / 5) (5 / 2) (2 / 5) = Complex.I * ((6 / 5 : ℝ) : ℂ) := by
    unfold dq
    rw [if_neg one_ne_zero, ← csqrt_neg_sq (by norm_num)]
    congr 1; push_cast; norm_num
  have hv : dv 1 (1 / 2) (8 / 5) (5 / 2) (2 / 5) = Complex.I * ((3 / 4 : ℝ) : ℂ) := by
    unfold dv
    rw [if_neg one_ne_zero, hq]; push_cast; ring
  obtain ⟨x, hx⟩ := exScatter (pol := 1) (.inr rfl) (q := 6 / 5) (v := 3 / 4) (by norm_num)
  refine ⟨o, x, ho, ⟨(exSettings_lossless 1 none (by simp)).toRealIllumination, (exSettings_lossless 1 none (by simp)).n_bot_real, (exSettings_lossless 1 none (by simp)).n_bot_pos⟩, rfl, C95_noGrazing 1, ?_⟩
  have e := exLayer (.inr rfl) ho
  rw [hq, hv] at e
  exact (congrArg (Spec.scatter1d (exParams 1 none)) e).trans hx

end Meent

#print axioms Meent.C95_smm_tmm
#print axioms Meent.C95_energy
