import Verif.Lemmas.Passive2D
import Verif.Lemmas.PassiveExample2D
import Verif.Props.C13
import Verif.Props.C02

/-!
# C47: absorbing layers never create power (conical and 2D)
-/

open Matrix

namespace Meent

/-- **C47.** Layers of passive media between lossless claddings, solved by the conical or the 2D formulation with any
eigensolver, any truncation orders, azimuth and polarization angle, any number of layers and any thicknesses that are not
negative: whenever the solve succeeds, the efficiencies of `res`, of `res_te_inc` and of `res_tm_inc` each add up to at most
one. -/
theorem C47_passivity_conical_2d (la : LinAlg) (s : Settings) (h : Spec.PassiveProblem s)
    (hp : s.p.use_pinv = false) (ha : s.algo = .tmm) (hg : gratingType s = 1 ∨ gratingType s = 2)
    (sol : Solved s.p.fto.1 s.p.fto.2) (hs : conv_solve la s = .ok sol) :
    ∃ r rte rtm, sol.result = ⟨some r, some rte, some rtm⟩ ∧
      Spec.totalEfficiency r ≤ 1 ∧ Spec.totalEfficiency rte ≤ 1 ∧ Spec.totalEfficiency rtm ≤ 1 := by
  have hphi := getD_real h.phi_real
  have hpsi : s.p.psi = ((s.p.psi.re : ℝ) : ℂ) := Complex.ext rfl h.psi_real
  have hi := RealIncidence.of_spec h.toRealIllumination
  rcases conv_solve_cases hs with ⟨h1, -⟩ | ⟨h1, ⟨o, rfl⟩ | rfl⟩ | ⟨h1, o, rfl⟩
  · omega
  · obtain ⟨cs, hc, -, -, h4⟩ := conv_solve_conical.mp hs
    obtain ⟨⟨ny, nx, ls⟩, hu, hny, -⟩ := gratingType_one h1
    simp only at hny
    subst hny
    exact ⟨_, _, _, rfl, solve_con_passive hp hphi hpsi hi h.wavelength_pos h.thickness_nonneg (convMats_lossy hp h hc)
      (convMats_epzi_epy hp hu (fun l _ i i' j => by rw [Subsingleton.elim i i']) hc) h4⟩
  · have := (solve_for_conv_smm.mp (conv_solve_ok.mp hs).choose_spec.2).2
    rw [ha] at this; cases this
  · obtain ⟨cs, hc, -, -, h4⟩ := conv_solve_twoD.mp hs
    exact ⟨_, _, _, rfl, solve_2d_passive hp hphi hpsi hi h.wavelength_pos h.thickness_nonneg (convMats_lossy hp h hc) h4⟩

/-- The row of the absorbing grating. -/
def absRow : Fin 2 → ℂ := fun j => if j = 0 then 1 else 2 - Complex.I

/-- Non-vacuity: the two-pixel grating of indices `1` and `2 - i` at 30°, zero azimuth, any polarization: conical, and 2D with two
identical rows. -/
example (pol : ℝ) :
    (∃ sol, Spec.PassiveProblem (absSettings pol (some 0)) ∧
      gratingType (absSettings pol (some 0)) = 1 ∧ conv_solve exLA (absSettings pol (some 0)) = .ok sol) ∧
    ∃ sol, Spec.PassiveProblem (Spec.withUcell (absSettings pol (some 0)) (Spec.yInvariant 2 2 [absRow])) ∧
      gratingType (Spec.withUcell (absSettings pol (some 0)) (Spec.yInvariant 2 2 [absRow])) = 2 ∧
      conv_solve exLA (Spec.withUcell (absSettings pol (some 0)) (Spec.yInvariant 2 2 [absRow])) = .ok sol := by
  obtain ⟨o, ho⟩ := absCon_ok pol
  have hl := absSettings_passive pol (some 0) (by intro φ hφ; cases hφ; simp [Spec.IsReal])
  have hg : gratingType (absSettings pol (some 0)) = 1 := by simp [gratingType, absSettings, absCell, exParams]
  refine ⟨⟨_, hl, hg, ho⟩, ?_⟩
  obtain ⟨sol', h', -⟩ := C13_conical_eq_2d_success exLA exLA exLA_basis (absSettings pol (some 0)) rfl rfl 2 2 le_rfl
    [absRow] hg _ ho
  refine ⟨sol', ⟨hl.toRealIllumination, ?_, hl.thickness_nonneg, hl.n_bot_real, hl.n_bot_pos⟩, by simp [gratingType], h'⟩
  intro l hm i j
  obtain ⟨v, hv, rfl⟩ := List.mem_map.mp hm
  obtain rfl := List.mem_singleton.mp hv
  simp only [Spec.PassiveMedium, absRow]
  split <;> simp

end Meent

#print axioms Meent.C47_passivity_conical_2d
