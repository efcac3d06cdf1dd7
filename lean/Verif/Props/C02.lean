import Verif.Props.C13
import Verif.Spec.Optics

/-!
# C02: energy conservation, conical and 2D
-/

open Matrix

namespace Meent

theorem getD_real {o : Option ℂ} (h : ∀ φ, o = some φ → Spec.IsReal φ) : o.getD 0 = (((o.getD 0).re : ℝ) : ℂ) := by
  cases o with
  | none => simp
  | some z => exact Complex.ext rfl (h z rfl)

/-- **C02.** A lossless structure (raster or vector, either Fourier analysis, any truncation orders,
layer count, thicknesses, azimuth and polarization angle) solved by the conical or the 2D formulation with
any eigensolver: whenever the solve succeeds, the efficiencies of `res`, of `res_te_inc` and of
`res_tm_inc` each add up to one. -/
theorem C02_energy_conical_2d (la : LinAlg) (s : Settings) (h : Spec.LosslessProblem s)
    (hp : s.p.use_pinv = false) (ha : s.algo = .tmm) (hg : gratingType s = 1 ∨ gratingType s = 2)
    (sol : Solved s.p.fto.1 s.p.fto.2) (hs : conv_solve la s = .ok sol) :
    ∃ r rte rtm, sol.result = ⟨some r, some rte, some rtm⟩ ∧
      Spec.totalEfficiency r = 1 ∧ Spec.totalEfficiency rte = 1 ∧ Spec.totalEfficiency rtm = 1 := by
  have hphi := getD_real h.phi_real
  have hpsi : s.p.psi = ((s.p.psi.re : ℝ) : ℂ) := Complex.ext rfl h.psi_real
  have hi := RealIncidence.of_spec h.toRealIllumination
  rcases conv_solve_cases hs with ⟨h1, -⟩ | ⟨h1, ⟨o, rfl⟩ | rfl⟩ | ⟨h1, o, rfl⟩
  · omega
  · obtain ⟨cs, hc, -, -, h4⟩ := conv_solve_conical.mp hs
    obtain ⟨⟨ny, nx, ls⟩, hu, hny, -⟩ := gratingType_one h1
    simp only at hny
    subst hny
    exact ⟨_, _, _, rfl, solve_con_energy hp hphi hpsi hi (convMats_isHermitian hp h.structure_real hc)
      (convMats_epzi_epy hp hu (fun l _ i i' j => by rw [Subsingleton.elim i i']) hc) h4⟩
  · have := (solve_for_conv_smm.mp (conv_solve_ok.mp hs).choose_spec.2).2
    rw [ha] at this; cases this
  · obtain ⟨cs, hc, -, -, h4⟩ := conv_solve_twoD.mp hs
    exact ⟨_, _, _, rfl, solve_2d_energy hp hphi hpsi hi (convMats_isHermitian hp h.structure_real hc) h4⟩

/-- Non-vacuity: the two-pixel grating (indices 1 and 2) at 30°, zero azimuth, conical formulation,
any polarization. -/
example (pol : ℝ) : ∃ sol, Spec.LosslessProblem (exSettings pol (some 0)) ∧
    gratingType (exSettings pol (some 0)) = 1 ∧ conv_solve exLA (exSettings pol (some 0)) = .ok sol := by
  obtain ⟨o, ho⟩ := exCon_ok pol
  refine ⟨_, exSettings_lossless pol (some 0) ?_, by simp [gratingType, exSettings, exCell, exParams], ho⟩
  intro φ hφ
  cases hφ
  simp [Spec.IsReal]

/-- Non-vacuity: the same grating given with two rows, 2D formulation. -/
example (pol : ℝ) : ∃ sol,
    Spec.LosslessProblem (Spec.withUcell (exSettings pol (some 0)) (Spec.yInvariant 2 2 [exRow])) ∧
    gratingType (Spec.withUcell (exSettings pol (some 0)) (Spec.yInvariant 2 2 [exRow])) = 2 ∧
    conv_solve exLA (Spec.withUcell (exSettings pol (some 0)) (Spec.yInvariant 2 2 [exRow])) = .ok sol := by
  obtain ⟨o, ho⟩ := exTwoD_ok pol
  have hl := exSettings_lossless pol (some 0) (by intro φ hφ; cases hφ; simp [Spec.IsReal])
  refine ⟨_, ⟨hl.toRealIllumination, ?_, hl.n_bot_real, hl.n_bot_pos⟩, by simp [gratingType], ho⟩
  intro l hm i j
  obtain ⟨v, hv, rfl⟩ := List.mem_map.mp hm
  obtain rfl := List.mem_singleton.mp hv
  simp only [Spec.IsReal, exRow]
  split <;> simp

end Meent

#print axioms Meent.C02_energy_conical_2d
