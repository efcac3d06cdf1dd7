import Verif.Lemmas.Example1D
import Verif.Spec.Optics

/-!
# C01: energy conservation, 1D TE/TM
-/

open Matrix

namespace Meent

/-- **C01.** A lossless structure (raster array or vector list, either Fourier analysis, any
truncation order, any number of layers and any thicknesses) solved by the 1D TE/TM formulation with
any eigensolver: whenever the solve succeeds, all reported efficiencies add up to one. -/
theorem C01_energy_1d (la : LinAlg) (s : Settings) (h : Spec.LosslessProblem s)
    (hp : s.p.use_pinv = false) (hg : gratingType s = 0)
    (sol : Solved s.p.fto.1 s.p.fto.2) (hs : conv_solve la s = .ok sol) :
    ∃ r, sol.result.res = some r ∧ Spec.totalEfficiency r = 1 := by
  obtain ⟨u, -, -, -, hphi, hf⟩ := gratingType_zero hg
  rcases conv_solve_cases hs with ⟨-, o, rfl⟩ | ⟨h1, -⟩ | ⟨h1, -⟩
  · refine ⟨_, rfl, ?_⟩
    obtain ⟨convs, hc, -, -, h1⟩ := conv_solve_tetm.mp hs
    have := solve_1d_energy hp hphi (RealIncidence.of_spec h.toRealIllumination) (by
      intro c hcm
      obtain ⟨c', hc', rfl⟩ := List.mem_map.mp hcm
      obtain ⟨a, b, c⟩ := convMats_isHermitian hp h.structure_real hc c' hc'
      exact ⟨a.submatrix _, b.submatrix _, c.submatrix _⟩) h1
    unfold Spec.totalEfficiency SubRes.row1
    simp only [Finset.sum_const, Finset.card_univ, Fintype.card_fin, hf, mul_zero, zero_add, one_smul]
    simpa using this
  · rw [hg] at h1; cases h1
  · rw [hg] at h1; cases h1

/-- Non-vacuity: a two-pixel grating (indices 1 and 2) in air at 30°, TE. -/
example : ∃ sol, Spec.LosslessProblem (exSettings 0 none) ∧ gratingType (exSettings 0 none) = 0 ∧
    conv_solve exLA (exSettings 0 none) = .ok sol := by
  obtain ⟨o, ho⟩ := exTE_ok
  exact ⟨_, exSettings_lossless 0 none (by simp), exSettings_grating 0 (.inl rfl), ho⟩

/-- Non-vacuity: the same grating, TM. -/
example : ∃ sol, Spec.LosslessProblem (exSettings 1 none) ∧ gratingType (exSettings 1 none) = 0 ∧
    conv_solve exLA (exSettings 1 none) = .ok sol := by
  obtain ⟨o, ho⟩ := exTM_ok
  exact ⟨_, exSettings_lossless 1 none (by simp), exSettings_grating 1 (.inr rfl), ho⟩

end Meent

#print axioms Meent.C01_energy_1d
