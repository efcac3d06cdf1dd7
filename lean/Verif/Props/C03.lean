import Verif.Lemmas.PassiveExample

/-!
# C03: absorbing layers never create power (1D)
-/

open Matrix

namespace Meent

/-- **C03.** A stack of raster layers whose pixels are passive media (`n - i k` with `n, k ≥ 0`), between lossless
claddings, solved by the 1D TE/TM formulation with any eigensolver, either Fourier analysis, any truncation order, any
number of layers and any thicknesses that are not negative: whenever the solve succeeds, the reported efficiencies add up to
at most one. -/
theorem C03_passivity (la : LinAlg) (s : Settings) (h : Spec.PassiveProblem s)
    (hp : s.p.use_pinv = false) (hg : gratingType s = 0)
    (sol : Solved s.p.fto.1 s.p.fto.2) (hs : conv_solve la s = .ok sol) :
    ∃ r, sol.result.res = some r ∧ Spec.totalEfficiency r ≤ 1 := by
  obtain ⟨u, -, -, -, hphi, hf⟩ := gratingType_zero hg
  rcases conv_solve_cases hs with ⟨-, o, rfl⟩ | ⟨h1, -⟩ | ⟨h1, -⟩
  · refine ⟨_, rfl, ?_⟩
    obtain ⟨convs, hc, -, -, h1⟩ := conv_solve_tetm.mp hs
    have := solve_1d_passive hp hphi (RealIncidence.of_spec h.toRealIllumination) h.wavelength_pos h.thickness_nonneg (by
      intro c hcm
      obtain ⟨c', hc', rfl⟩ := List.mem_map.mp hcm
      obtain ⟨a, b, c⟩ := convMats_lossy hp h hc c' hc'
      exact ⟨a.submatrix _, b.submatrix _, c.submatrix _⟩) h1
    unfold Spec.totalEfficiency SubRes.row1
    simp only [Finset.sum_const, Finset.card_univ, Fintype.card_fin, hf, mul_zero, zero_add, one_smul]
    simpa using this
  · rw [hg] at h1; cases h1
  · rw [hg] at h1; cases h1

/-- Non-vacuity: a two-pixel grating of indices `1` and `2 - i` in air at 30°, TE and TM. -/
example (pol : ℝ) (hpol : pol = 0 ∨ pol = 1) : ∃ sol, Spec.PassiveProblem (absSettings pol none) ∧
    gratingType (absSettings pol none) = 0 ∧ conv_solve exLA (absSettings pol none) = .ok sol := by
  obtain ⟨o, ho⟩ := abs_ok hpol
  exact ⟨_, absSettings_passive pol none (by simp), abs_grating pol hpol, ho⟩

end Meent

#print axioms Meent.C03_passivity
