import Verif.Lemmas.BvpSolve
import Verif.Spec.Maxwell
import Verif.Lemmas.Example
import Verif.Lemmas.Example2D
import Verif.Props.C13

/-!
# C49: the reported amplitudes are the solution of Maxwell's equations
-/

namespace Meent

/-- **C49.** For every structure, illumination and formulation with non-zero cover index (transfer matrix method,
plain inverses), whenever the solve succeeds: there are fields that solve Maxwell's equations in the stack (for the
retained orders), are continuous, and match the incident wave and given outgoing amplitudes outside, if and only if
these amplitudes are the reported ones. -/
theorem C49_unique (la : LinAlg) (s : Settings) (hp : s.p.use_pinv = false) (ha : s.algo = .tmm) (hn : s.p.n_top ≠ 0)
    (r : Solved s.p.fto.1 s.p.fto.2) (h : conv_solve la s = .ok r) :
    ∃ cs, convMats la s = .ok cs ∧ Spec.UniquelySolves s.p cs r := by
  cases r with
  | tetm o =>
    obtain ⟨cs, hc, -, -, ho⟩ := conv_solve_tetm.mp h
    exact ⟨cs, hc, (solve_1d_bvp hp hn ho).2⟩
  | conical o =>
    obtain ⟨cs, hc, hg, -, ho⟩ := conv_solve_conical.mp h
    obtain ⟨u, hu, hy, -⟩ := gratingType_one hg
    have hz := convMats_epzi_epy hp hu (fun l _ i i' j => by
      have hs : i = i' := by ext; have := i.isLt; have := i'.isLt; omega
      rw [hs]) hc
    exact ⟨cs, hc, (solve_con_bvp hp hn hz ho).2⟩
  | conicalSmm =>
    obtain ⟨_, _, h⟩ := conv_solve_ok.mp h
    have := (solve_for_conv_smm.mp h).2
    rw [ha] at this; cases this
  | twoD o =>
    obtain ⟨cs, hc, -, -, ho⟩ := conv_solve_twoD.mp h
    exact ⟨cs, hc, (solve_2d_bvp hp hn ho).2⟩

/-- Non-vacuity: the two-pixel grating at 30°, conical formulation with any polarization, TE and TM; and with
two rows in the 2D formulation. -/
example (pol : ℝ) : ∃ o cs, conv_solve exLA (exSettings pol (some 0)) = .ok (.conical o) ∧
    Spec.UniquelySolves (exSettings pol (some 0)).p cs (.conical o) := by
  obtain ⟨o, ho⟩ := exCon_ok pol
  obtain ⟨cs, -, h⟩ := C49_unique exLA (exSettings pol (some 0)) rfl rfl (by simp [exSettings, exParams]) _ ho
  exact ⟨o, cs, ho, h⟩

example : ∃ o cs, conv_solve exLA (exSettings 0 none) = .ok (.tetm o) ∧
    Spec.UniquelySolves (exSettings 0 none).p cs (.tetm o) := by
  obtain ⟨o, ho⟩ := exTE_ok
  obtain ⟨cs, -, h⟩ := C49_unique exLA (exSettings 0 none) rfl rfl (by simp [exSettings, exParams]) _ ho
  exact ⟨o, cs, ho, h⟩

example : ∃ o cs, conv_solve exLA (exSettings 1 none) = .ok (.tetm o) ∧
    Spec.UniquelySolves (exSettings 1 none).p cs (.tetm o) := by
  obtain ⟨o, ho⟩ := exTM_ok
  obtain ⟨cs, -, h⟩ := C49_unique exLA (exSettings 1 none) rfl rfl (by simp [exSettings, exParams]) _ ho
  exact ⟨o, cs, ho, h⟩

example (pol : ℝ) : ∃ o cs, conv_solve exLA (Spec.withUcell (exSettings pol (some 0)) (Spec.yInvariant 2 2 [exRow]))
      = .ok (.twoD o) ∧ Spec.UniquelySolves (exSettings pol (some 0)).p cs (.twoD o) := by
  obtain ⟨o, ho⟩ := exTwoD_ok pol
  obtain ⟨cs, -, h⟩ := C49_unique exLA (Spec.withUcell (exSettings pol (some 0)) (Spec.yInvariant 2 2 [exRow])) rfl rfl
    (by simp [exSettings, exParams]) _ ho
  exact ⟨o, cs, ho, h⟩

end Meent

#print axioms Meent.C49_unique
