import Verif.Lemmas.Example2D
import Verif.Props.C04
import Verif.Spec.Rows
import Verif.Spec.Eigen

/-!
# C13: the conical and the 2D formulation agree on y-invariant patterns
-/

open Matrix

namespace Meent

theorem yInvariant_conical {la : LinAlg} {s : Settings} {nx : ℕ} {rows : List (Fin nx → ℂ)}
    (ha : s.algo = .tmm) (hg : gratingType (Spec.withUcell s (Spec.yInvariant 1 nx rows)) = 1)
    {sol : Solved s.p.fto.1 s.p.fto.2}
    (h : conv_solve la (Spec.withUcell s (Spec.yInvariant 1 nx rows)) = .ok sol) :
    ∃ o cs, sol = .conical o ∧ convMats la (Spec.withUcell s (Spec.yInvariant 1 nx rows)) = .ok cs ∧
      solve_1d_conical la s.p s.p.wavelength cs = .ok o := by
  rcases conv_solve_cases h with ⟨h1, -⟩ | ⟨-, ⟨o, rfl⟩ | rfl⟩ | ⟨h1, -⟩
  · rw [hg] at h1; cases h1
  · obtain ⟨cs, h1, -, -, h4⟩ := conv_solve_conical.mp h
    exact ⟨o, cs, rfl, h1, h4⟩
  · have := (solve_for_conv_smm.mp (conv_solve_ok.mp h).choose_spec.2).2
    simp only [ha] at this
    cases this
  · rw [hg] at h1; cases h1

/-- **C13.** A stack given as a one-row raster and solved by the conical formulation, and the same
stack given with `k ≥ 2` identical rows and solved by the 2D formulation (either Fourier analysis, any
angles, any eigensolvers): all reported amplitudes and efficiencies coincide. -/
theorem C13_conical_eq_2d (la la' : LinAlg) (s : Settings) (hp : s.p.use_pinv = false) (ha : s.algo = .tmm)
    (nx k : ℕ) (hk : 2 ≤ k) (rows : List (Fin nx → ℂ))
    (hg : gratingType (Spec.withUcell s (Spec.yInvariant 1 nx rows)) = 1)
    (sol sol' : Solved s.p.fto.1 s.p.fto.2)
    (h : conv_solve la (Spec.withUcell s (Spec.yInvariant 1 nx rows)) = .ok sol)
    (h' : conv_solve la' (Spec.withUcell s (Spec.yInvariant k nx rows)) = .ok sol') :
    sol'.result = sol.result ∧ ∃ o, sol' = .twoD o := by
  obtain ⟨o, cs, rfl, hc, h4⟩ := yInvariant_conical ha hg h
  have hf : s.p.fto.2 = 0 := ((solve_con_iff hp).mp h4).2.1
  have hg2 : gratingType (Spec.withUcell s (Spec.yInvariant k nx rows)) = 2 := by
    simp only [gratingType]
    rw [if_neg (by omega)]
  rcases conv_solve_cases h' with ⟨h1, -⟩ | ⟨h1, -⟩ | ⟨-, o', rfl⟩
  · rw [hg2] at h1; cases h1
  · rw [hg2] at h1; cases h1
  obtain ⟨cs', hc', -, -, h4'⟩ := conv_solve_twoD.mp h'
  have hcc := convMats_rows (la' := la') hp hf one_pos (show 0 < k by omega) rows hc
  obtain rfl := Except.ok.inj (hcc.symm.trans hc')
  have hz := convMats_epzi_epy (s := Spec.withUcell s (Spec.yInvariant 1 nx rows)) hp rfl
    (by intro l hl i i' j; obtain ⟨v, -, rfl⟩ := List.mem_map.mp hl; rfl) hc
  have e := solve_con_2d_agree hp hz h4 h4'
  simp only [Out4.results, Prod.mk.injEq] at e
  exact ⟨by simp only [Solved.result, e], o', rfl⟩

/-- **C13, success.** Whenever the conical solve succeeds, the 2D solve succeeds with every
eigensolver that returns bases. -/
theorem C13_conical_eq_2d_success (la la' : LinAlg) (hb : Spec.ReturnsBasis la') (s : Settings)
    (hp : s.p.use_pinv = false) (ha : s.algo = .tmm) (nx k : ℕ) (hk : 2 ≤ k) (rows : List (Fin nx → ℂ))
    (hg : gratingType (Spec.withUcell s (Spec.yInvariant 1 nx rows)) = 1)
    (sol : Solved s.p.fto.1 s.p.fto.2)
    (h : conv_solve la (Spec.withUcell s (Spec.yInvariant 1 nx rows)) = .ok sol) :
    ∃ sol', conv_solve la' (Spec.withUcell s (Spec.yInvariant k nx rows)) = .ok sol' ∧
      sol'.result = sol.result := by
  obtain ⟨o, cs, rfl, hc, h4⟩ := yInvariant_conical ha hg h
  have hf : s.p.fto.2 = 0 := ((solve_con_iff hp).mp h4).2.1
  have hg2 : gratingType (Spec.withUcell s (Spec.yInvariant k nx rows)) = 2 := by
    simp only [gratingType]
    rw [if_neg (by omega)]
  have hcc := convMats_rows (la' := la') hp hf one_pos (show 0 < k by omega) rows hc
  have hz := convMats_epzi_epy (s := Spec.withUcell s (Spec.yInvariant 1 nx rows)) hp rfl
    (by intro l hl i i' j; obtain ⟨v, -, rfl⟩ := List.mem_map.mp hl; rfl) hc
  obtain ⟨o', ho', e⟩ := solve_con_to_2d hp hz hb h4
  simp only [Out4.results, Prod.mk.injEq] at e
  exact ⟨.twoD o', conv_solve_twoD.mpr ⟨cs, hcc, hg2, ha, ho'⟩, by simp only [Solved.result, e]⟩

/-- The row of the example grating. -/
def exRow : Fin 2 → ℂ := fun j => if j = 0 then 1 else 2

theorem exSettings_yInvariant (pol : ℝ) (phi : Option ℂ) :
    exSettings pol phi = Spec.withUcell (exSettings pol phi) (Spec.yInvariant 1 2 [exRow]) := rfl

/-- Non-vacuity: the two-pixel grating at 30°, zero azimuth, any polarization; the conical solve
succeeds, and so does the 2D solve of two identical rows. -/
theorem exTwoD_ok (pol : ℝ) : ∃ o, conv_solve exLA
    (Spec.withUcell (exSettings pol (some 0)) (Spec.yInvariant 2 2 [exRow])) = .ok (.twoD o) := by
  obtain ⟨o, ho⟩ := exCon_ok pol
  have hg : gratingType (exSettings pol (some 0)) = 1 := by
    simp [gratingType, exSettings, exCell, exParams]
  obtain ⟨sol', h', -⟩ := C13_conical_eq_2d_success exLA exLA exLA_basis (exSettings pol (some 0)) rfl rfl 2 2 le_rfl
    [exRow] hg _ ho
  obtain ⟨-, o', rfl⟩ := C13_conical_eq_2d exLA exLA (exSettings pol (some 0)) rfl rfl 2 2 le_rfl
    [exRow] hg _ _ ho h'
  exact ⟨o', h'⟩

example (pol : ℝ) : ∃ sol sol', gratingType (Spec.withUcell (exSettings pol (some 0)) (Spec.yInvariant 1 2 [exRow])) = 1 ∧
    conv_solve exLA (Spec.withUcell (exSettings pol (some 0)) (Spec.yInvariant 1 2 [exRow])) = .ok sol ∧
    conv_solve exLA (Spec.withUcell (exSettings pol (some 0)) (Spec.yInvariant 2 2 [exRow])) = .ok sol' := by
  obtain ⟨o, ho⟩ := exCon_ok pol
  obtain ⟨o', ho'⟩ := exTwoD_ok pol
  have hg : gratingType (exSettings pol (some 0)) = 1 := by
    simp [gratingType, exSettings, exCell, exParams]
  exact ⟨_, _, hg, ho, ho'⟩

end Meent

#print axioms Meent.C13_conical_eq_2d
#print axioms Meent.C13_conical_eq_2d_success
