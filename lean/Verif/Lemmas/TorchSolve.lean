import Verif.Lemmas.Torch
import Verif.Lemmas.Dispatch

/-!
# `conv_solve` of the two backends (helper lemmas)
-/

set_option linter.unusedSimpArgs false

open Matrix

namespace Meent

theorem tGrating_zero {s : Settings} (h : gratingType s = 0) : tGratingType s.torch = 0 := by
  obtain ⟨u, hu, hny, hpol, hphi, hf⟩ := gratingType_zero h
  unfold tGratingType Settings.torch
  simp [TStructure.rows, hu, hny, hpol, hphi, hf]

theorem tGrating_one {s : Settings} (h : gratingType s = 1) (hphi : s.p.phi ≠ some 0) : tGratingType s.torch = 1 := by
  obtain ⟨u, hu, hny, hn⟩ := gratingType_one h
  unfold tGratingType Settings.torch
  simp only [TStructure.rows, hu, hny, if_true, TStructure.isAniso, if_false]
  rw [if_neg (fun ⟨h1, h2, h3⟩ => hn ⟨h1, h2.resolve_right hphi, h3⟩)]
  exact if_neg (fun h => h)

theorem tGrating_one' {s : Settings} (h : gratingType s = 1) (hphi : s.p.phi ≠ some 0 ∨ ¬ (s.p.pol = 0 ∨ s.p.pol = 1)) :
    tGratingType s.torch = 1 := by
  rcases hphi with hphi | hpol
  · exact tGrating_one h hphi
  · obtain ⟨u, hu, hny, hn⟩ := gratingType_one h
    unfold tGratingType Settings.torch
    simp only [TStructure.rows, hu, hny, if_true, TStructure.isAniso, if_false]
    rw [if_neg (fun ⟨h1, _⟩ => hpol h1)]
    exact if_neg (fun h => h)

theorem tGrating_two {s : Settings} (h : gratingType s = 2) : tGratingType s.torch = 2 := by
  unfold gratingType at h
  unfold tGratingType Settings.torch
  rcases hu : s.ucell with u | ls
  · simp only [hu] at h
    by_cases hny : u.ny = 1
    · simp only [hny, if_true] at h
      split_ifs at h
      omega
    · simp [TStructure.rows, hny]
  · simp [TStructure.rows]

theorem tSolve_for_conv_zero {la : LinAlg} {s : TSettings} {wl : ℝ} {convs} {o}
    (h0 : tGratingType s = 0) (ha : s.algo = .tmm) (h : tSolve_1d la s.p wl (convs.map Conv.row) = .ok o) :
    tSolve_for_conv la s wl convs = .ok (.tetm o) := by
  unfold tSolve_for_conv
  simp only [h0, ha, h, bind, Except.bind]

theorem tSolve_for_conv_one {la : LinAlg} {s : TSettings} {wl : ℝ} {convs} {o}
    (h0 : tGratingType s = 1) (ha : s.algo = .tmm) (h : tSolve_1d_conical la s.p wl convs = .ok o) :
    tSolve_for_conv la s wl convs = .ok (.conical o) := by
  unfold tSolve_for_conv
  simp only [h0, ha, h, bind, Except.bind]

theorem tSolve_for_conv_smm {la : LinAlg} {s : TSettings} {wl : ℝ} {convs}
    (h0 : tGratingType s = 1) (ha : s.algo = .smm) : tSolve_for_conv la s wl convs = .ok .conicalSmm := by
  unfold tSolve_for_conv
  simp only [h0, ha]

theorem tSolve_for_conv_two {la : LinAlg} {s : TSettings} {wl : ℝ} {convs} {o}
    (h0 : tGratingType s = 2) (ha : s.algo = .tmm) (h : tSolve_2d la s.p wl convs = .ok o) :
    tSolve_for_conv la s wl convs = .ok (.twoD o) := by
  unfold tSolve_for_conv
  simp only [h0, ha, h, bind, Except.bind]

theorem tConv_solve_of {la : LinAlg} {s : Settings} {convs : List (Conv (FlatIdx s.p.fto.1 s.p.fto.2))}
    {r : Solved s.p.fto.1 s.p.fto.2}
    (h : convMats la s = .ok convs) (h' : tSolve_for_conv la s.torch s.p.wavelength convs = .ok r) :
    tConv_solve la s.torch = .ok r := by
  unfold tConv_solve
  exact Except.bind_ok.mpr ⟨convs, refines_tConvMats la s convs h, h'⟩

theorem tetm_torch {la : LinAlg} {s : Settings} (h : Spec.LosslessCladdings s.p)
    {o : Out1D (2 * s.p.fto.1 + 1)} (hs : conv_solve la s = .ok (.tetm o)) :
    ∃ o' : Out1D (2 * s.p.fto.1 + 1), tConv_solve la s.torch = .ok (.tetm o') ∧ Spec.SameEff o.res o'.res ∧
      Spec.ConjAmplitudes (phaseConv (tKxVec s.p s.p.wavelength)) 1 1 o.res o'.res := by
  obtain ⟨convs, hc, hg, ha, ho⟩ := conv_solve_tetm.mp hs
  obtain ⟨o', ho', -, -, e1, e2⟩ := tSolve_1d_of_ok h ho
  exact ⟨o', tConv_solve_of hc (tSolve_for_conv_zero (tGrating_zero hg) ha ho'), e1, e2⟩

/-- Conical and 2D solves: NumPy at polarization angle `psi0`, PyTorch at the angle of `s`. -/
theorem out4_torch {la : LinAlg} {s : Settings} (h : Spec.LosslessCladdings s.p) (psi0 : ℂ)
    (hg : gratingType s = 2 ∨ (gratingType s = 1 ∧ (s.p.phi ≠ some 0 ∨ ¬ (s.p.pol = 0 ∨ s.p.pol = 1)))) (ha : s.algo = .tmm)
    {sol : Solved s.p.fto.1 s.p.fto.2} (hs : conv_solve la (Spec.withPsi s psi0) = .ok sol) (hq : Spec.ModesAway sol) :
    ∃ sol' : Solved s.p.fto.1 s.p.fto.2, ∃ x x' : Out4 s.p.fto.1 s.p.fto.2, tConv_solve la s.torch = .ok sol' ∧
      sol.result = ⟨some x.res, some x.res_te, some x.res_tm⟩ ∧
      sol'.result = ⟨some x'.res, some x'.res_te, some x'.res_tm⟩ ∧
      ∃ t N, TorchOf (tKxVec s.p s.p.wavelength) psi0 s.p.psi s.p.theta s.p.n_top s.p.n_bot x x' t
        (kz2d s.p.n_top (kxF s.p s.p.wavelength) (kyF s.p s.p.wavelength))
        (kz2d s.p.n_bot (kxF s.p s.p.wavelength) (kyF s.p s.p.wavelength)) N := by
  have hcm : convMats la (Spec.withPsi s psi0) = convMats la s := rfl
  have hgt : gratingType (Spec.withPsi s psi0) = gratingType s := rfl
  rcases conv_solve_cases hs with ⟨h1, -⟩ | ⟨h1, ⟨o, rfl⟩ | rfl⟩ | ⟨h1, o, rfl⟩
  · rw [hgt] at h1; omega
  · obtain ⟨convs, hc, -, -, ho⟩ := conv_solve_conical.mp hs
    obtain ⟨o', t, N, ho', -, e⟩ := tSolve_con_of_ok h psi0 ho
    rw [hgt] at h1
    have hg1 := hg.resolve_left (by omega)
    exact ⟨.conical o', o.out, o'.out, tConv_solve_of hc (tSolve_for_conv_one (tGrating_one' h1 hg1.2) ha ho'), rfl, rfl,
      t, N, e⟩
  · obtain ⟨convs, hc, h2⟩ := conv_solve_ok.mp hs
    have := (solve_for_conv_smm.mp h2).2
    rw [show (Spec.withPsi s psi0).algo = s.algo from rfl, ha] at this
    cases this
  · obtain ⟨convs, hc, -, -, ho⟩ := conv_solve_twoD.mp hs
    obtain ⟨o', t, N, ho', -, e⟩ := tSolve_2d_of_ok h psi0 ho (fun l hl i => hq o rfl l hl i)
    exact ⟨.twoD o', o.out, o'.out, tConv_solve_of hc (tSolve_for_conv_two (tGrating_two (hgt ▸ h1)) ha ho'), rfl, rfl,
      t, N, e⟩

end Meent
