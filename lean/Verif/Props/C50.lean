import Verif.Lemmas.TorchField
import Verif.Lemmas.TorchNeg
import Verif.Props.C12

/-!
# C50: the PyTorch and the NumPy backend return the same fields

PyTorch reports fields for the opposite time dependence and with the y axis reversed (`Spec.Mirrored`).  Apart from
that the samples are equal up to one global factor, which depends on the incident wave only.

* `C50_tetm`: the TE/TM solver, factor -1 for TE and 1 for TM.
* `C50_pure`: the conical and 2D solvers at pure polarization, with the same factors.
* `C50_psi`: the same at every polarization angle, when NumPy is given `π - ψ` (see C40).
-/

open Matrix

namespace Meent

/-- **C50, TE/TM solver.**  Whenever NumPy returns fields so does PyTorch, and they are the same. -/
theorem C50_tetm {la : LinAlg} {s : Settings} (h : Spec.LosslessCladdings s.p) (hg : gratingType s = 0)
    (rx ry rz : ℕ) (sel : Bool × Bool × Bool) {sol : Solved s.p.fto.1 s.p.fto.2} {cell : FieldCell rx ry rz}
    (hs : conv_solve_field la s rx ry rz sel = .ok (sol, cell)) :
    ∃ (sol' : Solved s.p.fto.1 s.p.fto.2) (cell' : TFieldCell rx ry rz),
      tConv_solve_field la s.torch rx ry rz sel = .ok (sol', cell') ∧
      Spec.SameFields s.p.pol (if s.p.pol = 0 then -1 else 1) sel cell cell' := by
  obtain ⟨r, hr, hs⟩ := Except.bind_ok.mp hs
  obtain ⟨f, hf, hs⟩ := Except.bind_ok.mp hs
  cases hs
  rcases conv_solve_cases hr with ⟨-, o, rfl⟩ | ⟨h1, -⟩ | ⟨h1, -⟩
  · obtain ⟨convs, hc, -, ha, ho⟩ := conv_solve_tetm.mp hr
    obtain ⟨o', ho', e1, e2, -, -⟩ := tSolve_1d_of_ok h ho
    obtain ⟨-, -, -, hpol, -⟩ := gratingType_zero hg
    obtain ⟨cell', hcell, hsame⟩ := tetm_fields h.toRealIllumination hpol e1 e2 rx ry rz sel
    have := tConv_solve_of hc (tSolve_for_conv_zero (tGrating_zero hg) ha ho')
    obtain rfl := Except.ok.inj hf
    exact ⟨.tetm o', cell', tConv_solve_field_of this hcell, hsame⟩
  · omega
  · omega

private theorem fields {la : LinAlg} {s : Settings} (h : Spec.LosslessCladdings s.p) {psi0 c : ℂ} (hc : c = 1 ∨ c = -1)
    (he : tFinalB (m := FlatIdx s.p.fto.1 s.p.fto.2) deltaI0 s.p.psi s.p.theta s.p.n_top
      = c • finalB deltaI0 psi0 s.p.theta s.p.n_top)
    (hg : gratingType s = 2 ∨ (gratingType s = 1 ∧ s.p.phi ≠ some 0))
    (rx ry rz : ℕ) (sel : Bool × Bool × Bool) {sol : Solved s.p.fto.1 s.p.fto.2} {cell : FieldCell rx ry rz}
    (hs : conv_solve_field la (Spec.withPsi s psi0) rx ry rz sel = .ok (sol, cell)) (hq : Spec.ModesAway sol) :
    ∃ (sol' : Solved s.p.fto.1 s.p.fto.2) (cell' : TFieldCell rx ry rz),
      tConv_solve_field la s.torch rx ry rz sel = .ok (sol', cell') ∧
      Spec.SameFields s.p.pol (-c) sel cell cell' := by
  have hgt : gratingType (Spec.withPsi s psi0) = gratingType s := rfl
  obtain ⟨r, hr, hs⟩ := Except.bind_ok.mp hs
  obtain ⟨f, hf, hs⟩ := Except.bind_ok.mp hs
  cases hs
  rcases conv_solve_cases hr with ⟨h1, -⟩ | ⟨h1, ⟨o, rfl⟩ | rfl⟩ | ⟨h1, o, rfl⟩
  · rw [hgt] at h1; omega
  · obtain ⟨convs, hcv, -, ha, ho⟩ := conv_solve_conical.mp hr
    obtain ⟨o', t, N, ho', e2, e⟩ := tSolve_con_of_ok h psi0 ho
    rw [hgt] at h1
    have hg1 := hg.resolve_left (by omega)
    obtain ⟨v1, v2, v3⟩ := TorchOf.vectors e he
    obtain ⟨cell', hcell, hsame⟩ := con_fields (p := s.p) (o := o) (o' := o') (psi0 := psi0)
      h.toRealIllumination hc v1 v2 v3 e2 rx ry rz sel
    have := tConv_solve_of (s := s) hcv (tSolve_for_conv_one (tGrating_one h1 hg1.2) ha ho')
    obtain rfl := Except.ok.inj hf
    exact ⟨.conical o', cell', tConv_solve_field_of this hcell, hsame⟩
  · cases hf
  · obtain ⟨convs, hcv, -, ha, ho⟩ := conv_solve_twoD.mp hr
    obtain ⟨o', t, N, ho', e2, e⟩ := tSolve_2d_of_ok h psi0 ho (fun l hl i => hq o rfl l hl i)
    obtain ⟨v1, v2, v3⟩ := TorchOf.vectors e he
    obtain ⟨cell', hcell, hsame⟩ := twoD_fields (p := s.p) (o := o) (o' := o') (psi0 := psi0)
      h.toRealIllumination hc v1 v2 v3 e2 rx ry rz sel
    have := tConv_solve_of (s := s) hcv (tSolve_for_conv_two (tGrating_two (hgt ▸ h1)) ha ho')
    obtain rfl := Except.ok.inj hf
    exact ⟨.twoD o', cell', tConv_solve_field_of this hcell, hsame⟩

/-- **C50, conical and 2D solvers, pure polarization.**  For every selection of incident waves: factor 1 for `pol = 1`
(`sin ψ = 0`), -1 for `pol = 0` (`cos ψ = 0`), -1 for the TE and 1 for the TM selection. -/
theorem C50_pure {la : LinAlg} {s : Settings} (h : Spec.LosslessCladdings s.p)
    (hg : gratingType s = 2 ∨ (gratingType s = 1 ∧ s.p.phi ≠ some 0))
    (rx ry rz : ℕ) (sel : Bool × Bool × Bool) {sol : Solved s.p.fto.1 s.p.fto.2} {cell : FieldCell rx ry rz}
    (hs : conv_solve_field la s rx ry rz sel = .ok (sol, cell)) (hq : Spec.ModesAway sol)
    {c : ℂ} (hpsi : (Complex.sin s.p.psi = 0 ∧ c = 1) ∨ (Complex.cos s.p.psi = 0 ∧ c = -1)) :
    ∃ (sol' : Solved s.p.fto.1 s.p.fto.2) (cell' : TFieldCell rx ry rz),
      tConv_solve_field la s.torch rx ry rz sel = .ok (sol', cell') ∧
      Spec.SameFields s.p.pol c sel cell cell' := by
  rcases hpsi with ⟨h0, rfl⟩ | ⟨h0, rfl⟩
  · have := fields h (c := -1) (Or.inr rfl) (tFinalB_of_sin _ h0) hg rx ry rz sel (psi0 := s.p.psi) hs hq
    rwa [neg_neg] at this
  · exact fields h (c := 1) (Or.inl rfl) (tFinalB_of_cos _ h0) hg rx ry rz sel (psi0 := s.p.psi) hs hq

/-- **C50, conical and 2D solvers, any polarization.**  PyTorch at polarization angle `ψ` returns the fields that
NumPy returns at `π - ψ`. -/
theorem C50_psi {la : LinAlg} {s : Settings} (h : Spec.LosslessCladdings s.p)
    (hg : gratingType s = 2 ∨ (gratingType s = 1 ∧ s.p.phi ≠ some 0))
    (rx ry rz : ℕ) (sel : Bool × Bool × Bool) {sol : Solved s.p.fto.1 s.p.fto.2} {cell : FieldCell rx ry rz}
    (hs : conv_solve_field la (Spec.withPsi s (Real.pi - s.p.psi)) rx ry rz sel = .ok (sol, cell))
    (hq : Spec.ModesAway sol) :
    ∃ (sol' : Solved s.p.fto.1 s.p.fto.2) (cell' : TFieldCell rx ry rz),
      tConv_solve_field la s.torch rx ry rz sel = .ok (sol', cell') ∧
      Spec.SameFields s.p.pol (-1) sel cell cell' :=
  fields h (c := 1) (Or.inl rfl) (by rw [one_smul]; exact tFinalB_eq _ _ _ _) hg rx ry rz sel hs hq

/-- Non-vacuity of `C50_tetm`: the two-pixel grating of `exSettings` has fields in both backends. -/
example (pol : ℝ) (hpol : pol = 0 ∨ pol = 1) (sel : Bool × Bool × Bool) :
    ∃ (sol sol' : Solved 0 0) (cell : FieldCell 20 20 20) (cell' : TFieldCell 20 20 20),
      conv_solve_field exLA (exSettings pol none) 20 20 20 sel = .ok (sol, cell) ∧
      tConv_solve_field exLA (exSettings pol none).torch 20 20 20 sel = .ok (sol', cell') ∧
      Spec.SameFields pol (if pol = 0 then -1 else 1) sel cell cell' := by
  have hl : Spec.LosslessCladdings (exSettings pol none).p :=
    { (exSettings_lossless pol none (by simp)).toRealIllumination with
      n_bot_real := by simp [exSettings, exParams, Spec.IsReal], n_bot_pos := by simp [exSettings, exParams] }
  obtain ⟨o, ho⟩ : ∃ o, conv_solve exLA (exSettings pol none) = .ok (.tetm o) := by
    rcases hpol with rfl | rfl
    · exact exTE_ok
    · exact exTM_ok
  have h1 : conv_solve_field exLA (exSettings pol none) 20 20 20 sel
      = .ok (.tetm o, .tetm (field_dist_1d (exSettings pol none).p o 20 20)) :=
    Except.bind_ok.mpr ⟨_, ho, rfl⟩
  obtain ⟨sol', cell', h2, h3⟩ := C50_tetm hl (exSettings_grating pol hpol) 20 20 20 sel h1
  exact ⟨_, sol', _, cell', h1, h2, h3⟩

/-- Non-vacuity of `C50_psi`: the grating of `C40_mixed_negation` at 45 degrees polarization, all three inputs. -/
example : ∃ (sol sol' : Solved 0 0) (cell : FieldCell 20 20 20) (cell' : TFieldCell 20 20 20),
      conv_solve_field exLA (mixSettings ((Real.pi : ℂ) - ((Real.pi / 4 : ℝ) : ℂ))) 20 20 20 (true, true, true)
        = .ok (sol, cell) ∧
      tConv_solve_field exLA (mixSettings ((Real.pi / 4 : ℝ) : ℂ)).torch 20 20 20 (true, true, true)
        = .ok (sol', cell') ∧
      Spec.SameFields (1 / 2) (-1) (true, true, true) cell cell' := by
  obtain ⟨o', ho', -⟩ := mix_ok ((Real.pi : ℂ) - ((Real.pi / 4 : ℝ) : ℂ))
  have h1 : conv_solve_field exLA (mixSettings ((Real.pi : ℂ) - ((Real.pi / 4 : ℝ) : ℂ))) 20 20 20 (true, true, true)
      = .ok (.conical o', .vector (field_dist_1d_conical (mixSettings ((Real.pi : ℂ) - ((Real.pi / 4 : ℝ) : ℂ))).p o' 20 20 20
        (true, true, true))) :=
    Except.bind_ok.mpr ⟨_, ho', rfl⟩
  obtain ⟨sol', cell', h2, h3⟩ := C50_psi (s := mixSettings ((Real.pi / 4 : ℝ) : ℂ)) (mixLossless (Real.pi / 4))
    (Or.inr ⟨by simp [gratingType, mixSettings, mixCell, mixParams], by
      simp only [mixSettings, mixParams, ne_eq, Option.some.injEq]
      intro h0
      have := Real.arctan_pos.mpr (show (0 : ℝ) < 1 / 2 by norm_num)
      exact this.ne' (by exact_mod_cast h0)⟩) 20 20 20 (true, true, true) h1 (fun o h => by cases h)
  exact ⟨_, sol', _, cell', h1, h2, h3⟩

#print axioms C50_tetm
#print axioms C50_pure
#print axioms C50_psi

end Meent
