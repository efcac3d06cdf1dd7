import Verif.Props.C12b
import Verif.Props.C69
import Verif.Props.C72

/-!
# C40 and C69: 1D gratings with `phi` exactly zero, where NumPy and PyTorch choose different solvers
-/

open Matrix

namespace Meent

/-- The same PyTorch settings with another `phi`. -/
abbrev Spec.tWithPhi (t : TSettings) (phi : Option ℂ) : TSettings := { t with p := { t.p with phi := phi } }

/-- **C12 on PyTorch.** A one-row raster, isotropic or not, with `fto[1] = 0` and `pol` 0 or 1: `phi=None` and `phi=0` are
the same calculation, with the same result or the same exception, for all claddings and for `use_pinv` on or off. -/
theorem C12_torch (la : LinAlg) (t : TSettings) (hr : t.ucell.rows = some 1) (hpol : t.p.pol = 0 ∨ t.p.pol = 1)
    (hf : t.p.fto.2 = 0) :
    (tConv_solve la (Spec.tWithPhi t (some 0)) : Res (Solved t.p.fto.1 t.p.fto.2)) = tConv_solve la (Spec.tWithPhi t none) := by
  have g0 : tGratingType (Spec.tWithPhi t (some 0)) = 0 := by
    simp [tGratingType, hr, hpol, hf]
  have g1 : tGratingType (Spec.tWithPhi t none) = 0 := by
    simp [tGratingType, hr, hpol, hf]
  have hk : tKxVec (Spec.tWithPhi t (some 0)).p t.p.wavelength = tKxVec (Spec.tWithPhi t none).p t.p.wavelength := by
    funext i
    simp only [tKxVec, Option.getD_some, Option.getD_none]
  have hs : ∀ convs, tSolve_1d la (Spec.tWithPhi t (some 0)).p t.p.wavelength convs
      = tSolve_1d la (Spec.tWithPhi t none).p t.p.wavelength convs := by
    intro convs
    unfold tSolve_1d
    simp only [hk]
    rfl
  have hc : tConvMats la (Spec.tWithPhi t (some 0)) = tConvMats la (Spec.tWithPhi t none) := rfl
  unfold tConv_solve
  rw [hc]
  congr 1
  funext convs
  unfold tSolve_for_conv
  simp only [g0, g1]
  rcases t.algo with _ | _ | _
  · exact congrArg (fun r => Except.bind r fun o => Except.ok (Solved.tetm o)) (hs _)
  · rfl
  · rfl

/-- **C12 on JAX.** If JAX gives a result at `phi=0`, it gives one for `phi=None`, with the same six efficiency arrays. -/
theorem C12_jax (env env' : Jax.Env) (hb : Spec.ReturnsBasis env'.la) (s : Settings) (hr : Spec.JaxReady s)
    (hp : s.p.use_pinv = false) (u : Ucell) (hu : s.ucell = .raster u) (hny : u.ny = 1) (hf : s.p.fto.2 = 0)
    (hpol : s.p.pol = 0 ∨ s.p.pol = 1) (hpsi : Spec.PsiFollowsPol s) (ha : s.algo = .tmm)
    (hnt : s.p.n_top ≠ 0) (hre : Spec.IsReal s.p.n_top)
    (sol : Solved s.p.fto.1 s.p.fto.2) (h : Jax.conv_solve env (Spec.withPhi s (some 0)) = .ok sol) :
    ∃ sol' r r', Jax.conv_solve env' (Spec.withPhi s none) = .ok sol' ∧
      sol.result.res = some r ∧ sol'.result.res = some r' ∧ Spec.SameEff r' r := by
  have h1 := C57_jax_to_numpy env (Spec.withPhi s (some 0)) hr.pixels hr.ellipses hr.layers sol h
  obtain ⟨sol', r, r', h2, h3⟩ := C12_from_zero env.la env'.la hb s hp u hu hny hf hpol hpsi ha hnt hre sol h1
  exact ⟨sol', r, r', C57_numpy_to_jax_partial env' (Spec.withPhi s none) (Or.inl hp) sol' h2, h3⟩

/-- **C40, `phi = 0` on a 1D grating, success included.**  If the conical solver of NumPy gives a result, then the TE/TM
solver of PyTorch gives one too, with the same efficiencies, as long as its eigensolver returns independent eigenvectors
where there are any. -/
theorem C40_phi_zero_success {la la' : LinAlg} (hb : Spec.ReturnsBasis la) {s : Settings} (h : Spec.LosslessCladdings s.p)
    (hp : s.p.use_pinv = false) (u : Ucell) (hu : s.ucell = .raster u) (hny : u.ny = 1) (hf : s.p.fto.2 = 0)
    (hpol : s.p.pol = 0 ∨ s.p.pol = 1) (hpsi : Spec.PsiFollowsPol s) (ha : s.algo = .tmm)
    {sol : Solved s.p.fto.1 s.p.fto.2} (hs : conv_solve la' (Spec.withPhi s (some 0)) = .ok sol) :
    ∃ sol' : Solved s.p.fto.1 s.p.fto.2, tConv_solve la (Spec.withPhi s (some 0)).torch = .ok sol' ∧
      ∃ r r', sol.result.res = some r ∧ sol'.result.res = some r' ∧ Spec.SameEff r r' := by
  obtain ⟨-, sol1, h1⟩ := zero_to_none hb hp hu hny hf ha hs hpol
  exact C40_phi_zero_partial h hp u hu hny hf hpol hpsi ha hs h1

/-- **C69, PyTorch, lossless, `phi` exactly zero.** A lossless one-row structure that NumPy solves with its conical
solver is solved by the PyTorch backend with its TE/TM solver, and the efficiencies add up to one. -/
theorem C69_torch_energy_zero (la la' : LinAlg) (hb : Spec.ReturnsBasis la) (s : Settings) (h : Spec.LosslessProblem s)
    (hp : s.p.use_pinv = false) (ha : s.algo = .tmm) (u : Ucell) (hu : s.ucell = .raster u) (hny : u.ny = 1) (hf : s.p.fto.2 = 0)
    (hpol : s.p.pol = 0 ∨ s.p.pol = 1) (sol : Solved s.p.fto.1 s.p.fto.2) (hs : conv_solve la' (Spec.withPhi s (some 0)) = .ok sol) :
    ∃ sol' : Solved s.p.fto.1 s.p.fto.2, tConv_solve la (Spec.withPhi s (some 0)).torch = .ok sol' ∧ Spec.Totals sol'.result (· = 1) := by
  obtain ⟨-, sol1, h1⟩ := zero_to_none hb hp hu hny hf ha hs hpol
  have hg : gratingType (Spec.withPhi s none) = 0 := by simp [gratingType, hu, hny, hpol, hf]
  have h' : Spec.LosslessProblem (Spec.withPhi s none) :=
    { h with phi_real := fun _ hφ => (by cases hφ), structure_real := h.structure_real }
  obtain ⟨sol', h2, h3⟩ := C69_torch_energy la (Spec.withPhi s none) h' hp ha (fun h => by rw [hg] at h; cases h) sol1 h1 (by
    rintro o rfl
    rw [(conv_solve_twoD.mp h1).choose_spec.2.1] at hg
    cases hg)
  exact ⟨sol', (C12_torch la s.torch (by simp [Settings.torch, TStructure.rows, hu, hny]) hpol hf).trans h2, h3⟩

/-- **C69, PyTorch, passive, `phi` exactly zero.** The same for structures without gain: at most one. -/
theorem C69_torch_passive_zero (la la' : LinAlg) (hb : Spec.ReturnsBasis la) (s : Settings) (h : Spec.PassiveProblem s)
    (hp : s.p.use_pinv = false) (ha : s.algo = .tmm) (u : Ucell) (hu : s.ucell = .raster u) (hny : u.ny = 1) (hf : s.p.fto.2 = 0)
    (hpol : s.p.pol = 0 ∨ s.p.pol = 1) (sol : Solved s.p.fto.1 s.p.fto.2) (hs : conv_solve la' (Spec.withPhi s (some 0)) = .ok sol) :
    ∃ sol' : Solved s.p.fto.1 s.p.fto.2, tConv_solve la (Spec.withPhi s (some 0)).torch = .ok sol' ∧ Spec.Totals sol'.result (· ≤ 1) := by
  obtain ⟨-, sol1, h1⟩ := zero_to_none hb hp hu hny hf ha hs hpol
  have hg : gratingType (Spec.withPhi s none) = 0 := by simp [gratingType, hu, hny, hpol, hf]
  have h' : Spec.PassiveProblem (Spec.withPhi s none) :=
    { h with phi_real := fun _ hφ => (by cases hφ), layers_passive := h.layers_passive }
  obtain ⟨sol', h2, h3⟩ := C69_torch_passive la (Spec.withPhi s none) h' hp ha (fun h => by rw [hg] at h; cases h) sol1 h1 (by
    rintro o rfl
    rw [(conv_solve_twoD.mp h1).choose_spec.2.1] at hg
    cases hg)
  exact ⟨sol', (C12_torch la s.torch (by simp [Settings.torch, TStructure.rows, hu, hny]) hpol hf).trans h2, h3⟩

/-- Non-vacuity: the two-pixel grating at 30° with `phi=0`, which NumPy solves as conical. -/
example (pol : ℝ) (hpol : pol = 0 ∨ pol = 1) : ∃ sol sol' : Solved 0 0,
    conv_solve exLA (Spec.withPhi (exSettings pol none) (some 0)) = .ok sol ∧
    tConv_solve exLA (Spec.withPhi (exSettings pol none) (some 0)).torch = .ok sol' ∧ Spec.Totals sol'.result (· = 1) := by
  obtain ⟨o, ho⟩ := exCon_ok pol
  obtain ⟨sol', h1, h2⟩ := C69_torch_energy_zero exLA exLA exLA_basis (exSettings pol none) (exSettings_lossless pol none (by simp))
    rfl rfl _ rfl rfl rfl hpol _ ho
  exact ⟨_, sol', ho, h1, h2⟩

end Meent

#print axioms Meent.C12_torch
#print axioms Meent.C12_jax
#print axioms Meent.C40_phi_zero_success
#print axioms Meent.C69_torch_energy_zero
#print axioms Meent.C69_torch_passive_zero
