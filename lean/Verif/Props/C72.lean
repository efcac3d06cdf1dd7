import Verif.Lemmas.BackendLaws
import Verif.Lemmas.ReciprocitySolve
import Verif.Props.C71

/-!
# C72: the symmetries of Maxwell's equations on JAX and PyTorch

Translation, scale invariance, reciprocity and mirror symmetry (C38, C39, C51, C53, C54, there on NumPy), for the efficiencies that
the other two backends report.

JAX: whenever both solves succeed.  PyTorch never reports a failed matrix inverse: it then goes on with a pseudo-inverse.  The
theorems are about the solves in which this does not happen, that is, about problems that NumPy solves; in 2D with modes
away from zero (`Spec.ModesAway`), see C40.
-/

set_option linter.unusedVariables false

namespace Meent

/-- What C57 asks of a problem: the raster has pixels, every ellipse has enough samples, and there is no thickness without a layer. -/
structure Spec.JaxReady (s : Settings) : Prop where
  pixels : ∀ u, s.ucell = .raster u → 0 < u.ny ∧ 0 < u.nx
  ellipses : Spec.EllipsesSplit s.ucell
  layers : s.p.thickness.length ≤ Spec.layerCount s.ucell

/-- What C40 asks of a NumPy solve: lossless claddings, and in 2D modes away from zero; for 1D gratings the azimuth is not
the number zero, or the polarization is neither TE nor TM. -/
structure Spec.TorchReady (s : Settings) (sol : Solved s.p.fto.1 s.p.fto.2) : Prop where
  claddings : Spec.LosslessCladdings s.p
  azimuth : gratingType s = 1 → s.p.phi ≠ some 0 ∨ ¬ (s.p.pol = 0 ∨ s.p.pol = 1)
  modes : Spec.ModesAway sol

/-! ### JAX -/

private theorem jax {env : Jax.Env} {s : Settings} (hr : Spec.JaxReady s) {sol : Solved s.p.fto.1 s.p.fto.2}
    (h : Jax.conv_solve env s = .ok sol) : conv_solve env.la s = .ok sol :=
  C57_jax_to_numpy env s hr.pixels hr.ellipses hr.layers sol h

private theorem roll_ready {s : Settings} {u : Ucell} (hu : s.ucell = .raster u) (sy sx : ℕ) (hr : Spec.JaxReady s) :
    Spec.JaxReady (Spec.withUcell s (.raster (Spec.rollAll sy sx u))) where
  pixels := fun v hv => by cases hv; exact hr.pixels u hu
  ellipses := fun ls h => by cases h
  layers := by have := hr.layers; rw [hu] at this; simpa [Spec.layerCount] using this

private theorem flipped_ready {s : Settings} (θ' : ℂ) (hr : Spec.JaxReady s) : Spec.JaxReady (Spec.flipped s θ') where
  pixels := fun v hv => by
    rcases h : s.ucell with u | ls
    · simp only [Spec.reversed, h, Structure.raster.injEq] at hv
      subst hv
      exact hr.pixels u h
    · simp [Spec.reversed, h] at hv
  ellipses := by
    have := hr.ellipses
    rcases h : s.ucell with u | ls
    · intro ls hls; simp [Spec.reversed, h] at hls
    · intro ls' hls
      simp only [Spec.reversed, h, Structure.vector.injEq] at hls
      subst hls
      intro l hl
      exact this ls h l (List.mem_reverse.mp hl)
  layers := by
    have := hr.layers
    rcases h : s.ucell with u | ls <;> rw [h] at this <;> simpa [Spec.layerCount, Spec.reversed, h] using this

private theorem image_ready {s : Settings} {u : Ucell} (hu : s.ucell = .raster u) (mx my : Bool) (θ' ψ' : ℂ) (φ' : Option ℂ) (pol' : ℝ)
    (hr : Spec.JaxReady s) : Spec.JaxReady (Spec.image mx my s u θ' φ' pol' ψ') where
  pixels := fun v hv => by cases hv; exact hr.pixels u hu
  ellipses := fun ls h => by cases h
  layers := by have := hr.layers; rw [hu] at this; simpa [Spec.layerCount] using this

/-- **C72, JAX, translation.**  Shifting all layers of a raster circularly by the same number of pixels changes no efficiency. -/
theorem C72_jax_translation (env env' : Jax.Env) (s : Settings) (hp : s.p.use_pinv = false) (hr : Spec.JaxReady s) (u : Ucell)
    (hu : s.ucell = .raster u) (sy sx : ℕ) (sol sol' : Solved s.p.fto.1 s.p.fto.2) (h : Jax.conv_solve env s = .ok sol)
    (h' : Jax.conv_solve env' (Spec.withUcell s (.raster (Spec.rollAll sy sx u))) = .ok sol') :
    Spec.SameEfficiencies sol.result sol'.result :=
  C39_translation hp hu (hr.pixels u hu).1 (hr.pixels u hu).2 sy sx (jax hr h) (jax (roll_ready hu sy sx hr) h')

/-- **C72, JAX, scale.**  Multiplying all lengths by the same positive number changes nothing in the result. -/
theorem C72_jax_scale (env : Jax.Env) (s : Settings) (hr : Spec.JaxReady s) (u : Ucell) (hu : s.ucell = .raster u) (c : ℝ) (hc : 0 < c)
    (sol sol' : Solved s.p.fto.1 s.p.fto.2) (h : Jax.conv_solve env s = .ok sol) (h' : Jax.conv_solve env (Spec.scaled c s) = .ok sol') :
    sol'.result = sol.result := by
  have hr' : Spec.JaxReady (Spec.scaled c s) :=
    ⟨fun v hv => by
        simp only [hu, Spec.scaleStructure, Structure.raster.injEq] at hv
        subst hv
        exact hr.pixels u hu,
      fun ls hls => by simp [hu, Spec.scaleStructure] at hls,
      by have := hr.layers; rw [hu] at this; simpa [Spec.layerCount, hu, Spec.scaleStructure] using this⟩
  have e := C38_scale env.la s u hu c hc
  rw [jax hr h, jax (s := Spec.scaled c s) hr' h'] at e
  exact Except.ok.inj e

/-- **C72, JAX, reciprocity of reflection.**  The specular reflection is the same for light from the opposite side. -/
theorem C72_jax_reflection (env env' : Jax.Env) (s : Settings) (hr : Spec.JaxReady s) (hi : Spec.RealIllumination s.p)
    (hp : s.p.use_pinv = false) (ha : s.algo = .tmm) (sol sol' : Solved s.p.fto.1 s.p.fto.2) (h : Jax.conv_solve env s = .ok sol)
    (h' : Jax.conv_solve env' (Spec.opposite s) = .ok sol') : Spec.ReflectionReciprocity sol.result sol'.result :=
  numpy_reflection hi hp ha (jax hr h) (jax (s := Spec.opposite s) ⟨hr.pixels, hr.ellipses, hr.layers⟩ h')

/-- **C72, JAX, reciprocity of transmission.**  The direct transmission is the same along the same path from below. -/
theorem C72_jax_transmission (env env' : Jax.Env) (s : Settings) (θ' : ℂ) (hr : Spec.JaxReady s) (hi : Spec.RealIllumination s.p)
    (hi' : Spec.RealIllumination (Spec.flipped s θ').p) (hb : Spec.Backwards s θ') (hlen : Spec.layerCount s.ucell = s.p.thickness.length)
    (hp : s.p.use_pinv = false) (ha : s.algo = .tmm) (sol sol' : Solved s.p.fto.1 s.p.fto.2) (h : Jax.conv_solve env s = .ok sol)
    (h' : Jax.conv_solve env' (Spec.flipped s θ') = .ok sol') : Spec.TransmissionReciprocity sol.result sol'.result :=
  numpy_transmission hi hi' hb hlen hp ha (jax hr h) (jax (flipped_ready θ' hr) h')

/-- **C72, JAX, mirror images.**  The mirrored structure under mirrored illumination has the mirrored diffraction pattern. -/
theorem C72_jax_mirror (env env' : Jax.Env) (s : Settings) (mx my : Bool) (θ' ψ' : ℂ) (φ' : Option ℂ) (pol' : ℝ) (hr : Spec.JaxReady s)
    (u : Ucell) (hu : s.ucell = .raster u) (hi : Spec.RealIllumination s.p)
    (hi' : Spec.RealIllumination (Spec.image mx my s u θ' φ' pol' ψ').p) (hd : Spec.MirrorDirection mx my s.p.theta s.p.phi θ' φ')
    (hp : s.p.use_pinv = false) (ha : s.algo = .tmm)
    (hg : gratingType s = 0 ∧ gratingType (Spec.image mx my s u θ' φ' pol' ψ') = 0 ∧ pol' = s.p.pol ∨
      gratingType s ≠ 0 ∧ gratingType (Spec.image mx my s u θ' φ' pol' ψ') ≠ 0)
    (sol sol' : Solved s.p.fto.1 s.p.fto.2) (h : Jax.conv_solve env s = .ok sol)
    (h' : Jax.conv_solve env' (Spec.image mx my s u θ' φ' pol' ψ') = .ok sol') :
    Spec.MirrorResults mx my (Spec.MirrorPsi mx my s.p.psi ψ') sol.result sol'.result :=
  numpy_mirror hu (hr.pixels u hu).1 (hr.pixels u hu).2 hi hi' hd hp ha hg (jax hr h) (jax (image_ready hu mx my θ' ψ' φ' pol' hr) h')

/-! ### PyTorch -/

/-- **C72, PyTorch, translation.** -/
theorem C72_torch_translation (la la' : LinAlg) (s : Settings) (hp : s.p.use_pinv = false) (ha : s.algo = .tmm) (u : Ucell)
    (hu : s.ucell = .raster u) (hy : 0 < u.ny) (hx : 0 < u.nx) (sy sx : ℕ) (sol sol' : Solved s.p.fto.1 s.p.fto.2)
    (h : conv_solve la s = .ok sol) (h' : conv_solve la' (Spec.withUcell s (.raster (Spec.rollAll sy sx u))) = .ok sol')
    (hr : Spec.TorchReady s sol) (hr' : Spec.TorchReady (Spec.withUcell s (.raster (Spec.rollAll sy sx u))) sol') :
    ∃ t t' : Solved s.p.fto.1 s.p.fto.2, tConv_solve la s.torch = .ok t ∧
      tConv_solve la' (Spec.withUcell s (.raster (Spec.rollAll sy sx u))).torch = .ok t' ∧ Spec.SameEfficiencies t.result t'.result := by
  obtain ⟨n, t, hn, ht, e⟩ := torch_runs hr.claddings ha hr.azimuth h hr.modes
  obtain ⟨n', t', hn', ht', e'⟩ := torch_runs (s := Spec.withUcell s (.raster (Spec.rollAll sy sx u))) hr'.claddings ha hr'.azimuth h' hr'.modes
  have hg : torchPsi (Spec.withUcell s (.raster (Spec.rollAll sy sx u))) s.p.psi = torchPsi s s.p.psi := by
    unfold torchPsi gratingType; simp [hu]
  rw [hg] at hn'
  exact ⟨t, t', ht, ht', (e.symm.trans (C39_translation (s := Spec.withPsi s (torchPsi s s.p.psi)) hp hu hy hx sy sx hn hn')).trans e'⟩

/-- **C72, PyTorch, scale.** -/
theorem C72_torch_scale (la : LinAlg) (s : Settings) (ha : s.algo = .tmm) (u : Ucell) (hu : s.ucell = .raster u) (c : ℝ) (hc : 0 < c)
    (sol sol' : Solved s.p.fto.1 s.p.fto.2) (h : conv_solve la s = .ok sol) (h' : conv_solve la (Spec.scaled c s) = .ok sol')
    (hr : Spec.TorchReady s sol) (hr' : Spec.TorchReady (Spec.scaled c s) sol') :
    ∃ t t' : Solved s.p.fto.1 s.p.fto.2, tConv_solve la s.torch = .ok t ∧ tConv_solve la (Spec.scaled c s).torch = .ok t' ∧
      Spec.SameEfficiencies t.result t'.result := by
  obtain ⟨n, t, hn, ht, e⟩ := torch_runs hr.claddings ha hr.azimuth h hr.modes
  obtain ⟨n', t', hn', ht', e'⟩ := torch_runs (s := Spec.scaled c s) hr'.claddings ha hr'.azimuth h' hr'.modes
  have hg : torchPsi (Spec.scaled c s) s.p.psi = torchPsi s s.p.psi := by
    unfold torchPsi gratingType
    simp [hu, Spec.scaleStructure]
  rw [hg] at hn'
  have k := C38_scale la (Spec.withPsi s (torchPsi s s.p.psi)) u hu c hc
  have hn'' : conv_solve la (Spec.scaled c (Spec.withPsi s (torchPsi s s.p.psi))) = .ok n' := hn'
  rw [hn, hn''] at k
  have k : n'.result = n.result := Except.ok.inj k
  refine ⟨t, t', ht, ht', e.symm.trans ?_⟩
  rw [← k]; exact e'

/-- **C72, PyTorch, reciprocity of reflection.** -/
theorem C72_torch_reflection (la la' : LinAlg) (s : Settings) (hp : s.p.use_pinv = false) (ha : s.algo = .tmm)
    (sol sol' : Solved s.p.fto.1 s.p.fto.2) (h : conv_solve la s = .ok sol) (h' : conv_solve la' (Spec.opposite s) = .ok sol')
    (hr : Spec.TorchReady s sol) (hr' : Spec.TorchReady (Spec.opposite s) sol') :
    ∃ t t' : Solved s.p.fto.1 s.p.fto.2, tConv_solve la s.torch = .ok t ∧ tConv_solve la' (Spec.opposite s).torch = .ok t' ∧
      Spec.ReflectionReciprocity t.result t'.result := by
  obtain ⟨n, t, hn, ht, e⟩ := torch_runs hr.claddings ha hr.azimuth h hr.modes
  obtain ⟨n', t', hn', ht', e'⟩ := torch_runs (s := Spec.opposite s) hr'.claddings ha hr'.azimuth h' hr'.modes
  have hi : Spec.RealIllumination (Spec.withPsi s (torchPsi s s.p.psi)).p :=
    { hr.claddings.toRealIllumination with psi_real := torchPsi_real hr.claddings.psi_real }
  exact ⟨t, t', ht, ht', (numpy_reflection (s := Spec.withPsi s (torchPsi s s.p.psi)) hi hp ha hn hn').of_same e e'⟩

/-- **C72, PyTorch, reciprocity of transmission.** -/
theorem C72_torch_transmission (la la' : LinAlg) (s : Settings) (θ' : ℂ) (hb : Spec.Backwards s θ')
    (hlen : Spec.layerCount s.ucell = s.p.thickness.length) (hp : s.p.use_pinv = false) (ha : s.algo = .tmm)
    (sol sol' : Solved s.p.fto.1 s.p.fto.2) (h : conv_solve la s = .ok sol) (h' : conv_solve la' (Spec.flipped s θ') = .ok sol')
    (hr : Spec.TorchReady s sol) (hr' : Spec.TorchReady (Spec.flipped s θ') sol') :
    ∃ t t' : Solved s.p.fto.1 s.p.fto.2, tConv_solve la s.torch = .ok t ∧ tConv_solve la' (Spec.flipped s θ').torch = .ok t' ∧
      Spec.TransmissionReciprocity t.result t'.result := by
  obtain ⟨n, t, hn, ht, e⟩ := torch_runs hr.claddings ha hr.azimuth h hr.modes
  obtain ⟨n', t', hn', ht', e'⟩ := torch_runs (s := Spec.flipped s θ') hr'.claddings ha hr'.azimuth h' hr'.modes
  have hi : Spec.RealIllumination (Spec.withPsi s (torchPsi s s.p.psi)).p :=
    { hr.claddings.toRealIllumination with psi_real := torchPsi_real hr.claddings.psi_real }
  have hi' : Spec.RealIllumination (Spec.flipped (Spec.withPsi s (torchPsi s s.p.psi)) θ').p :=
    { hr'.claddings.toRealIllumination with psi_real := torchPsi_real hr.claddings.psi_real }
  have hg : torchPsi (Spec.flipped s θ') s.p.psi = torchPsi s s.p.psi := by unfold torchPsi; rw [gratingType_flipped]
  rw [hg] at hn'
  exact ⟨t, t', ht, ht', (numpy_transmission (s := Spec.withPsi s (torchPsi s s.p.psi)) hi hi' hb hlen hp ha hn hn').of_same e e'⟩

/-- Polarizations that are mirror images remain so when their p parts change sign. -/
private theorem mirrorPsi_pi {mx my : Bool} {ψ ψ' : ℂ} (h : Spec.MirrorPsi mx my ψ ψ') :
    Spec.MirrorPsi mx my (Real.pi - ψ) (Real.pi - ψ') := by
  obtain ⟨c, hc, h1, h2⟩ := h
  refine ⟨c, hc, ?_, ?_⟩
  · rw [Complex.sin_pi_sub, Complex.sin_pi_sub, h1]
  · rw [Complex.cos_pi_sub, Complex.cos_pi_sub, h2, mul_neg]

/-- **C72, PyTorch, mirror images.** -/
theorem C72_torch_mirror (la la' : LinAlg) (s : Settings) (mx my : Bool) (θ' ψ' : ℂ) (φ' : Option ℂ) (pol' : ℝ) (u : Ucell)
    (hu : s.ucell = .raster u) (hny : 0 < u.ny) (hnx : 0 < u.nx) (hd : Spec.MirrorDirection mx my s.p.theta s.p.phi θ' φ')
    (hp : s.p.use_pinv = false) (ha : s.algo = .tmm)
    (hg : gratingType s = 0 ∧ gratingType (Spec.image mx my s u θ' φ' pol' ψ') = 0 ∧ pol' = s.p.pol ∨
      gratingType s ≠ 0 ∧ gratingType (Spec.image mx my s u θ' φ' pol' ψ') ≠ 0)
    (sol sol' : Solved s.p.fto.1 s.p.fto.2) (h : conv_solve la s = .ok sol)
    (h' : conv_solve la' (Spec.image mx my s u θ' φ' pol' ψ') = .ok sol')
    (hr : Spec.TorchReady s sol) (hr' : Spec.TorchReady (Spec.image mx my s u θ' φ' pol' ψ') sol') :
    ∃ t t' : Solved s.p.fto.1 s.p.fto.2, tConv_solve la s.torch = .ok t ∧
      tConv_solve la' (Spec.image mx my s u θ' φ' pol' ψ').torch = .ok t' ∧
      Spec.MirrorResults mx my (Spec.MirrorPsi mx my s.p.psi ψ') t.result t'.result := by
  obtain ⟨n, t, hn, ht, e⟩ := torch_runs hr.claddings ha hr.azimuth h hr.modes
  obtain ⟨n', t', hn', ht', e'⟩ := torch_runs (s := Spec.image mx my s u θ' φ' pol' ψ') hr'.claddings ha hr'.azimuth h' hr'.modes
  have hi : Spec.RealIllumination (Spec.withPsi s (torchPsi s s.p.psi)).p :=
    { hr.claddings.toRealIllumination with psi_real := torchPsi_real hr.claddings.psi_real }
  have hi' : Spec.RealIllumination (Spec.image mx my (Spec.withPsi s (torchPsi s s.p.psi)) u θ' φ' pol'
      (torchPsi (Spec.image mx my s u θ' φ' pol' ψ') ψ')).p :=
    { hr'.claddings.toRealIllumination with psi_real := torchPsi_real hr'.claddings.psi_real }
  have key := numpy_mirror (s := Spec.withPsi s (torchPsi s s.p.psi)) (mx := mx) (my := my) (θ' := θ') (φ' := φ') (pol' := pol')
    (ψ' := torchPsi (Spec.image mx my s u θ' φ' pol' ψ') ψ') hu hny hnx hi hi' hd hp ha hg hn hn'
  have key := key.of_same e e'
  refine ⟨t, t', ht, ht', ?_⟩
  rcases key with k | ⟨y, te, tm, y', te', tm', e1, e2, a, b, c⟩
  · exact Or.inl k
  · refine Or.inr ⟨y, te, tm, y', te', tm', e1, e2, a, b, fun hs => c ?_⟩
    unfold torchPsi
    rcases hg with ⟨g, g', -⟩ | ⟨g, g'⟩
    · rw [if_pos g, if_pos g']; exact hs
    · rw [if_neg g, if_neg g']; exact mirrorPsi_pi hs

/-! ### Non-vacuity -/

private theorem exReady (pol : ℝ) (phi : Option ℂ) : Spec.JaxReady (exSettings pol phi) :=
  ⟨fun u hu => by cases hu; exact ⟨one_pos, two_pos⟩, fun _ h => (by cases h), by simp [exSettings, exParams, exCell, Spec.layerCount]⟩

private theorem exTorchReady (pol : ℝ) (hpol : pol = 0 ∨ pol = 1) (o : Out1D 1) : Spec.TorchReady (exSettings pol none) (.tetm o) :=
  ⟨{ exParams_real pol none (by simp) with
      n_bot_real := by simp [exSettings, exParams, Spec.IsReal]
      n_bot_pos := by simp [exSettings, exParams] },
    fun _ => by simp [exSettings, exParams], fun o h => by cases h⟩

/-- The two-pixel grating on JAX, with any eigensolver that returns a basis: shifted, scaled, seen from the opposite side, upside
down and mirrored. -/
example (env : Jax.Env) (hb : Spec.ReturnsBasis env.la) (c : ℝ) (hc : 0 < c) :
    ∃ sol s₁ s₂ s₃ s₄ s₅, Jax.conv_solve env (exSettings 0 none) = .ok sol ∧
      Jax.conv_solve env (Spec.withUcell (exSettings 0 none) (.raster (Spec.rollAll 0 1 exCell))) = .ok s₁ ∧
      Jax.conv_solve env (Spec.scaled c (exSettings 0 none)) = .ok s₂ ∧
      Jax.conv_solve env (Spec.opposite (exSettings 0 none)) = .ok s₃ ∧
      Jax.conv_solve env (Spec.flipped (exSettings 0 none) (-((Real.pi / 6 : ℝ) : ℂ))) = .ok s₄ ∧
      Jax.conv_solve env (Spec.image true false (exSettings 0 none) exCell (-((Real.pi / 6 : ℝ) : ℂ)) none 0
        (exSettings 0 none).p.psi) = .ok s₅ ∧
      Spec.SameEfficiencies sol.result s₁.result ∧ s₂.result = sol.result ∧ Spec.ReflectionReciprocity sol.result s₃.result ∧
      Spec.TransmissionReciprocity sol.result s₄.result ∧ Spec.MirrorResults true false True sol.result s₅.result := by
  obtain ⟨o, ho⟩ := exTE_ok
  obtain ⟨o₁, ho₁⟩ := exTE_opp_ok
  obtain ⟨o', h'⟩ := exImage_tetm (.inl rfl) ho₁
  obtain ⟨sol, hs, -⟩ := C57_other_eig exLA env hb _ rfl _ ho
  obtain ⟨r, hr⟩ := C39_success hb (s := exSettings 0 none) rfl (u := exCell) rfl one_pos two_pos 0 1 (jax (exReady 0 none) hs)
  have hr := C57_numpy_to_jax_partial env (Spec.withUcell (exSettings 0 none) (.raster (Spec.rollAll 0 1 exCell))) (Or.inl rfl) r hr
  have hsc : ∃ s₂, Jax.conv_solve env (Spec.scaled c (exSettings 0 none)) = .ok s₂ := by
    have h := C38_scale env.la (exSettings 0 none) exCell rfl c hc
    rw [jax (exReady 0 none) hs] at h
    cases h₂ : conv_solve env.la (Spec.scaled c (exSettings 0 none)) with
    | error e => rw [h₂] at h; cases h
    | ok s₂ => exact ⟨s₂, C57_numpy_to_jax_partial env (Spec.scaled c (exSettings 0 none)) (Or.inl rfl) s₂ h₂⟩
  obtain ⟨s₂, hs₂⟩ := hsc
  obtain ⟨s₃, hs₃, -⟩ := C57_other_eig exLA env hb _ rfl _ ho₁
  obtain ⟨s₅, hs₅, -⟩ := C57_other_eig exLA env hb _ rfl _ h'
  have hre := exParams_real 0 none (by simp)
  have hg : gratingType (exSettings 0 none) = 0 := exSettings_grating 0 (.inl rfl)
  refine ⟨sol, r, s₂, s₃, s₃, s₅, hs, hr, hs₂, hs₃, hs₃, hs₅,
    C72_jax_translation env env (exSettings 0 none) rfl (exReady 0 none) exCell rfl 0 1 sol r hs hr,
    C72_jax_scale env (exSettings 0 none) (exReady 0 none) exCell rfl c hc sol s₂ hs hs₂,
    C72_jax_reflection env env (exSettings 0 none) (exReady 0 none) hre rfl rfl sol s₃ hs hs₃,
    C72_jax_transmission env env (exSettings 0 none) _ (exReady 0 none) hre (illumination_opposite hre) (backwards_example 0 none) rfl rfl rfl
      sol s₃ hs hs₃, ?_⟩
  have := C72_jax_mirror env env (exSettings 0 none) true false _ _ none 0 (exReady 0 none) exCell rfl hre (exOpp_real 0 none (by simp))
    (exDirection none (.inl rfl)) rfl rfl (Or.inl ⟨hg, hg, rfl⟩) sol s₅ hs hs₅
  rcases this with h | ⟨_, te, _, _, _, _, e, -⟩
  · exact Or.inl h
  · exfalso
    have hn := jax (exReady 0 none) hs
    obtain ⟨o₂, rfl⟩ : ∃ o₂, sol = .tetm o₂ := by
      rcases conv_solve_cases hn with ⟨-, h1⟩ | ⟨h1, -⟩ | ⟨h1, -⟩
      · exact h1
      · omega
      · omega
    have := congrArg Result.res_te_inc e
    simp [Solved.result] at this

/-- The same grating on PyTorch. -/
example (pol : ℝ) (hpol : pol = 0 ∨ pol = 1) : ∃ t t₃ t₄ t₅ : Solved 0 0, tConv_solve exLA (exSettings pol none).torch = .ok t ∧
      tConv_solve exLA (Spec.opposite (exSettings pol none)).torch = .ok t₃ ∧
      tConv_solve exLA (Spec.flipped (exSettings pol none) (-((Real.pi / 6 : ℝ) : ℂ))).torch = .ok t₄ ∧
      tConv_solve exLA (Spec.image true false (exSettings pol none) exCell (-((Real.pi / 6 : ℝ) : ℂ)) none pol
        (exSettings pol none).p.psi).torch = .ok t₅ ∧
      Spec.ReflectionReciprocity t.result t₃.result ∧ Spec.TransmissionReciprocity t.result t₄.result ∧
      ∃ b, Spec.MirrorResults true false b t.result t₅.result := by
  obtain ⟨o, ho⟩ : ∃ o, conv_solve exLA (exSettings pol none) = .ok (.tetm o) := by
    rcases hpol with rfl | rfl
    · exact exTE_ok
    · exact exTM_ok
  obtain ⟨o₁, ho₁⟩ : ∃ o, conv_solve exLA (Spec.opposite (exSettings pol none)) = .ok (.tetm o) := by
    rcases hpol with rfl | rfl
    · exact exTE_opp_ok
    · exact exTM_opp_ok
  obtain ⟨o', h'⟩ := exImage_tetm hpol ho₁
  have R := exTorchReady pol hpol
  have hop : Spec.LosslessCladdings (Spec.opposite (exSettings pol none)).p :=
    { exOpp_real pol none (by simp) with
      n_bot_real := by simp [exSettings, exParams, Spec.IsReal]
      n_bot_pos := by simp [exSettings, exParams] }
  have R' : ∀ o : Out1D 1, Spec.TorchReady (Spec.opposite (exSettings pol none)) (.tetm o) :=
    fun o => ⟨hop, fun _ => by simp [exSettings, exParams], fun o h => by cases h⟩
  have R₂ : ∀ o : Out1D 1, Spec.TorchReady (Spec.image true false (exSettings pol none) exCell (-((Real.pi / 6 : ℝ) : ℂ)) none pol
        (exSettings pol none).p.psi) (.tetm o) :=
    fun o => ⟨hop, fun _ => by simp, fun o h => by cases h⟩
  have hg : gratingType (exSettings pol none) = 0 := exSettings_grating pol hpol
  obtain ⟨t, t₃, ht, ht₃, k₃⟩ := C72_torch_reflection exLA exLA (exSettings pol none) rfl rfl _ _ ho ho₁ (R o) (R' o₁)
  obtain ⟨t₁, t₄, ht₁, ht₄, k₄⟩ := C72_torch_transmission exLA exLA (exSettings pol none) (-((Real.pi / 6 : ℝ) : ℂ)) (backwards_example pol none)
    rfl rfl rfl _ _ ho ho₁ (R o) (R' o₁)
  obtain ⟨t₂, t₅, ht₂, ht₅, k₅⟩ := C72_torch_mirror exLA exLA (exSettings pol none) true false _ _ none pol exCell rfl one_pos two_pos
    (exDirection none (.inl rfl)) rfl rfl (Or.inl ⟨hg, hg, rfl⟩) _ _ ho h' (R o) (R₂ o')
  obtain rfl := Except.ok.inj (ht.symm.trans ht₁)
  obtain rfl := Except.ok.inj (ht.symm.trans ht₂)
  exact ⟨t, t₃, t₄, t₅, ht, ht₃, ht₄, ht₅, k₃, k₄, _, k₅⟩

/-- A conical problem on PyTorch at any real polarization angle, shifted by one pixel, and in another unit of length. -/
example (psi : ℝ) (c : ℝ) (hc : 0 < c) : ∃ t t₁ t₂ : Solved 0 0, tConv_solve exLA (mixSettings psi).torch = .ok t ∧
    tConv_solve exLA (Spec.withUcell (mixSettings psi) (.raster (Spec.rollAll 0 1 mixCell))).torch = .ok t₁ ∧
    tConv_solve exLA (Spec.scaled c (mixSettings psi)).torch = .ok t₂ ∧
    Spec.SameEfficiencies t.result t₁.result ∧ Spec.SameEfficiencies t.result t₂.result := by
  obtain ⟨o, ho, -⟩ := mix_ok psi
  have hphi : (mixSettings psi).p.phi ≠ some 0 := by
    simp only [mixSettings, mixParams, ne_eq, Option.some.injEq]
    intro h0
    have := Real.arctan_pos.mpr (show (0 : ℝ) < 1 / 2 by norm_num)
    exact this.ne' (by exact_mod_cast h0)
  have ho' : conv_solve exLA (mixSettings psi) = .ok (.conical o : Solved 0 0) := ho
  obtain ⟨r, hr⟩ := C39_success exLA_basis (s := mixSettings psi) rfl (u := mixCell) rfl one_pos two_pos 0 1 ho'
  have hsc : ∃ s₂ : Solved 0 0, conv_solve exLA (Spec.scaled c (mixSettings psi)) = .ok s₂ := by
    have h := C38_scale exLA (mixSettings psi) mixCell rfl c hc
    rw [ho] at h
    cases h₂ : conv_solve exLA (Spec.scaled c (mixSettings psi)) with
    | error e => rw [h₂] at h; cases h
    | ok s₂ => exact ⟨s₂, rfl⟩
  obtain ⟨s₂, hs₂⟩ := hsc
  have away : ∀ {s : Settings} {sol : Solved s.p.fto.1 s.p.fto.2}, gratingType s = 1 → conv_solve exLA s = .ok sol → Spec.ModesAway sol := by
    intro s sol hg h
    rcases conv_solve_cases h with ⟨h1, -⟩ | ⟨-, ⟨o, rfl⟩ | rfl⟩ | ⟨h1, -⟩
    · omega
    · exact fun o h => by cases h
    · exact fun o h => by cases h
    · omega
  have hg : gratingType (mixSettings psi) = 1 := by simp [gratingType, mixSettings, mixCell, mixParams]
  have hl := mixLossless psi
  have hl₂ : Spec.LosslessCladdings (Spec.scaled c (mixSettings psi)).p :=
    { hl with wavelength_pos := mul_pos hc hl.wavelength_pos
              period_x_pos := mul_pos hc hl.period_x_pos
              period_y_pos := mul_pos hc hl.period_y_pos }
  obtain ⟨t, t₁, ht, ht₁, k₁⟩ := C72_torch_translation exLA exLA (mixSettings psi) rfl rfl mixCell rfl one_pos two_pos 0 1 _ r ho' hr
    ⟨hl, fun _ => Or.inl hphi, away hg ho'⟩ ⟨hl, fun _ => Or.inl hphi, away hg hr⟩
  obtain ⟨t', t₂, ht', ht₂, k₂⟩ := C72_torch_scale exLA (mixSettings psi) rfl mixCell rfl c hc _ s₂ ho' hs₂
    ⟨hl, fun _ => Or.inl hphi, away hg ho'⟩ ⟨hl₂, fun _ => Or.inl hphi, away (s := Spec.scaled c (mixSettings psi)) hg hs₂⟩
  obtain rfl := Except.ok.inj (ht.symm.trans ht')
  exact ⟨t, t₁, t₂, ht, ht₁, ht₂, k₁, k₂⟩

end Meent

#print axioms Meent.C72_jax_translation
#print axioms Meent.C72_jax_scale
#print axioms Meent.C72_jax_reflection
#print axioms Meent.C72_jax_transmission
#print axioms Meent.C72_jax_mirror
#print axioms Meent.C72_torch_translation
#print axioms Meent.C72_torch_scale
#print axioms Meent.C72_torch_reflection
#print axioms Meent.C72_torch_transmission
#print axioms Meent.C72_torch_mirror
