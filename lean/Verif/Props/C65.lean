import Verif.Lemmas.Script
import Verif.Lemmas.ObjectExample
import Verif.Props.C40
import Verif.Props.C57

/-!
# C65: one script, three backends

A script constructs a solver with keyword arguments, assigns attributes, solves and asks for fields in any order; some of its
lines may raise.  Run with any of the three backends it leaves the same attributes, and the solve at its end returns the same
efficiencies.
-/

namespace Meent

/-- **C65, attributes.** After any script the three objects have the same attributes, whatever its solves and field calls return
and whichever of its lines raise.  The backends may use different linear algebra. -/
theorem C65_attributes (env : Jax.Env) (la : LinAlg) (k : Kwargs) (ops : List Op) (hp : ∀ op ∈ ops, Spec.Portable op)
    (hj : ∀ op ∈ ops, Spec.InRange op) (o : Obj) (h : init k = .ok o) :
    ∃ j t, Jax.init k = .ok j ∧ TObj.init (Spec.torchArgs k) = .ok t ∧
      Spec.SameAttributesJax (Jax.run env j ops) (run env.la o ops) ∧
      Spec.SameAttributes (run env.la o ops) (TObj.run la t (ops.map Spec.torchOp)) := by
  obtain ⟨t, h1, h2⟩ := torch_init h
  exact ⟨o, t, jax_init h, h1, sameJax_of_core (jax_run env ops hj o o rfl), same_of_core (torch_run env.la la ops hp o t "cpu" h2)⟩

/-- **C65, JAX.** What a NumPy solve at the end of a script returns, a JAX solve at the end of the same script returns.  Left out:
the pseudo-inverse with the discrete transform. -/
theorem C65_jax_partial (env : Jax.Env) (k : Kwargs) (ops : List Op) (hj : ∀ op ∈ ops, Spec.InRange op) (o : Obj) (h : init k = .ok o)
    (s : Settings) (hs : Spec.Reads (run env.la o ops) s) (hd : Spec.NoDiscretePinv s) (o' : Obj) (r : AnyResult)
    (hr : convSolve env.la (run env.la o ops) = (o', .ok r)) :
    ∃ j, Jax.init k = .ok j ∧ (Jax.convSolve env (Jax.run env j ops)).2 = .ok r := by
  refine ⟨o, jax_init h, ?_⟩
  rw [Jax.convSolve_core env (jax_run env ops hj o o rfl)]
  obtain ⟨u, fx, fy, sol, h1, h2, h3, h4, -, rfl⟩ := convSolve_ok hr
  obtain rfl := reads_unique hs (reads_settings h1 h2 h3)
  have h5 : Jax.conv_solve env ((run env.la o ops).settings u fx fy) = .ok sol := C57_numpy_to_jax_partial env _ hd sol h4
  rw [Jax.convSolve_out h1 h2 h3, h5]

/-- **C65, PyTorch, TE/TM solver.** Between transparent claddings a PyTorch solve at the end of a script returns the efficiencies
of the NumPy solve at the end of the same script. -/
theorem C65_torch_tetm_partial (la : LinAlg) (k : Kwargs) (ops : List Op) (hp : ∀ op ∈ ops, Spec.Portable op) (o : Obj)
    (h : init k = .ok o) (s : Settings) (hs : Spec.Reads (run la o ops) s) (hl : Spec.LosslessCladdings s.p)
    (hg : Spec.expected s.ucell s.p.pol s.p.phi s.p.fto.2 = .teTm) (o' : Obj) (r : AnyResult)
    (hr : convSolve la (run la o ops) = (o', .ok r)) :
    ∃ t, TObj.init (Spec.torchArgs k) = .ok t ∧ ∃ fx fy, ∃ x x' : Result fx fy, r = ⟨fx, fy, x⟩ ∧
      (TObj.convSolve la (TObj.run la t (ops.map Spec.torchOp))).2 = .ok ⟨fx, fy, x'⟩ ∧ Spec.SameEfficiencies x x' := by
  obtain ⟨t, h1, h2⟩ := torch_init h
  refine ⟨t, h1, ?_⟩
  obtain ⟨u, fx, fy, sol, g1, g2, g3, g4, -, rfl⟩ := convSolve_ok hr
  obtain rfl := reads_unique hs (reads_settings g1 g2 g3)
  have hg' : gratingType ((run la o ops).settings u fx fy) = 0 := by rw [gratingType_expected, hg]; rfl
  obtain ⟨sol', e1, e2, -⟩ := C40_tetm_partial hl hg' g4
  exact ⟨fx, fy, sol.result, Solved.result (fx := fx) (fy := fy) sol', rfl,
    torch_convSolve (torch_run la la ops hp o t "cpu" h2) g1 g2 g3 e1, e2⟩

/-- **C65, PyTorch, conical and 2D solvers.** The same for an incident wave that is TE or TM polarized and modes off the real axis
or away from 0; also `res_te_inc` and `res_tm_inc` agree.  Mixed polarizations do not (`C40_mixed_negation`). -/
theorem C65_torch_pure_partial (la : LinAlg) (k : Kwargs) (ops : List Op) (hp : ∀ op ∈ ops, Spec.Portable op) (o : Obj)
    (h : init k = .ok o) (s : Settings) (hs : Spec.Reads (run la o ops) s) (hl : Spec.LosslessCladdings s.p)
    (hpsi : Complex.sin s.p.psi = 0 ∨ Complex.cos s.p.psi = 0)
    (hg : Spec.expected s.ucell s.p.pol s.p.phi s.p.fto.2 = .full2d ∨
      (Spec.expected s.ucell s.p.pol s.p.phi s.p.fto.2 = .conical ∧ s.p.phi ≠ some 0))
    (ha : s.algo = .tmm) (o' : Obj) (r : AnyResult) (hr : convSolve la (run la o ops) = (o', .ok r))
    (hq : ∀ fx fy sol, o'.stored = .solved fx fy sol → Spec.ModesAway sol) :
    ∃ t, TObj.init (Spec.torchArgs k) = .ok t ∧ ∃ fx fy, ∃ x x' : Result fx fy, r = ⟨fx, fy, x⟩ ∧
      (TObj.convSolve la (TObj.run la t (ops.map Spec.torchOp))).2 = .ok ⟨fx, fy, x'⟩ ∧ Spec.SameEfficiencies x x' := by
  obtain ⟨t, h1, h2⟩ := torch_init h
  refine ⟨t, h1, ?_⟩
  obtain ⟨u, fx, fy, sol, g1, g2, g3, g4, rfl, rfl⟩ := convSolve_ok hr
  obtain rfl := reads_unique hs (reads_settings g1 g2 g3)
  have hg' : gratingType ((run la o ops).settings u fx fy) = 2 ∨
      (gratingType ((run la o ops).settings u fx fy) = 1 ∧ ((run la o ops).settings u fx fy).p.phi ≠ some 0) := by
    rw [gratingType_expected]
    rcases hg with hg | ⟨hg, h0⟩
    · left; rw [hg]; rfl
    · right; exact ⟨by rw [hg]; rfl, h0⟩
  obtain ⟨sol', e1, e2⟩ := C40_pure_partial hl hpsi (hg'.imp_right fun k => ⟨k.1, Or.inl k.2⟩) ha g4 (hq fx fy sol rfl)
  exact ⟨fx, fy, sol.result, Solved.result (fx := fx) (fy := fy) sol', rfl,
    torch_convSolve (torch_run la la ops hp o t "cpu" h2) g1 g2 g3 e1, e2.eff⟩

/-- A script: an assignment that raises, a solve, and the solve at the end. -/
theorem exScript_run : ∃ o : Out1D 1, run exLA (exObj 0 none) [.setPol 3, .convSolve] =
    { exObj 0 none with grating := some 0, stored := .solved 0 0 (.tetm o) } := by
  obtain ⟨o, ho⟩ := exObj_te
  refine ⟨o, ?_⟩
  have h1 : (step exLA (exObj 0 none) (.setPol 3)).1 = exObj 0 none := by
    simp only [step]
    rw [setPol_err (by norm_num)]
    rfl
  have h2 : (step exLA (exObj 0 none) .convSolve).1 =
      { exObj 0 none with grating := some 0, stored := .solved 0 0 (.tetm o) } := by
    simp only [step]
    rw [ho]
  show (step exLA (step exLA (exObj 0 none) (.setPol 3)).1 .convSolve).1 = _
  rw [h1, h2]

/-- Non-vacuity of `C65_jax_partial` and `C65_torch_tetm_partial`: a grating, with a script whose first line raises. -/
example : init (exKwargs 0 none) = .ok (exObj 0 none) ∧
    (∀ op ∈ [Op.setPol 3, .convSolve], Spec.Portable op ∧ Spec.InRange op) ∧
    Spec.Reads (run exLA (exObj 0 none) [.setPol 3, .convSolve]) (exSettings 0 none) ∧
    Spec.NoDiscretePinv (exSettings 0 none) ∧ Spec.LosslessCladdings (exSettings 0 none).p ∧
    Spec.expected (exSettings 0 none).ucell (exSettings 0 none).p.pol (exSettings 0 none).p.phi (exSettings 0 none).p.fto.2 = .teTm ∧
    ∃ o' r, convSolve exLA (run exLA (exObj 0 none) [.setPol 3, .convSolve]) = (o', .ok r) := by
  obtain ⟨o, ho⟩ := exScript_run
  refine ⟨exObj_init ⟨le_rfl, zero_le_one⟩ none, ?_, ?_, .inl rfl, ?_, ?_, ?_⟩
  · intro op hop
    simp only [List.mem_cons, List.not_mem_nil, or_false] at hop
    rcases hop with rfl | rfl
    · exact ⟨trivial, by constructor <;> norm_num⟩
    · exact ⟨trivial, trivial⟩
  · rw [ho]
    have h := reads_settings (exObj_structure 0 none) (exObj_orders 0 none) (exObj_ready 0 none)
    rw [exObj_settings] at h
    exact ⟨h.ucell, h.n_top, h.n_bot, h.theta, h.phi, h.psi, h.pol, h.orders, h.period, h.wavelength, h.thickness, h.use_pinv,
      h.fourier_type, h.enhanced_dfs, h.algo⟩
  · exact { (exSettings_lossless 0 none (by simp)).toRealIllumination with
      n_bot_real := by simp [exSettings, exParams, Spec.IsReal], n_bot_pos := by simp [exSettings, exParams] }
  · simp [Spec.expected, exSettings, exParams, exCell]
  · obtain ⟨o1, h1⟩ := exObj_te
    have h2 := convSolve_congr exLA (exObj 0 none) (some 0) (.solved 0 0 (.tetm o)) (exObj 0 none).perturbation
    rw [ho]
    refine ⟨_, ⟨0, 0, (Solved.tetm o1 : Solved 0 0).result⟩, Prod.ext rfl ?_⟩
    rw [h1] at h2
    exact h2

/-- Non-vacuity of `C65_torch_pure_partial`: a vector model without layers, TE polarized, 2D solver. -/
example (la : LinAlg) : init bareKwargs = .ok bareObj ∧ Spec.Reads bareObj (bareObj.settings (.vector []) 0 0) ∧
    Spec.LosslessCladdings (bareObj.settings (.vector []) 0 0).p ∧ Complex.cos (bareObj.settings (.vector []) 0 0).p.psi = 0 ∧
    Spec.expected (.vector []) (0 : ℝ) (some 0) 0 = .full2d ∧ ∃ o' r, convSolve la bareObj = (o', .ok r) ∧
      ∀ fx fy sol, o'.stored = .solved fx fy sol → Spec.ModesAway sol := by
  have h1 : bareObj.structure = .ok (.vector []) := by simp [Obj.structure, bareObj]
  have h2 : bareObj.orders = .ok (0, 0) := by simp [Obj.orders, bareObj]
  have h3 : bareObj.ready = .ok () := by simp [Obj.ready, Obj.anglesReady, bareObj]
  refine ⟨bareObj_init, reads_settings h1 h2 h3, ?_, ?_, rfl, ?_⟩
  · have hb := bareSettings_illumination ((1 : ℝ) : ℂ) 0 (some 0) (fun φ hφ => by cases hφ; simp [Spec.IsReal])
    exact { hb with n_bot_real := by simp [Obj.settings, Obj.params, bareObj, Spec.IsReal],
                    n_bot_pos := by simp [Obj.settings, Obj.params, bareObj] }
  · simp [Obj.settings, Obj.params, bareObj]
  · obtain ⟨o, ho, hi⟩ := bareVec_ok' la
    have h : conv_solve la (bareObj.settings (.vector []) 0 0) = .ok (Solved.twoD o : Solved 0 0) := ho
    refine ⟨_, _, convSolve_intro h1 h2 h3 h, ?_⟩
    rintro fx fy sol ⟨⟩ o1 h4
    cases h4
    rw [hi]
    intro l hl
    cases hl

#print axioms C65_attributes
#print axioms C65_jax_partial
#print axioms C65_torch_tetm_partial
#print axioms C65_torch_pure_partial

end Meent
