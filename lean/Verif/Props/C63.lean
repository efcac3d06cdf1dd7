import Verif.Lemmas.TorchObjectExample

/-!
# C63: the PyTorch solver object

What `conv_solve` of a PyTorch solver object returns depends on the values of its parameters only: not on how they were reached,
nor on whether they were passed to the constructor, assigned, or given as keyword arguments.  Fails after an assignment that
raised: the rejected period stays stored, and a rejected array turns a vector structure into an unusable raster.
-/

open Matrix

namespace Meent

open TObj

/-- **C63, solve.** Whenever `conv_solve` returns, it returns the solve of the settings that can be read on the object. -/
theorem C63_solve (la : LinAlg) (o o' : TObj) (r : AnyResult) (h : TObj.convSolve la o = (o', .ok r)) :
    ∃ s sol, Spec.TorchReads o s ∧ tConv_solve la s = .ok sol ∧ r = ⟨s.p.fto.1, s.p.fto.2, sol.result⟩ := by
  obtain ⟨u, fx, fy, sol, h1, h2, h3, h4, -, h6⟩ := TObj.convSolve_ok h
  exact ⟨o.settings u fx fy, sol, TObj.reads_settings h1 h2 h3, h4, h6⟩

/-- **C63, independence.** Two objects that reached the same parameter values, a structure among them, on any two histories
(none with an array rejected by the `ucell` setter) get the same outcome from `conv_solve`: equal results or the same exception. -/
theorem C63_history_partial (la : LinAlg) (k₁ k₂ : TObj.Kwargs) (ops₁ ops₂ : List TObj.Op) (a b : TObj)
    (ha : Spec.TorchHistory la k₁ ops₁ a) (hb : Spec.TorchHistory la k₂ ops₂ b)
    (na : Spec.TorchNoRejected ops₁) (nb : Spec.TorchNoRejected ops₂)
    (hs : Spec.TorchSameParameters a b) (hu : a.ucell ≠ none) : (TObj.convSolve la a).2 = (TObj.convSolve la b).2 := by
  have ca := TObj.consistent_of_history ha na
  have cb := TObj.consistent_of_history hb nb
  have hm : a.modeling = b.modeling := by
    unfold TObj.Consistent at ca cb
    rw [← hs.ucell] at cb
    match h : a.ucell with
    | none => exact absurd h hu
    | some (.iso (.raster u)) => rw [h] at ca cb; exact ca.trans cb.symm
    | some (.aniso u) => rw [h] at ca cb; exact ca.trans cb.symm
    | some (.iso (.vector u)) => rw [h] at ca cb; exact ca.trans cb.symm
    | some (.avector u) => rw [h] at ca cb; exact ca.trans cb.symm
  have e : b = { a with grating := b.grating, stored := b.stored, perturbation := b.perturbation } := by
    rcases a with ⟨⟩
    rcases b with ⟨⟩
    obtain ⟨h0, h1, h2, h3, h4, h5, h6, h7, h8, h9, h10, h11, h12, h13, h14, h15⟩ := hs
    dsimp only at h0 h1 h2 h3 h4 h5 h6 h7 h8 h9 h10 h11 h12 h13 h14 h15 hm
    subst h0 h1 h2 h3 h4 h5 h6 h7 h8 h9 h10 h11 h12 h13 h14 h15 hm
    rfl
  have key := TObj.convSolve_congr la a b.grating b.stored b.perturbation
  rw [← e] at key
  exact key.symm

/-- **C63, repetition.** In every state, solving a second time gives the same outcome, also when the first call had keyword
arguments: they stay assigned. -/
theorem C63_repeat (la : LinAlg) (o : TObj) (kws : List Assign) (hok : (setattrs o kws).2 = .ok ()) :
    (convSolveKw la (convSolveKw la o kws).1 []).2 = (convSolveKw la o kws).2 := by
  have h1 : convSolveKw la o kws = TObj.convSolve la (setattrs o kws).1 := by
    unfold convSolveKw
    rcases hq : setattrs o kws with ⟨q, e | ⟨⟩⟩
    · rw [hq] at hok; cases hok
    · rfl
  rw [h1]
  exact convSolve_of_core la (TObj.convSolve_frame la _)

/-- **C63, keyword arguments.** `conv_solve(**kwargs)` on an object constructed from `k`, after any number of solves, has the
outcome of `conv_solve()` on an object constructed from `k` with these arguments replaced. -/
theorem C63_kwargs (la : LinAlg) (k k' : TObj.Kwargs) (kws : List Assign) (o : TObj) (ops : List TObj.Op)
    (h : TObj.init k = .ok o) (hops : Spec.SolvesOnly ops) (hk : Spec.torchOverrides kws k = some k')
    (hok : (setattrs (TObj.run la o ops) kws).2 = .ok ()) :
    ∃ o', TObj.init k' = .ok o' ∧ (convSolveKw la (TObj.run la o ops) kws).2 = (TObj.convSolve la o').2 := by
  obtain ⟨o1, h1, h2⟩ := init_overrides (o' := (setattrs (TObj.run la o ops) kws).1) h (run_core hops).symm hk
    (Prod.ext rfl hok)
  refine ⟨o1, h1, ?_⟩
  unfold convSolveKw
  rcases hq : setattrs (TObj.run la o ops) kws with ⟨q, e | ⟨⟩⟩
  · rw [hq] at hok; cases hok
  · rw [hq] at h2
    exact (convSolve_of_core la h2).symm

/-- **C63, fields.** Whenever `conv_solve_field(…, **kwargs)` returns, result and fields are those of the settings that can be
read on the object afterwards. -/
theorem C63_field (la : LinAlg) (o o' : TObj) (rx ry rz : ℕ) (sel : Bool × Bool × Bool) (kws : List Assign) (r : AnyResult)
    (f : AnyTField) (h : convSolveField la o rx ry rz sel kws = (o', .ok (r, f))) :
    ∃ s sol c, Spec.TorchReads o' s ∧ tConv_solve_field la s rx ry rz sel = .ok (sol, c) ∧
      r = ⟨s.p.fto.1, s.p.fto.2, sol.result⟩ ∧ f = ⟨rx, ry, rz, c⟩ := by
  unfold convSolveField at h
  rcases hq : setattrs o kws with ⟨q, e | ⟨⟩⟩
  · rw [hq] at h; cases h
  rw [hq] at h
  dsimp only at h
  rcases hc : TObj.convSolve la q with ⟨q', e | r'⟩
  · rw [hc] at h; cases h
  rw [hc] at h
  dsimp only at h
  rcases hf : TObj.calculateField q' rx ry rz sel with e | f'
  · rw [hf] at h; cases h
  rw [hf] at h
  obtain ⟨rfl, h2⟩ := Prod.mk.inj h
  cases h2
  obtain ⟨u, fx, fy, sol, h1, h2, h3, h4, h5, h6⟩ := TObj.convSolve_ok hc
  have hr := TObj.reads_settings h1 h2 h3
  have ha : q'.anglesReady = .ok () := by
    rw [h5]
    unfold TObj.ready at h3
    show q.anglesReady = .ok ()
    rcases hx : q.anglesReady with e | ⟨⟩
    · rw [hx] at h3; cases h3
    · rfl
  unfold TObj.calculateField at hf
  rw [ha] at hf
  dsimp only at hf
  have hst : q'.stored = .solved fx fy sol := by rw [h5]
  rw [hst] at hf
  dsimp only at hf
  split at hf
  · have hp : q'.params fx fy = q.params fx fy := by rw [h5]; rfl
    rcases hcf : tCalculate_field (q'.params fx fy) sol rx ry rz sel with e | c
    · rw [hcf] at hf; cases hf
    rw [hcf] at hf
    cases hf
    refine ⟨q.settings u fx fy, sol, c, ?_, ?_, h6, rfl⟩
    · obtain ⟨a1, a2, a3, a4, a5, a6, a7, a8, a9, a10, a11, a12, a13, a14, a15⟩ := hr
      subst h5
      exact ⟨a1, a2, a3, a4, a5, a6, a7, a8, a9, a10, a11, a12, a13, a14, a15⟩
    · have hcf' : tCalculate_field (q.settings u fx fy).p sol rx ry rz sel = .ok c := by
        have key : tCalculate_field (q.params fx fy) sol rx ry rz sel = .ok c := by
          subst h5
          exact hcf
        exact key
      exact Except.bind_ok.mpr ⟨sol, h4, Except.bind_ok.mpr ⟨c, hcf', rfl⟩⟩
  · cases hf

/-- **C63, counterexample.** Assigning a zero-dimensional tensor to `period` raises `TypeError`, yet it replaces the old period:
`conv_solve`, which returned before, raises `IndexError` afterwards. -/
theorem C63_period_negation : ∃ o o' r, (∃ o0, TObj.init (TObj.exKwargs 0) = .ok o0 ∧ o0.core = o.core) ∧
    TObj.convSolve exLA o = (o', .ok r) ∧ (setattr o' (.period (.arr0 (.float 1)))).2 = .error .typeError ∧
    (TObj.convSolve exLA (setattr o' (.period (.arr0 (.float 1)))).1).2 = .error .indexError := by
  obtain ⟨o0, h0, h1⟩ := TObj.exObj_init (pol := 0) ⟨le_rfl, zero_le_one⟩
  obtain ⟨o, g, ho⟩ := TObj.exObj_solve 0 (.inl rfl)
  refine ⟨TObj.exObj 0, _, _, ⟨o0, h0, h1⟩, ho, rfl, ?_⟩
  obtain ⟨sol, hs⟩ := TObj.exTorch_ok 0 (.inl rfl)
  obtain ⟨cs, hc, -⟩ := Except.bind_ok.mp hs
  show (TObj.convSolve exLA { TObj.exObj 0 with grating := g, stored := .solved 0 0 (.tetm o), period := .zeroD 1 }).2 = _
  have hc' : tConvMats exLA (TObj.settings { TObj.exObj 0 with grating := g, stored := .solved 0 0 (.tetm o), period := .zeroD 1 }
    (.iso (.raster exCell)) 0 0) = .ok cs := hc
  have e1 : struct { TObj.exObj 0 with grating := g, stored := .solved 0 0 (.tetm o), period := .zeroD 1 }
    = .ok (.iso (.raster exCell)) := TObj.exObj_struct 0
  have e2 : orders { TObj.exObj 0 with grating := g, stored := .solved 0 0 (.tetm o), period := .zeroD 1 } = .ok (0, 0) :=
    TObj.exObj_orders 0
  have e3 : TObj.ready { TObj.exObj 0 with grating := g, stored := .solved 0 0 (.tetm o), period := .zeroD 1 }
    = .error .indexError := rfl
  unfold TObj.convSolve
  rw [e1, e2]
  dsimp only
  rw [hc', e3]

/-- **C63, counterexample.** Assigning an array of a shape that is rejected to an object with a vector structure raises, and all
parameters keep their values; but `conv_solve`, which returned before, raises `AttributeError` from then on. -/
theorem C63_rejected_negation (la : LinAlg) : ∃ k o o' r, TObj.init k = .ok o ∧ (TObj.convSolve la o).2 = .ok r ∧
    setattr o (.ucell .badShape) = (o', .error .valueError) ∧ Spec.TorchSameParameters o o' ∧
    (TObj.convSolve la o').2 = .error .attributeError := by
  obtain ⟨o, h1, h2⟩ := TObj.bareObj_init
  obtain ⟨o', r, h3⟩ := TObj.bareObj_ok la
  refine ⟨_, o, _, r, h1, ?_, rfl, by constructor <;> rfl, ?_⟩
  · rw [convSolve_of_core la (b := TObj.bareObj) h2, h3]
  · rw [convSolve_of_core la (b := { TObj.bareObj with modeling := some .raster }) (by
      show { o.core with modeling := some .raster } = _
      rw [h2]; rfl)]
    simp [TObj.convSolve, struct, TObj.bareObj]

/-- **C63, failed solves.** When `conv_solve` raises after the convolution matrices have been computed, the fields of earlier
solves are gone: `calculate_field` raises until the next successful solve. -/
theorem C63_failed_partial (la : LinAlg) (o o' : TObj) (e : Err) (h : TObj.convSolve la o = (o', .error e)) (u : TStructure)
    (fx fy : ℕ) (hu : o.struct = .ok u) (ho : o.orders = .ok (fx, fy)) (hc : ∃ cs, tConvMats la (o.settings u fx fy) = .ok cs)
    (rx ry rz : ℕ) (sel : Bool × Bool × Bool) : ∃ e', TObj.calculateField o' rx ry rz sel = .error e' := by
  obtain ⟨cs, hc⟩ := hc
  have hst : o'.stored = .nothing := by
    unfold TObj.convSolve at h
    rw [hu, ho] at h
    dsimp only at h
    rw [hc] at h
    dsimp only at h
    rcases hr : o.ready with e1 | ⟨⟩
    · rw [hr] at h
      obtain ⟨rfl, -⟩ := Prod.mk.inj h
      rfl
    · rw [hr] at h
      dsimp only at h
      rcases hs : tSolve_for_conv la (o.settings u fx fy) o.wavelength cs with e2 | r
      · rw [hs] at h
        obtain ⟨rfl, -⟩ := Prod.mk.inj h
        rfl
      · rw [hs] at h
        obtain ⟨-, h2⟩ := Prod.mk.inj h
        cases h2
  unfold TObj.calculateField
  rcases ha : o'.anglesReady with e1 | ⟨⟩
  · exact ⟨e1, rfl⟩
  · simp only [hst]
    exact ⟨_, rfl⟩

/-- Non-vacuity: the bare interface with a thickness that is a zero-dimensional tensor. -/
example (la : LinAlg) : ∃ o o' e u fx fy, TObj.convSolve la o = (o', .error e) ∧ o.struct = .ok u ∧ o.orders = .ok (fx, fy) ∧
    ∃ cs, tConvMats la (o.settings u fx fy) = .ok cs := by
  have hu : TObj.struct { TObj.bareObj with thickness := .zeroD 0 } = .ok (.iso (.vector [])) := by
    simp [TObj.struct, TObj.bareObj, TObj.periods]
  have ho : TObj.orders { TObj.bareObj with thickness := .zeroD 0 } = .ok (0, 0) := by simp [TObj.orders, TObj.bareObj]
  have hr : TObj.ready { TObj.bareObj with thickness := .zeroD 0 } = .error .typeError := by
    simp [TObj.ready, TObj.anglesReady, TObj.bareObj, TObj.periods]
  have hc : tConvMats la (TObj.settings { TObj.bareObj with thickness := .zeroD 0 } (.iso (.vector [])) 0 0) = .ok [] := by
    simp [tConvMats, TObj.settings]
    rfl
  have hk : (TObj.convSolve la { TObj.bareObj with thickness := .zeroD 0 }).2 = .error .typeError := by
    unfold TObj.convSolve
    rw [hu, ho]
    dsimp only
    rw [hc, hr]
  exact ⟨_, _, _, _, _, _, Prod.ext rfl hk, hu, ho, _, hc⟩

/-- **C63, counterexample.** A solve that raises early leaves the old fields in place: solve, remove the structure, solve again.
The second solve raises, and `calculate_field` returns the fields of the first. -/
theorem C63_failed_negation : ∃ o o' r o'' e f, (∃ o0, TObj.init (TObj.exKwargs 0) = .ok o0 ∧ o0.core = o.core) ∧
    TObj.convSolve exLA o = (o', .ok r) ∧ TObj.calculateField o' 1 1 1 (true, false, false) = .ok f ∧
    TObj.convSolve exLA (setattr o' (.ucell .none)).1 = (o'', .error e) ∧
    TObj.calculateField o'' 1 1 1 (true, false, false) = .ok f := by
  obtain ⟨o0, h0, h1⟩ := TObj.exObj_init (pol := 0) ⟨le_rfl, zero_le_one⟩
  obtain ⟨o, g, ho⟩ := TObj.exObj_solve 0 (.inl rfl)
  have hg : g = some 0 := by
    obtain ⟨u, fx, fy, sol, a1, a2, -, -, a5, -⟩ := TObj.convSolve_ok ho
    rw [TObj.exObj_struct] at a1
    rw [TObj.exObj_orders] at a2
    cases a1; cases a2
    have := congrArg TObj.grating a5
    dsimp only at this
    rw [this, TObj.exObj_settings]
    congr 1
    exact tGrating_zero (exSettings_grating 0 (.inl rfl))
  have key : ∀ u, TObj.calculateField { TObj.exObj 0 with grating := g, stored := .solved 0 0 (.tetm o), ucell := u } 1 1 1
      (true, false, false) = .ok ⟨1, 1, 1, .tetm ((tField_dist_1d ((TObj.exObj 0).params 0 0) o 1 1).map
        (Block.map fun f => tSigns (tExpand 0 f)))⟩ := by
    intro u
    refine TObj.calculateField_intro (fx := 0) (fy := 0) (r := .tetm o) rfl rfl (TObj.exObj_orders 0) hg ?_
    show tCalculate_field ((TObj.exObj 0).params 0 0) (.tetm o : Solved 0 0) 1 1 1 (true, false, false) = _
    unfold tCalculate_field
    dsimp only
    rw [if_neg (by simp [TObj.params, TObj.exObj])]
    rfl
  refine ⟨TObj.exObj 0, _, _, _, .attributeError, _, ⟨o0, h0, h1⟩, ho, key _, ?_, key none⟩
  show TObj.convSolve exLA { TObj.exObj 0 with grating := g, stored := .solved 0 0 (.tetm o), ucell := none } = _
  simp [TObj.convSolve, struct, TObj.exObj]

/-- Non-vacuity of `C63_history_partial`: the example object fresh, and after a solve, a change of `pol` by keyword argument with
another solve, and the way back. -/
example : ∃ k ops a b, Spec.TorchHistory exLA k [] a ∧ Spec.TorchHistory exLA k ops b ∧ Spec.TorchNoRejected ops ∧
    Spec.TorchSameParameters a b ∧ a.ucell ≠ none ∧ ops.length = 3 := by
  obtain ⟨o0, h0, h1⟩ := TObj.exObj_init (pol := 0) ⟨le_rfl, zero_le_one⟩
  refine ⟨TObj.exKwargs 0, [.convSolve [], .convSolve [.pol 1], .assign (.pol 0)], o0, _, ⟨o0, h0, rfl⟩, ⟨o0, h0, rfl⟩, ?_, ?_, ?_, rfl⟩
  · simp [Spec.TorchNoRejected, Spec.assignments, Spec.RejectedUcell]
  · have hp : ∀ (o : TObj) (v : ℝ), 0 ≤ v ∧ v ≤ 1 → setattr o (.pol v) = ({ o with pol := v, psi := Real.pi / 2 * (1 - v) }, .ok ()) :=
      fun o v hv => TObj.setPol_ok hv o
    have e1 : (TObj.run exLA o0 [.convSolve [], .convSolve [.pol 1], .assign (.pol 0)]).core = o0.core := by
      show (setattr (convSolveKw exLA (convSolveKw exLA o0 []).1 [.pol 1]).1 (.pol 0)).1.core = _
      rw [hp _ 0 ⟨le_rfl, zero_le_one⟩]
      have e2 : convSolveKw exLA (convSolveKw exLA o0 []).1 [.pol 1] = TObj.convSolve exLA
          { (TObj.convSolve exLA o0).1 with pol := 1, psi := Real.pi / 2 * (1 - 1) } := by
        have e : setattrs (TObj.convSolve exLA o0).1 [.pol 1] =
            ({ (TObj.convSolve exLA o0).1 with pol := 1, psi := Real.pi / 2 * (1 - 1) }, .ok ()) := by
          simp only [setattrs, hp _ 1 ⟨zero_le_one, le_rfl⟩]
        show convSolveKw exLA (TObj.convSolve exLA o0).1 [.pol 1] = _
        unfold convSolveKw
        rw [e]
      rw [e2]
      have e3 := TObj.convSolve_frame exLA { (TObj.convSolve exLA o0).1 with pol := 1, psi := Real.pi / 2 * (1 - 1) }
      show { (TObj.convSolve exLA { (TObj.convSolve exLA o0).1 with pol := 1, psi := Real.pi / 2 * (1 - 1) }).1.core with
        pol := 0, psi := Real.pi / 2 * (1 - 0) } = _
      rw [e3]
      show { (TObj.convSolve exLA o0).1.core with pol := 0, psi := Real.pi / 2 * (1 - 0) } = _
      rw [TObj.convSolve_frame, h1]
      rfl
    generalize TObj.run exLA o0 [.convSolve [], .convSolve [.pol 1], .assign (.pol 0)] = b at e1
    constructor
    · exact (congrArg TObj.device e1).symm
    · exact (congrArg TObj.n_top e1).symm
    · exact (congrArg TObj.n_bot e1).symm
    · exact (congrArg TObj.theta e1).symm
    · exact (congrArg TObj.phi e1).symm
    · exact (congrArg TObj.psi e1).symm
    · exact (congrArg TObj.pol e1).symm
    · exact (congrArg TObj.fto e1).symm
    · exact (congrArg TObj.period e1).symm
    · exact (congrArg TObj.wavelength e1).symm
    · exact (congrArg TObj.thickness e1).symm
    · exact (congrArg TObj.algo e1).symm
    · exact (congrArg TObj.use_pinv e1).symm
    · exact (congrArg TObj.fourier_type e1).symm
    · exact (congrArg TObj.enhanced_dfs e1).symm
    · exact (congrArg TObj.ucell e1).symm
  · have := congrArg TObj.ucell h1
    have : o0.ucell = some (.iso (.raster exCell)) := this
    rw [this]; simp

/-- Non-vacuity of `C63_kwargs`, `C63_repeat` and `C63_solve`: the TE example, solved, then solved again with `pol=1` and a
wavelength as keyword arguments; and the TM example returns a result. -/
example : ∃ o, TObj.init (TObj.exKwargs 0) = .ok o ∧ Spec.SolvesOnly [.convSolve [], .calculateField 1 1 1 (true, false, false)] ∧
    Spec.torchOverrides [.pol 1, .wavelength 1] (TObj.exKwargs 0) = some (TObj.exKwargs 1) ∧
    (∀ q : TObj, (setattrs q [.pol 1, .wavelength 1]).2 = .ok ()) ∧
    (∃ o' r, TObj.init (TObj.exKwargs 1) = .ok o' ∧ (TObj.convSolve exLA o').2 = .ok r) := by
  obtain ⟨o0, h0, h1⟩ := TObj.exObj_init (pol := 0) ⟨le_rfl, zero_le_one⟩
  obtain ⟨o1, h2, h3⟩ := TObj.exObj_init (pol := 1) ⟨zero_le_one, le_rfl⟩
  obtain ⟨o, g, ho⟩ := TObj.exObj_solve 1 (.inr rfl)
  refine ⟨o0, h0, by simp [Spec.SolvesOnly, Spec.assignments], ?_, ?_, o1,
    ⟨0, 0, (Solved.tetm o : Solved 0 0).result⟩, h2, ?_⟩
  · simp [Spec.torchOverrides, Spec.torchOverride, TObj.exKwargs]
  · intro q
    have : setattr q (.pol 1) = ({ q with pol := 1, psi := Real.pi / 2 * (1 - 1) }, .ok ()) :=
      TObj.setPol_ok ⟨zero_le_one, le_rfl⟩ q
    simp [setattrs, this]
    rfl
  · rw [convSolve_of_core exLA (b := TObj.exObj 1) h3, ho]

#print axioms C63_solve
#print axioms C63_history_partial
#print axioms C63_repeat
#print axioms C63_kwargs
#print axioms C63_field
#print axioms C63_failed_partial
#print axioms C63_period_negation
#print axioms C63_rejected_negation
#print axioms C63_failed_negation

end Meent
