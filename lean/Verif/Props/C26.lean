import Verif.Lemmas.ObjectExample
import Verif.Lemmas.FieldExample
import Verif.Props.C27

/-!
# C26: solves are history independent

Proved in full for `conv_solve` on objects with a structure, except after an array was rejected for its dtype (see
`C22_rejected_negation`).  `calculate_field` describes the most recent solve as long as no parameter was assigned in
between; otherwise it mixes the old solution with the new parameters.
-/

open Matrix

namespace Meent

/-- **C26, independence.** Two objects that reached the same parameter values, a structure among them, on any two
histories (none with an array rejected for its dtype) get the same outcome from `conv_solve`: equal results or the
same exception. -/
theorem C26_history_partial (la : LinAlg) (k₁ k₂ : Kwargs) (ops₁ ops₂ : List Op) (a b : Obj)
    (ha : Spec.History la k₁ ops₁ a) (hb : Spec.History la k₂ ops₂ b)
    (na : Spec.NoRejectedArray ops₁) (nb : Spec.NoRejectedArray ops₂)
    (hs : Spec.SameParameters a b) (hu : a.ucell ≠ none) :
    (step la a .convSolve).2 = (step la b .convSolve).2 := by
  have ca := consistent_of_history ha na
  have cb := consistent_of_history hb nb
  have hm : a.modeling = b.modeling := by
    unfold Obj.Consistent at ca cb
    rw [← hs.ucell] at cb
    match h : a.ucell with
    | none => exact absurd h hu
    | some (.raster u) => rw [h] at ca cb; exact ca.trans cb.symm
    | some (.vector u) => rw [h] at ca cb; exact ca.trans cb.symm
  have e : b = { a with grating := b.grating, stored := b.stored, perturbation := b.perturbation } := by
    rcases a with ⟨⟩
    rcases b with ⟨⟩
    obtain ⟨h1, h2, h3, h4, h5, h6, h7, h8, h9, h10, h11, h12, h13, h14, h15⟩ := hs
    dsimp only at h1 h2 h3 h4 h5 h6 h7 h8 h9 h10 h11 h12 h13 h14 h15 hm
    subst h1 h2 h3 h4 h5 h6 h7 h8 h9 h10 h11 h12 h13 h14 h15 hm
    rfl
  have key := convSolve_congr la a b.grating b.stored b.perturbation
  rw [← e] at key
  unfold step
  dsimp only
  rcases h1 : convSolve la a with ⟨o1, e1 | r1⟩ <;> rcases h2 : convSolve la b with ⟨o2, e2 | r2⟩ <;>
    rw [h1, h2] at key <;> cases key <;> rfl

/-- Non-vacuity: the example object fresh, and after a TE solve, a change of `pol`, another solve and the way
back. -/
example : ∃ k ops a b, Spec.History exLA k [] a ∧ Spec.History exLA k ops b ∧ Spec.NoRejectedArray ops ∧
    Spec.SameParameters a b ∧ a.ucell ≠ none ∧ ops.length = 4 := by
  refine ⟨exKwargs 0 none, [.convSolve, .setPol 1, .convSolve, .setPol 0], exObj 0 none, _,
    ⟨_, exObj_init ⟨le_rfl, zero_le_one⟩ none, rfl⟩, ⟨_, exObj_init ⟨le_rfl, zero_le_one⟩ none, rfl⟩,
    by simp [Spec.NoRejectedArray], ?_, by simp [exObj], rfl⟩
  have hp : ∀ (o : Obj) (v : ℝ), 0 ≤ v ∧ v ≤ 1 →
      (step exLA o (.setPol v)).1 = { o with pol := v, psi := Real.pi / 2 * (1 - v) } := by
    intro o v hv
    simp only [step, ofSetter_fst, setPol_ok hv]
  simp only [run, List.foldl_cons, List.foldl_nil, step_convSolve_fst]
  rw [hp _ 0 ⟨le_rfl, zero_le_one⟩, hp _ 1 ⟨zero_le_one, le_rfl⟩]
  obtain ⟨g, st, h1⟩ := convSolve_frame exLA (exObj 0 none)
  rw [h1]
  obtain ⟨g', st', h2⟩ := convSolve_frame exLA
    { exObj 0 none with grating := g, stored := st, pol := 1, psi := Real.pi / 2 * (1 - 1) }
  rw [h2]
  constructor <;> rfl

/-- **C26, repetition.** In every state, solving a second time gives the same outcome, and leaves the object as the
first solve left it. -/
theorem C26_repeat (la : LinAlg) (o : Obj) :
    (step la (step la o .convSolve).1 .convSolve).2 = (step la o .convSolve).2 := by
  obtain ⟨g, st, h⟩ := convSolve_frame la o
  rw [step_convSolve_fst, h]
  have key := convSolve_congr la o g st o.perturbation
  unfold step
  dsimp only
  rcases h1 : convSolve la { o with grating := g, stored := st } with ⟨o1, e1 | r1⟩ <;>
    rcases h2 : convSolve la o with ⟨o2, e2 | r2⟩ <;>
    rw [h1, h2] at key <;> cases key <;> rfl

/-- **C26, fields.** After a `conv_solve` that returned, and any further operations that left the object as it was,
`calculate_field` returns the fields of that solve: with `s` the values read by the solve, exactly what solving and
evaluating the fields in one go gives. -/
theorem C26_fields_partial (la : LinAlg) (o o' : Obj) (r : AnyResult) (h : step la o .convSolve = (o', .result r))
    (between : List Op) (hb : run la o' between = o') :
    ∃ (s : Settings) (sol : Solved s.p.fto.1 s.p.fto.2), Spec.Reads o s ∧ conv_solve la s = .ok sol ∧ r = ⟨_, _, sol.result⟩ ∧
      ∀ rx ry rz sel cell, conv_solve_field la s rx ry rz sel = .ok (sol, cell) →
        step la (run la o' between) (.calculateField rx ry rz sel) = (o', .field ⟨rx, ry, rz, cell⟩) := by
  obtain ⟨u, fx, fy, sol, hu, ho, hr, hs, rfl, rfl⟩ := convSolve_ok (step_solve.mp h)
  refine ⟨o.settings u fx fy, sol, reads_settings hu ho hr, hs, rfl, ?_⟩
  intro rx ry rz sel cell hc
  rw [hb, step_field]
  refine ⟨rfl, ?_⟩
  have har : o.anglesReady = .ok () := by
    unfold Obj.ready at hr
    rcases h : o.anglesReady with e | u
    · rw [h] at hr; cases hr
    · rfl
  unfold conv_solve_field at hc
  simp only [Except.bind_ok] at hc
  obtain ⟨sol', h1, c', h2, e⟩ := hc
  obtain ⟨rfl, rfl⟩ := Prod.mk.inj (Except.ok.inj e)
  have hg : gratingType (o.settings u fx fy) = sol'.grating := by
    cases sol' with
    | tetm x => exact (conv_solve_tetm.mp hs).choose_spec.2.1
    | conical x => exact (conv_solve_conical.mp hs).choose_spec.2.1
    | conicalSmm => cases h2
    | twoD x =>
      have h1 := (conv_solve_twoD.mp hs).choose_spec.2.1
      exact h1
  unfold calculateField
  have e1 : Obj.anglesReady { o with grating := some (gratingType (o.settings u fx fy)), stored := .solved fx fy sol' }
      = .ok () := har
  have e2 : Obj.orders { o with grating := some (gratingType (o.settings u fx fy)), stored := .solved fx fy sol' }
      = .ok (fx, fy) := ho
  have e3 : calculate_field (Obj.params
      { o with grating := some (gratingType (o.settings u fx fy)), stored := .solved fx fy sol' } fx fy) sol' rx ry rz sel
      = .ok c' := h2
  rw [e1]
  dsimp only
  rw [if_pos ⟨e2, congrArg some hg⟩]
  rw [e3]

/-- With the transfer matrix method, plain inverses and a non-zero cover index these fields exist and describe the
solve in the sense of C27. -/
theorem C26_fields_describe_partial (la : LinAlg) (o o' : Obj) (r : AnyResult)
    (h : step la o .convSolve = (o', .result r)) (between : List Op) (hb : run la o' between = o')
    (h1 : o.algo = .tmm) (h2 : o.use_pinv = false) (h3 : o.n_top ≠ 0) (rx ry rz : ℕ) (sel : Bool × Bool × Bool) :
    ∃ (s : Settings) (sol : Solved s.p.fto.1 s.p.fto.2) (cell : FieldCell rx ry rz), Spec.Reads o s ∧
      r = ⟨_, _, sol.result⟩ ∧
      step la (run la o' between) (.calculateField rx ry rz sel) = (o', .field ⟨rx, ry, rz, cell⟩) ∧
      Spec.Describes s.p sol sel cell := by
  obtain ⟨s, sol, hr, hs, e, hf⟩ := C26_fields_partial la o o' r h between hb
  obtain ⟨cell, hc⟩ := C27_available la s (hr.algo.trans h1) rx ry rz sel sol hs
  obtain ⟨-, hd⟩ := C27_continuous la s (hr.use_pinv.trans h2) (by rw [hr.n_top]; exact h3) rx ry rz sel sol cell hc
  exact ⟨s, sol, cell, hr, e, hf _ _ _ _ _ hc, hd⟩

/-- Non-vacuity: the TE example, with two evaluations of the fields in between. -/
example : ∃ o' r, step exLA (exObj 0 none) .convSolve = (o', .result r) ∧
    run exLA o' [.calculateField 5 1 3 (true, false, false), .calculateField 7 2 9 (true, true, true)] = o' := by
  obtain ⟨o, h⟩ := exObj_te
  refine ⟨_, _, step_solve.mpr h, ?_⟩
  simp only [run, List.foldl_cons, List.foldl_nil, step_field_fst]

/-- **C26, failed solves.** When `conv_solve` raises after the convolution matrices have been computed, the fields of
earlier solves are gone: `calculate_field` raises, until the next successful solve. -/
theorem C26_failed_partial (la : LinAlg) (o o' : Obj) (e : Err) (h : step la o .convSolve = (o', .raised e))
    (u : Structure) (fx fy : ℕ) (hu : o.structure = .ok u) (ho : o.orders = .ok (fx, fy))
    (cs : List (Conv (FlatIdx fx fy))) (hc : convMats la (o.settings u fx fy) = .ok cs) (rx ry rz : ℕ)
    (sel : Bool × Bool × Bool) : ∃ e', step la o' (.calculateField rx ry rz sel) = (o', .raised e') := by
  have hst : o'.stored = .nothing := by
    unfold step convSolve at h
    simp only [hu, ho, hc] at h
    rcases hr : o.ready with e1 | ⟨⟩
    · rw [hr] at h
      obtain ⟨rfl, -⟩ := Prod.mk.inj h
      rfl
    · rw [hr] at h
      simp only at h
      rcases hs : solve_for_conv la (o.settings u fx fy) o.wavelength cs with e2 | r
      · rw [hs] at h
        obtain ⟨rfl, -⟩ := Prod.mk.inj h
        rfl
      · rw [hs] at h
        obtain ⟨-, h2⟩ := Prod.mk.inj h
        cases h2
  unfold step calculateField
  rcases ha : o'.anglesReady with e1 | ⟨⟩
  · exact ⟨e1, rfl⟩
  · simp only [hst]
    exact ⟨_, rfl⟩

/-- Non-vacuity: the example grating with a thickness that is a zero-dimensional array (see C24). -/
example : ∃ o o' e u fx fy, ∃ cs : List (Conv (FlatIdx fx fy)), step exLA o .convSolve = (o', .raised e) ∧
    o.structure = .ok u ∧ o.orders = .ok (fx, fy) ∧ convMats exLA (o.settings u fx fy) = .ok cs := by
  have hr : Obj.ready { exObj 0 none with thickness := .zeroD (1 / 3) } = .error .typeError := by
    simp [Obj.ready, Obj.anglesReady, exObj]
  have hs : Obj.structure { exObj 0 none with thickness := .zeroD (1 / 3) } = .ok (.raster exCell) := exObj_structure 0 none
  have ho : Obj.orders { exObj 0 none with thickness := .zeroD (1 / 3) } = .ok (0, 0) := exObj_orders 0 none
  have hc : convMats exLA (Obj.settings { exObj 0 none with thickness := .zeroD (1 / 3) } (.raster exCell) 0 0)
      = .ok [exConv] := exConvMats 0 none
  refine ⟨{ exObj 0 none with thickness := .zeroD (1 / 3) },
    { exObj 0 none with thickness := .zeroD (1 / 3), grating := some 0 }, .typeError, _, _, _, _, ?_, hs, ho, hc⟩
  have hg : gratingType (Obj.settings { exObj 0 none with thickness := .zeroD (1 / 3) } (.raster exCell) 0 0) = 0 :=
    exSettings_grating 0 (.inl rfl)
  unfold step convSolve
  rw [hs, ho]
  dsimp only
  rw [hc, hr]
  dsimp only
  rw [hg]
  rfl

/-- **C26, counterexample.** A solve that raises earlier leaves the old fields in place: solve the example grating,
remove the structure and solve again.  The second solve raises, and `calculate_field` returns the fields of the
first. -/
theorem C26_failed_negation : ∃ o' r o'' e f f', step exLA (exObj 0 none) .convSolve = (o', .result r) ∧
    step exLA o' (.calculateField 1 1 1 (true, false, false)) = (o', .field f) ∧
    step exLA (step exLA o' (.setUcell .none)).1 .convSolve = (o'', .raised e) ∧
    step exLA o'' (.calculateField 1 1 1 (true, false, false)) = (o'', .field f') ∧ f' = f := by
  obtain ⟨o, ho⟩ := exTE_ok
  have h := convSolve_intro (exObj_structure 0 none) (exObj_orders 0 none) (exObj_ready 0 none)
    (sol := (.tetm o : Solved 0 0)) ho
  rw [exObj_settings, exSettings_grating 0 (.inl rfl)] at h
  refine ⟨_, _, { exObj 0 none with grating := some 0, stored := .solved 0 0 (.tetm o), ucell := none }, .attributeError,
    ⟨1, 1, 1, .tetm (field_dist_1d (exParams 0 none) o 1 1)⟩, ⟨1, 1, 1, .tetm (field_dist_1d (exParams 0 none) o 1 1)⟩,
    step_solve.mpr h, step_field.mpr ⟨rfl, ?_⟩, ?_, step_field.mpr ⟨rfl, ?_⟩, rfl⟩
  · simp [calculateField, Obj.anglesReady, exObj, Obj.orders, Solved.grating, calculate_field]
    rfl
  · simp [step, setUcell, Out.ofSetter, convSolve, Obj.structure, exObj]
  · simp [calculateField, Obj.anglesReady, exObj, Obj.orders, Solved.grating, calculate_field]
    rfl

/-- **C26, counterexample.** Solve the example grating in TE, then assign `pol = 1` without solving again:
`calculate_field` returns other fields than before, although the most recent solve is the same. -/
theorem C26_pol_negation : ∃ o' r o'' f f', step exLA (exObj 0 none) .convSolve = (o', .result r) ∧
    step exLA o' (.setPol 1) = (o'', .done) ∧
    step exLA o' (.calculateField 1 1 1 (true, false, false)) = (o', .field f) ∧
    step exLA o'' (.calculateField 1 1 1 (true, false, false)) = (o'', .field f') ∧ f ≠ f' := by
  obtain ⟨o, ho⟩ := exTE_ok
  have h := convSolve_intro (exObj_structure 0 none) (exObj_orders 0 none) (exObj_ready 0 none)
    (sol := (.tetm o : Solved 0 0)) ho
  rw [exObj_settings, exSettings_grating 0 (.inl rfl)] at h
  refine ⟨_, _, { exObj 0 none with grating := some 0, stored := .solved 0 0 (.tetm o), pol := 1, psi := Real.pi / 2 * (1 - 1) },
    ⟨1, 1, 1, .tetm (field_dist_1d (exParams 0 none) o 1 1)⟩, ⟨1, 1, 1, .tetm (field_dist_1d (exParams 1 none) o 1 1)⟩,
    step_solve.mpr h, ?_, step_field.mpr ⟨rfl, ?_⟩, step_field.mpr ⟨rfl, ?_⟩, ?_⟩
  · simp only [step, setPol_ok (v := 1) ⟨zero_le_one, le_rfl⟩, Out.ofSetter]
  · simp [calculateField, Obj.anglesReady, exObj, Obj.orders, Solved.grating, calculate_field]
    rfl
  · simp [calculateField, Obj.anglesReady, exObj, Obj.orders, Solved.grating, calculate_field]
    rfl
  · intro e
    rw [AnyField.mk.injEq] at e
    exact exFields ho (FieldCell.tetm.inj (eq_of_heq e.2.2.2))

#print axioms C26_history_partial
#print axioms C26_repeat
#print axioms C26_fields_partial
#print axioms C26_fields_describe_partial
#print axioms C26_failed_partial
#print axioms C26_failed_negation
#print axioms C26_pol_negation

end Meent
