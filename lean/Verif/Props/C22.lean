import Verif.Lemmas.ObjectExample

/-!
# C22: solver dispatch follows the current settings

The choice of the formulation is proved for every state of the object.  The `ValueError` without a structure is
proved when none was ever given; the code answers differently after a structure was replaced by `None`, and an
array rejected for its dtype breaks a vector model that is still in place.
-/

namespace Meent

/-- **C22, choice.** In whatever state the object is (so after every history), a `conv_solve` that returns used the
values read from the object now, and returned what the solver of the formulation expected for these values
returns; `grating_type_assigned` reports that formulation. -/
theorem C22_choice_partial (la : LinAlg) (o o' : Obj) (r : AnyResult)
    (h : step la o .convSolve = (o', .result r)) :
    ∃ (s : Settings) (res : Result s.p.fto.1 s.p.fto.2), Spec.Reads o s ∧
      r = ⟨s.p.fto.1, s.p.fto.2, res⟩ ∧
      Spec.ReturnedBy la s (Spec.expected s.ucell o.pol o.phi s.p.fto.2) res ∧
      o'.grating = some (Spec.expected s.ucell o.pol o.phi s.p.fto.2).code := by
  obtain ⟨u, fx, fy, sol, hu, ho, hr, hs, rfl, rfl⟩ := convSolve_ok (step_solve.mp h)
  refine ⟨o.settings u fx fy, sol.result, reads_settings hu ho hr, rfl, ?_, ?_⟩
  · exact returnedBy hs
  · exact congrArg some (gratingType_expected (s := o.settings u fx fy))

/-- Non-vacuity: a TE and a conical solve. -/
example : ∃ o' r, step exLA (exObj 0 none) .convSolve = (o', .result r) ∧ o'.grating = some 0 := by
  obtain ⟨o, h⟩ := exObj_te
  exact ⟨_, _, step_solve.mpr h, rfl⟩

example (pol : ℝ) : ∃ o' r, step exLA (exObj pol (some 0)) .convSolve = (o', .result r) := by
  obtain ⟨o', r, h⟩ := exObj_con pol
  exact ⟨o', r, step_solve.mpr h⟩

/-- **C22, no structure.** If no structure was ever given, `conv_solve` raises `ValueError` and changes nothing. -/
theorem C22_no_structure_partial (la : LinAlg) (k : Kwargs) (ops : List Op) (o : Obj) (hh : Spec.History la k ops o)
    (hn : Spec.NoStructure k ops) : step la o .convSolve = (o, .raised .valueError) := by
  obtain ⟨o0, h0, rfl⟩ := hh
  have hm : (run la o0 ops).modeling = none := by
    refine run_induction (P := fun o => o.modeling = none)
      (A := fun op => ∀ v, op = .setUcell v → v = .none ∨ v = .other) ?_ ?_ ops ?_
    · obtain ⟨_, _, _, _, _, f, g, -, -, -, -, -, hu, rfl⟩ := init_ok h0
      rw [hn.1] at hu
      cases hu
      rfl
    · intro o op ha hm
      cases op with
      | setTheta v => obtain ⟨x, hx⟩ := setTheta_frame v o; simp only [step, ofSetter_fst, hx, hm]
      | setFto v => obtain ⟨x, hx⟩ := setFto_frame v o; simp only [step, ofSetter_fst, hx, hm]
      | setPeriod v => obtain ⟨x, hx⟩ := setPeriod_frame v o; simp only [step, ofSetter_fst, hx, hm]
      | setThickness v => obtain ⟨x, hx⟩ := setThickness_frame v o; simp only [step, ofSetter_fst, hx, hm]
      | setTypeComplex v => obtain ⟨x, y, z, hx⟩ := setTypeComplex_frame v o; simp only [step, ofSetter_fst, hx, hm]
      | setPsi v => cases v <;> simp [step, setPsi, hm]
      | setPol v => unfold step; simp only [ofSetter_fst, setPol]; split <;> simp [hm]
      | setUcell v => rcases ha v rfl with rfl | rfl <;> simp [step, setUcell, hm]
      | convSolve =>
        obtain ⟨g, st, hx⟩ := convSolve_frame la o
        simp only [step_convSolve_fst, hx, hm]
      | calculateField rx ry rz sel => simp only [step_field_fst, hm]
      | _ => exact hm
    · intro op hop v hv
      exact hn.2 v (hv ▸ hop)
  generalize run la o0 ops = o at hm
  have : o.structure = .error .valueError := by
    unfold Obj.structure; rw [hm]
  exact step_solve_error.mpr (convSolve_structure_error this)

/-- Non-vacuity: the constructor without arguments, then a few assignments. -/
example (la : LinAlg) : ∃ k ops o, Spec.History la k ops o ∧ Spec.NoStructure k ops ∧ ops ≠ [] ∧ o.pol = 1 :=
  ⟨{}, [.setPol 1, .setUcell .none, .convSolve], _, ⟨_, by
      unfold init initFrom andThen
      simp only [setTheta, setPhi, setPol_ok (v := 0) ⟨le_rfl, zero_le_one⟩, setPsi, setFto, setPeriod, setThickness, setUcell]
      rfl, rfl⟩, ⟨rfl, by simp⟩, by simp, by
      obtain ⟨g, st, hx⟩ := convSolve_frame la (step la (step la _ (.setPol 1)).1 (.setUcell .none)).1
      unfold run
      simp only [List.foldl_cons, List.foldl_nil, step_convSolve_fst]
      rw [hx]
      simp [step, setPol, setUcell]⟩

/-- **C22, counterexample.** After a raster was replaced by `None` there is no structure, but `conv_solve` raises
`AttributeError` instead of `ValueError`. -/
theorem C22_none_negation (la : LinAlg) : ∃ k ops o, Spec.History la k ops o ∧ o.ucell = none ∧
    step la o .convSolve = (o, .raised .attributeError) := by
  refine ⟨exKwargs 0 none, [.setUcell .none], _, ⟨_, exObj_init ⟨le_rfl, zero_le_one⟩ none, rfl⟩, rfl, ?_⟩
  have : Obj.structure (run la (exObj 0 none) [.setUcell .none]) = .error .attributeError := by
    simp [run, step, setUcell, Out.ofSetter, Obj.structure, exObj]
  generalize run la (exObj 0 none) [.setUcell .none] = o at this ⊢
  exact step_solve_error.mpr (convSolve_structure_error this)

/-- **C22, counterexample.** Assigning an array of an unsupported dtype raises `ValueError` and `ucell` still is the
vector model, which was solved before; but now `conv_solve` raises `AttributeError`. -/
theorem C22_rejected_negation (la : LinAlg) : ∃ k o o', Spec.History la k [] o ∧
    (∃ o1 r, step la o .convSolve = (o1, .result r)) ∧
    step la o (.setUcell .badDtype) = (o', .raised .valueError) ∧ o'.ucell = o.ucell ∧
    step la o' .convSolve = (o', .raised .attributeError) := by
  refine ⟨bareKwargs, bareObj, { bareObj with modeling := some .raster }, ⟨_, bareObj_init, rfl⟩, ?_, rfl, rfl, ?_⟩
  · obtain ⟨o1, r, h⟩ := bareObj_ok la
    exact ⟨o1, r, step_solve.mpr h⟩
  · have : Obj.structure { bareObj with modeling := some .raster } = .error .attributeError := by
      simp [Obj.structure, bareObj]
    exact step_solve_error.mpr (convSolve_structure_error this)

#print axioms C22_choice_partial
#print axioms C22_no_structure_partial
#print axioms C22_none_negation
#print axioms C22_rejected_negation

end Meent
