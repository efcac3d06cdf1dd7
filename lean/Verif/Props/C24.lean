import Verif.Lemmas.ObjectExample

/-!
# C24: normal forms of `fto`, `period`, `thickness`

Proved: supported input is stored in normal form; other input raises `ValueError` for `fto` (always), for `period`
when it is neither a sequence nor an array, for `thickness` always; reading and assigning back changes nothing.
Not true of the code, with counterexamples: a rejected array leaves `fto` changed; `period` accepts any number of
values except that a zero-dimensional array raises `TypeError`; `thickness` keeps a zero-dimensional array.
-/

namespace Meent

/-- **C24, `fto`.** Supported input is stored as two integers; any other input raises `ValueError`, and unless it was
an array nothing changes. -/
theorem C24_fto_partial (la : LinAlg) (o : Obj) (v : Arg) :
    (∀ x y, Spec.normalFto v = some (x, y) → step la o (.setFto v) = ({ o with fto := .pair x y }, .done)) ∧
    (Spec.normalFto v = none → ∃ o', step la o (.setFto v) = (o', .raised .valueError) ∧
      (¬Spec.IsArray v → o' = o)) := by
  constructor
  · intro x y h
    unfold Spec.normalFto at h
    split at h <;> cases h <;> rfl
  · intro h
    unfold Spec.normalFto at h
    split at h
    case h_7 h1 h2 h3 h4 h5 h6 =>
      cases v with
      | scalar v => exact absurd rfl (h1 v)
      | arr0 v => exact absurd rfl (h2 v)
      | other => exact ⟨o, rfl, fun _ => rfl⟩
      | seq l =>
        match l, h3, h5 with
        | [], _, _ => exact ⟨o, rfl, fun _ => rfl⟩
        | [a], h3, _ => exact absurd rfl (h3 a)
        | [a, b], _, h5 => exact absurd rfl (h5 a b)
        | a :: b :: c :: l, _, _ => exact ⟨o, rfl, fun _ => rfl⟩
      | arr l =>
        match l, h4, h6 with
        | [], _, _ => exact ⟨_, rfl, fun h => absurd trivial h⟩
        | [a], h4, _ => exact absurd rfl (h4 a)
        | [a, b], _, h6 => exact absurd rfl (h6 a b)
        | a :: b :: c :: l, _, _ => exact ⟨_, rfl, fun h => absurd trivial h⟩
    all_goals cases h

/-- **C24, `period`.** Supported input other than a zero-dimensional array is stored as one value per axis; what is
neither a number nor a sequence nor an array raises `ValueError` and changes nothing. -/
theorem C24_period_partial (la : LinAlg) (o : Obj) (v : Arg) :
    (∀ x y, Spec.normalPeriod v = some (x, y) → (∀ a, v ≠ .arr0 a) →
      step la o (.setPeriod v) = ({ o with period := [x, y] }, .done)) ∧
    (v = .other → step la o (.setPeriod v) = (o, .raised .valueError)) := by
  constructor
  · intro x y h h0
    unfold Spec.normalPeriod at h
    split at h <;> first | (cases h; done) | (cases h; rfl) | (cases h; exact absurd rfl (h0 _))
  · rintro rfl; rfl

/-- **C24, `thickness`.** Supported input other than a zero-dimensional array is stored as a list; anything else
raises `ValueError` and changes nothing. -/
theorem C24_thickness_partial (la : LinAlg) (o : Obj) (v : Arg) :
    (∀ l, Spec.normalThickness v = some l → (∀ a, v ≠ .arr0 a) →
      step la o (.setThickness v) = ({ o with thickness := .list l }, .done)) ∧
    (Spec.normalThickness v = none → step la o (.setThickness v) = (o, .raised .valueError)) := by
  constructor
  · intro l h h0
    cases v with
    | arr0 a => exact absurd rfl (h0 a)
    | other => cases h
    | _ => cases h; rfl
  · intro h
    cases v with
    | other => rfl
    | _ => cases h

/-- The normal forms are attained by mixed input, e.g. `fto = 3.9`, `period = [2]`, `thickness = 0.5`. -/
example (la : LinAlg) (o : Obj) : step la o (.setFto (.scalar (.float 3.9))) = ({ o with fto := .pair 3 0 }, .done) ∧
    step la o (.setPeriod (.seq [.int 2])) = ({ o with period := [2, 2] }, .done) ∧
    step la o (.setThickness (.scalar (.float 0.5))) = ({ o with thickness := .list [0.5] }, .done) := by
  refine ⟨(C24_fto_partial la o _).1 3 0 ?_, (C24_period_partial la o _).1 2 2 ?_ (by simp),
    (C24_thickness_partial la o _).1 _ rfl (by simp)⟩
  · simp only [Spec.normalFto, Num.toInt]
    rw [if_pos (by norm_num)]
    have : ⌊(3.9 : ℝ)⌋ = 3 := by rw [Int.floor_eq_iff]; norm_num
    rw [this]
  · simp [Spec.normalPeriod, Num.val]

/-- **C24, read back.** After every history in which no unsupported array was assigned to `fto`, reading `fto` and
assigning the value back changes nothing. -/
theorem C24_fto_readback_partial (la : LinAlg) (k : Kwargs) (ops : List Op) (o : Obj) (hh : Spec.History la k ops o)
    (hf : Spec.FtoArraysFit ops) : step la o (.setFto o.fto.read) = (o, .done) := by
  obtain ⟨o0, h0, rfl⟩ := hh
  have hp : ∃ x y, (run la o0 ops).fto = .pair x y := by
    refine run_induction (P := fun o => ∃ x y, o.fto = .pair x y)
      (A := fun op => ∀ v, op = .setFto v → Spec.IsArray v → (Spec.normalFto v).isSome) ?_ ?_ ops ?_
    · obtain ⟨a, b, c, d, e, f, g, h1, h2, h3, h4, h5, h6, rfl⟩ := init_ok h0
      have e3 : ∃ x y, d.fto = .pair x y := by
        rcases hn : Spec.normalFto k.fto with _ | ⟨x, y⟩
        · obtain ⟨o', ho, -⟩ := (C24_fto_partial la c k.fto).2 hn
          simp only [step, h3, Out.ofSetter] at ho
          cases ho
        · have ho := (C24_fto_partial la c k.fto).1 x y hn
          simp only [step, h3, Out.ofSetter] at ho
          exact ⟨x, y, by rw [(Prod.mk.inj ho).1]⟩
      obtain ⟨_, e4⟩ := setPeriod_frame k.period d
      obtain ⟨_, e5⟩ := setThickness_frame k.thickness { e with wavelength := k.wavelength }
      obtain ⟨_, _, e6⟩ := setUcell_frame k.ucell
        { f with algo := k.algo, stored := .nothing, modeling := none, grating := none, ucell := none }
      rw [h4] at e4; rw [h5] at e5; rw [h6] at e6
      dsimp only at e4 e5 e6
      subst e4 e5 e6
      exact e3
    · intro o op ha ⟨x, y, h⟩
      by_cases h1 : ∃ v, op = .setFto v
      · obtain ⟨v, rfl⟩ := h1
        rcases hn : Spec.normalFto v with _ | ⟨x', y'⟩
        · obtain ⟨o', ho, hu⟩ := (C24_fto_partial la o v).2 hn
          rw [ho]
          have : ¬Spec.IsArray v := fun hv => by
            have := ha v rfl hv
            rw [hn] at this
            cases this
          rw [hu this]
          exact ⟨x, y, h⟩
        · rw [(C24_fto_partial la o v).1 x' y' hn]
          exact ⟨x', y', rfl⟩
      by_cases h2 : ∃ v, op = .setTypeComplex v
      · obtain ⟨v, rfl⟩ := h2
        simp only [step, ofSetter_fst]
        exact ⟨x, y, setTypeComplex_fto h⟩
      push Not at h1 h2
      rw [step_fto la o op h1 h2]
      exact ⟨x, y, h⟩
    · intro op hop v e
      exact hf v (e ▸ hop)
  obtain ⟨x, y, h⟩ := hp
  generalize run la o0 ops = o at h ⊢
  rw [h]
  simp only [step, FtoVal.read, setFto, Out.ofSetter, Num.toInt]
  rw [← h]

/-- **C24, read back.** After every history, reading `period` and assigning the value back changes nothing. -/
theorem C24_period_readback (la : LinAlg) (k : Kwargs) (ops : List Op) (o : Obj) (hh : Spec.History la k ops o) :
    step la o (.setPeriod (readPeriod o)) = (o, .done) := by
  obtain ⟨o0, h0, rfl⟩ := hh
  have key : ∀ (v : Arg) (o : Obj), ((setPeriod v o).2 = .ok () ∨ o.period.length ≠ 1) →
      (setPeriod v o).1.period.length ≠ 1 := by
    intro v o h
    unfold setPeriod at h ⊢
    split <;> try simp
    · rename_i l hl
      intro e
      obtain ⟨a, rfl⟩ := List.length_eq_one_iff.mp e
      exact hl a rfl
    · rename_i l hl
      intro e
      obtain ⟨a, rfl⟩ := List.length_eq_one_iff.mp e
      exact hl a rfl
    · simpa using h
    · simpa using h
  have hp : (run la o0 ops).period.length ≠ 1 := by
    refine run_induction (P := fun o => o.period.length ≠ 1) (A := fun _ => True) ?_ ?_ ops (by simp)
    · obtain ⟨a, b, c, d, e, f, g, h1, h2, h3, h4, h5, h6, rfl⟩ := init_ok h0
      have e4 := key k.period d (.inl (by rw [h4]))
      rw [h4] at e4
      obtain ⟨_, e5⟩ := setThickness_frame k.thickness { e with wavelength := k.wavelength }
      obtain ⟨_, _, e6⟩ := setUcell_frame k.ucell
        { f with algo := k.algo, stored := .nothing, modeling := none, grating := none, ucell := none }
      rw [h5] at e5; rw [h6] at e6
      dsimp only at e5 e6
      subst e5 e6
      exact e4
    · intro o op _ h
      by_cases h1 : ∃ v, op = .setPeriod v
      · obtain ⟨v, rfl⟩ := h1
        simp only [step, ofSetter_fst]
        exact key v o (.inr h)
      push Not at h1
      rw [step_period la o op h1]
      exact h
  generalize run la o0 ops = o at hp ⊢
  unfold readPeriod
  have e : (o.period.map Num.float).map Num.val = o.period := by
    rw [List.map_map]; exact (List.map_congr_left fun _ _ => rfl).trans (List.map_id _)
  have h2 : ∀ (l : List Num) (o : Obj), l.length ≠ 1 → setPeriod (.arr l) o = ({ o with period := l.map Num.val }, .ok ()) := by
    intro l o hl
    match l, hl with
    | [], _ => rfl
    | [a], hl => exact absurd rfl hl
    | a :: b :: l, _ => rfl
  simp only [step]
  rw [h2 _ _ (by simpa using hp), e]
  rfl

/-- **C24, read back.** In every state, reading `thickness` and assigning the value back changes nothing. -/
theorem C24_thickness_readback (la : LinAlg) (o : Obj) : step la o (.setThickness o.thickness.read) = (o, .done) := by
  unfold step
  rcases ho : o.thickness with l | t
  · have e : (l.map Num.float).map Num.val = l := by
      rw [List.map_map]; exact (List.map_congr_left fun _ _ => rfl).trans (List.map_id _)
    simp only [ThickVal.read, setThickness, e, Out.ofSetter]
    rw [← ho]
  · simp only [ThickVal.read, setThickness, Num.val, Out.ofSetter]
    rw [← ho]

/-- Non-vacuity: assignments of a list, an array and a float to `fto`, and a rejected list. -/
example (la : LinAlg) : ∃ k ops o, Spec.History la k ops o ∧ Spec.FtoArraysFit ops ∧ ops.length = 3 :=
  ⟨exKwargs 0 none, [.setFto (.arr [.int 2, .int 1]), .setFto (.scalar (.float 2)), .setFto (.seq [])], _,
    ⟨_, exObj_init ⟨le_rfl, zero_le_one⟩ none, rfl⟩, (by
      intro v h hv
      simp only [List.mem_cons, Op.setFto.injEq, List.not_mem_nil, or_false] at h
      rcases h with rfl | rfl | rfl <;> first | rfl | cases hv), rfl⟩

/-- **C24, counterexample.** An array of three entries assigned to `fto` raises `ValueError`, yet `fto` has changed:
assigning it to itself now raises. -/
theorem C24_fto_negation (la : LinAlg) : ∃ o', step la (exObj 0 none) (.setFto (.arr [.int 1, .int 1, .int 1]))
      = (o', .raised .valueError) ∧ o' ≠ exObj 0 none ∧
    step la o' (.setFto o'.fto.read) = (o', .raised .valueError) := by
  refine ⟨_, rfl, ?_, rfl⟩
  intro h
  have := congrArg Obj.fto h
  cases this

/-- **C24, counterexample.** `period` accepts three values and no value at all; a zero-dimensional array raises
`TypeError`. -/
theorem C24_period_negation (la : LinAlg) (o : Obj) :
    step la o (.setPeriod (.seq [.int 1, .int 1, .int 1])) = ({ o with period := [1, 1, 1] }, .done) ∧
    step la o (.setPeriod (.seq [])) = ({ o with period := [] }, .done) ∧
    step la o (.setPeriod (.arr0 (.int 1))) = (o, .raised .typeError) := by
  refine ⟨?_, rfl, rfl⟩
  simp [step, setPeriod, Out.ofSetter, Num.val]

/-- **C24, counterexample.** A zero-dimensional array assigned to `thickness` is accepted, but then the grating that
could be solved raises `TypeError`. -/
theorem C24_thickness_negation : ∃ o' o'', step exLA (exObj 0 none) (.setThickness (.arr0 (.float (1 / 3)))) = (o', .done) ∧
    (∃ o1 r, step exLA (exObj 0 none) .convSolve = (o1, .result r)) ∧
    step exLA o' .convSolve = (o'', .raised .typeError) := by
  obtain ⟨o, h⟩ := exObj_te
  refine ⟨{ exObj 0 none with thickness := .zeroD (1 / 3) },
    { exObj 0 none with thickness := .zeroD (1 / 3), grating := some 0 }, rfl, ⟨_, _, step_solve.mpr h⟩,
    step_solve_error.mpr ?_⟩
  have hc : convMats exLA (Obj.settings { exObj 0 none with thickness := .zeroD (1 / 3) } (.raster exCell) 0 0)
      = .ok [exConv] := exConvMats 0 none
  have hs : Obj.structure { exObj 0 none with thickness := .zeroD (1 / 3) } = .ok (.raster exCell) := by
    simp [Obj.structure, exObj]
  have ho : Obj.orders { exObj 0 none with thickness := .zeroD (1 / 3) } = .ok (0, 0) := by
    simp [Obj.orders, exObj]
  have hr : Obj.ready { exObj 0 none with thickness := .zeroD (1 / 3) } = .error .typeError := by
    simp [Obj.ready, Obj.anglesReady, exObj]
  have hg : gratingType (Obj.settings { exObj 0 none with thickness := .zeroD (1 / 3) } (.raster exCell) 0 0) = 0 :=
    exSettings_grating 0 (.inl rfl)
  unfold convSolve
  rw [hs, ho]
  dsimp only
  rw [hc, hr]
  dsimp only
  rw [hg]
  rfl

#print axioms C24_fto_partial
#print axioms C24_period_partial
#print axioms C24_thickness_partial
#print axioms C24_fto_readback_partial
#print axioms C24_period_readback
#print axioms C24_thickness_readback
#print axioms C24_fto_negation
#print axioms C24_period_negation
#print axioms C24_thickness_negation

end Meent
