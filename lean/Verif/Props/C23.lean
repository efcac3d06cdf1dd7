import Verif.Lemmas.ObjectExample

/-!
# C23: `pol` and `psi` describe the same polarization

The relation between the two and the behaviour of `pol` assignments are proved in full.  The range of `pol` is
proved for histories whose `psi` assignments lie in `[0, π/2]`: the `psi` setter does not check its argument.
-/

namespace Meent

/-- **C23, relation.** After every history, `psi = π/2 (1 - pol)`. -/
theorem C23_relation (la : LinAlg) (k : Kwargs) (ops : List Op) (o : Obj) (hh : Spec.History la k ops o) :
    o.psi = Real.pi / 2 * (1 - o.pol) := by
  obtain ⟨o0, h0, rfl⟩ := hh
  have hpsi : ∀ (v : Option ℝ) (o : Obj), o.psi = Real.pi / 2 * (1 - o.pol) →
      (setPsi v o).1.psi = Real.pi / 2 * (1 - (setPsi v o).1.pol) := by
    intro v o h
    cases v with
    | none => exact h
    | some ψ =>
      simp only [setPsi]
      field_simp
      ring
  have hpol : ∀ (v : ℝ) (o : Obj), (setPol v o).2 = .ok () ∨ o.psi = Real.pi / 2 * (1 - o.pol) →
      (setPol v o).1.psi = Real.pi / 2 * (1 - (setPol v o).1.pol) := by
    intro v o h
    by_cases hv : 0 ≤ v ∧ v ≤ 1
    · rw [setPol_ok hv]
    · rw [setPol_err hv] at h ⊢
      exact h.resolve_left (by simp)
  refine run_induction (P := fun o => o.psi = Real.pi / 2 * (1 - o.pol)) (A := fun _ => True) ?_ ?_ ops (by simp)
  · obtain ⟨a, b, c, d, e, f, g, h1, h2, h3, h4, h5, h6, rfl⟩ := init_ok h0
    have e1 := hpol k.pol a (.inl (by rw [h1]))
    rw [h1] at e1
    have e2 := hpsi k.psi b e1
    rw [h2] at e2
    obtain ⟨_, e3⟩ := setFto_frame k.fto c
    obtain ⟨_, e4⟩ := setPeriod_frame k.period d
    obtain ⟨_, e5⟩ := setThickness_frame k.thickness { e with wavelength := k.wavelength }
    obtain ⟨_, _, e6⟩ := setUcell_frame k.ucell
      { f with algo := k.algo, stored := .nothing, modeling := none, grating := none, ucell := none }
    rw [h3] at e3; rw [h4] at e4; rw [h5] at e5; rw [h6] at e6
    dsimp only at e3 e4 e5 e6
    subst e3 e4 e5 e6
    exact e2
  · intro o op _ h
    by_cases h1 : ∃ v, op = .setPol v
    · obtain ⟨v, rfl⟩ := h1
      simp only [step, ofSetter_fst]
      exact hpol v o (.inr h)
    by_cases h2 : ∃ v, op = .setPsi v
    · obtain ⟨v, rfl⟩ := h2
      simp only [step, ofSetter_fst]
      exact hpsi v o h
    push Not at h1 h2
    obtain ⟨e1, e2⟩ := step_pol la o op h1 h2
    rw [e1, e2]; exact h

/-- **C23, rejection.** A value outside `[0, 1]` assigned to `pol` raises `ValueError` and leaves the object as it
was; a value inside is accepted and read back. -/
theorem C23_assign (la : LinAlg) (o : Obj) (v : ℝ) :
    (¬(0 ≤ v ∧ v ≤ 1) → step la o (.setPol v) = (o, .raised .valueError)) ∧
    (0 ≤ v ∧ v ≤ 1 → ∃ o', step la o (.setPol v) = (o', .done) ∧ o'.pol = v ∧ o'.psi = Real.pi / 2 * (1 - v)) := by
  constructor
  · intro h; simp only [step, setPol, if_pos h, Out.ofSetter]
  · intro h
    simp only [step, setPol_ok h, Out.ofSetter]
    exact ⟨_, rfl, rfl, rfl⟩

/-- **C23, range.** If every `psi` ever assigned lies in `[0, π/2]`, `pol` lies in `[0, 1]`. -/
theorem C23_range_partial (la : LinAlg) (k : Kwargs) (ops : List Op) (o : Obj) (hh : Spec.History la k ops o)
    (hr : Spec.PsiInRange k ops) : 0 ≤ o.pol ∧ o.pol ≤ 1 := by
  obtain ⟨o0, h0, rfl⟩ := hh
  have hpsi : ∀ (v : Option ℝ) (o : Obj), (∀ ψ, v = some ψ → 0 ≤ ψ ∧ ψ ≤ Real.pi / 2) → 0 ≤ o.pol ∧ o.pol ≤ 1 →
      0 ≤ (setPsi v o).1.pol ∧ (setPsi v o).1.pol ≤ 1 := by
    intro v o hv h
    cases v with
    | none => exact h
    | some ψ =>
      obtain ⟨a, b⟩ := hv ψ rfl
      have hp := Real.pi_pos
      simp only [setPsi]
      have e1 : 0 ≤ 2 * ψ / Real.pi := by positivity
      have e2 : 2 * ψ / Real.pi ≤ 1 := by rw [div_le_one hp]; linarith
      constructor <;> linarith
  have hpol : ∀ (v : ℝ) (o : Obj), (setPol v o).2 = .ok () ∨ (0 ≤ o.pol ∧ o.pol ≤ 1) →
      0 ≤ (setPol v o).1.pol ∧ (setPol v o).1.pol ≤ 1 := by
    intro v o h
    by_cases hv : 0 ≤ v ∧ v ≤ 1
    · rw [setPol_ok hv]
      exact hv
    · rw [setPol_err hv] at h ⊢
      exact h.resolve_left (by simp)
  refine run_induction (P := fun o => 0 ≤ o.pol ∧ o.pol ≤ 1)
    (A := fun op => ∀ ψ, op = .setPsi (some ψ) → 0 ≤ ψ ∧ ψ ≤ Real.pi / 2) ?_ ?_ ops ?_
  · obtain ⟨a, b, c, d, e, f, g, h1, h2, h3, h4, h5, h6, rfl⟩ := init_ok h0
    have e1 := hpol k.pol a (.inl (by rw [h1]))
    rw [h1] at e1
    have e2 := hpsi k.psi b hr.1 e1
    rw [h2] at e2
    obtain ⟨_, e3⟩ := setFto_frame k.fto c
    obtain ⟨_, e4⟩ := setPeriod_frame k.period d
    obtain ⟨_, e5⟩ := setThickness_frame k.thickness { e with wavelength := k.wavelength }
    obtain ⟨_, _, e6⟩ := setUcell_frame k.ucell
      { f with algo := k.algo, stored := .nothing, modeling := none, grating := none, ucell := none }
    rw [h3] at e3; rw [h4] at e4; rw [h5] at e5; rw [h6] at e6
    dsimp only at e3 e4 e5 e6
    subst e3 e4 e5 e6
    exact e2
  · intro o op ha h
    by_cases h1 : ∃ v, op = .setPol v
    · obtain ⟨v, rfl⟩ := h1
      simp only [step, ofSetter_fst]
      exact hpol v o (.inr h)
    by_cases h2 : ∃ v, op = .setPsi v
    · obtain ⟨v, rfl⟩ := h2
      simp only [step, ofSetter_fst]
      exact hpsi v o (fun ψ hψ => ha ψ (by rw [hψ])) h
    push Not at h1 h2
    obtain ⟨e1, e2⟩ := step_pol la o op h1 h2
    rw [e1]; exact h
  · intro op hop ψ e
    exact hr.2 ψ (e ▸ hop)

/-- Non-vacuity: a history with an accepted, a rejected and a `psi` assignment. -/
example (la : LinAlg) : ∃ k ops o, Spec.History la k ops o ∧ Spec.PsiInRange k ops ∧ ops.length = 3 :=
  ⟨exKwargs 0 none, [.setPol (1 / 2), .setPol 2, .setPsi (some 1)], _,
    ⟨_, exObj_init ⟨le_rfl, zero_le_one⟩ none, rfl⟩, ⟨by simp [exKwargs], by
      intro ψ h
      simp only [List.mem_cons, reduceCtorEq, List.not_mem_nil, Op.setPsi.injEq, Option.some.injEq, or_false,
        false_or] at h
      subst h
      have := Real.pi_gt_three
      constructor <;> linarith⟩, rfl⟩

/-- **C23, counterexample.** `psi = π` is accepted and leaves `pol = -1`. -/
theorem C23_psi_negation (la : LinAlg) : ∃ k ops o, Spec.History la k ops o ∧
    step la (exObj 0 none) (.setPsi (some Real.pi)) = (o, .done) ∧ o.pol = -1 := by
  refine ⟨exKwargs 0 none, [.setPsi (some Real.pi)], _, ⟨_, exObj_init ⟨le_rfl, zero_le_one⟩ none, rfl⟩, rfl, ?_⟩
  simp only [run, List.foldl_cons, List.foldl_nil, step, ofSetter_fst, setPsi]
  have := Real.pi_ne_zero
  field_simp
  norm_num

#print axioms C23_relation
#print axioms C23_assign
#print axioms C23_range_partial
#print axioms C23_psi_negation

end Meent
