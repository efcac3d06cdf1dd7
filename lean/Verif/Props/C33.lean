import Verif.Lemmas.Dispersion

/-!
# C33: dynamic graphene specs are validated

`graphene_falkovsky` accepts exactly the finite positive conditions, and its spec carries them in
the order the evaluator reads them.
-/

namespace Meent

open Spec

/-- **C33, acceptance.** The call returns exactly when all four conditions are finite, positive and
small enough for a float, and the returned spec carries those numbers.  Missing: an int of more
than about 308 digits is finite and positive and yet raises, see `C33_overflow_negation`. -/
theorem C33_accepts_partial (f m t d : ScalarArg) (s : FSpec) :
    graphene_falkovsky f m t d = .ok s ↔
      ∃ vf vm vt vd, (FiniteValue f vf ∧ FiniteValue m vm ∧ FiniteValue t vt ∧ FiniteValue d vd) ∧
        (0 < vf ∧ 0 < vm ∧ 0 < vt ∧ 0 < vd) ∧
        (¬ TooLarge f ∧ ¬ TooLarge m ∧ ¬ TooLarge t ∧ ¬ TooLarge d) ∧
        s = ⟨some (.name "graphene-falkovsky".toList), some [vf, vm, vt, vd], some (0, ⊤)⟩ := by
  rw [graphene_ok]
  simp only [normalizeArg_ok]
  constructor
  · rintro ⟨vf, vm, vt, vd, ⟨a1, a2, a3⟩, ⟨b1, b2, b3⟩, ⟨c1, c2, c3⟩, ⟨d1, d2, d3⟩, rfl⟩
    exact ⟨vf, vm, vt, vd, ⟨a1, b1, c1, d1⟩, ⟨a2, b2, c2, d2⟩, ⟨a3, b3, c3, d3⟩, rfl⟩
  · rintro ⟨vf, vm, vt, vd, ⟨a1, b1, c1, d1⟩, ⟨a2, b2, c2, d2⟩, ⟨a3, b3, c3, d3⟩, rfl⟩
    exact ⟨vf, vm, vt, vd, ⟨a1, a2, a3⟩, ⟨b1, b2, b3⟩, ⟨c1, c2, c3⟩, ⟨d1, d2, d3⟩, rfl⟩

/-- **C33, rejection.** The exception is the one of the first offending argument in the order
Fermi level, mobility, temperature, thickness: `TypeError` for a non-scalar, `OverflowError` for an
int beyond the floats, `ValueError` for anything not finite or not positive. -/
theorem C33_rejects (f m t d : ScalarArg) (e : Err) :
    graphene_falkovsky f m t d = .error e ↔
      ∃ before x after, [f, m, t, d] = before ++ x :: after ∧
        (∀ y ∈ before, ∃ v, FiniteValue y v ∧ 0 < v ∧ ¬ TooLarge y) ∧
        ((x = .notScalar ∧ e = .typeError) ∨ (TooLarge x ∧ e = .overflow) ∨
          ((x = .nonFinite ∨ ∃ v, FiniteValue x v ∧ v ≤ 0 ∧ ¬ TooLarge x) ∧ e = .valueError)) := by
  simp only [← normalizeArg_error]
  have hok : ∀ y, (∃ v, FiniteValue y v ∧ 0 < v ∧ ¬ TooLarge y) ↔ ∃ v, normalizeArg y = .ok v :=
    fun y => by simp only [normalizeArg_ok]
  simp only [hok]
  exact graphene_error f m t d e

/-- **C33, order of the conditions.** Evaluating the returned spec is evaluating the model with the
Fermi level, mobility, temperature and thickness that were passed. -/
theorem C33_conditions (sp : SciPy) (f m t d : ScalarArg) (vf vm vt vd : ℝ)
    (hf : FiniteValue f vf) (hm : FiniteValue m vm) (ht : FiniteValue t vt)
    (hd : FiniteValue d vd) (s : FSpec) (hs : graphene_falkovsky f m t d = .ok s) (wl : List ℝ)
    (hwl : ∀ w ∈ wl, 0 < w) :
    evaluate sp s wl = .ok (wl.map (grapheneAt sp (fermi_level := vf) (mobility := vm)
      (temperature := vt) (thickness := vd))) := by
  obtain ⟨vf', vm', vt', vd', ⟨hf', hm', ht', hd'⟩, ⟨pf, pm, pt, pd⟩, -, rfl⟩ :=
    (C33_accepts_partial f m t d s).mp hs
  obtain rfl := finiteValue_unique hf hf'
  obtain rfl := finiteValue_unique hm hm'
  obtain rfl := finiteValue_unique ht ht'
  obtain rfl := finiteValue_unique hd hd'
  rw [evaluate_graphene, model_graphene_falkovsky]
  rw [if_neg (by push Not; exact hwl), if_neg (mul_pos pm pf).ne', if_neg (fun h => pt.ne' h.1)]

/-- **C33, range.** The spec never triggers the out-of-range warning at positive wavelengths, and
a non-positive wavelength raises `ValueError` in the evaluator. -/
theorem C33_wavelengths (sp : SciPy) (f m t d : ScalarArg) (s : FSpec)
    (hs : graphene_falkovsky f m t d = .ok s) (tb : Table) (wl : List ℝ) :
    ((∀ w ∈ wl, 0 < w) → (find_nk_index sp (.spec s) tb wl).warned = false) ∧
      ((∃ w ∈ wl, w ≤ 0) → (find_nk_index sp (.spec s) tb wl).value = .error .valueError) := by
  obtain ⟨vf, vm, vt, vd, -, -, -, rfl⟩ := (C33_accepts_partial f m t d s).mp hs
  have hd : Denotes tb (.spec ⟨some (.name "graphene-falkovsky".toList), some [vf, vm, vt, vd],
      some (0, ⊤)⟩) (.spec ⟨some (.name "graphene-falkovsky".toList), some [vf, vm, vt, vd],
      some (0, ⊤)⟩) false := .spec _
  constructor
  · intro hwl
    obtain ⟨w, hw, hiff⟩ := warn_ok (d := .spec ⟨some (.name "graphene-falkovsky".toList),
      some [vf, vm, vt, vd], some (0, ⊤)⟩) (by simp [HasRange]) wl
    unfold find_nk_index
    rw [(selectMaterial_ok _ _ _ _).mpr hd]
    simp only [hw]
    rw [← Bool.not_eq_true, hiff]
    rintro ⟨x, hx, lo, hi, e, h⟩
    cases e
    rcases h with h | h
    · have : (x : EReal) < ((0 : ℝ) : EReal) := h
      rw [EReal.coe_lt_coe_iff] at this
      linarith [hwl x hx]
    · exact absurd h (by simp)
  · intro h
    rw [find_of_denotes sp hd (by simp [HasRange])]
    simp only [indexOf, evaluate_graphene, model_graphene_falkovsky, if_pos h]
    rfl

/-- **C33, counterexample.** The int `2 ^ 1024` is finite and positive, and raises
`OverflowError`. -/
theorem C33_overflow_negation :
    ¬ ∀ f m t d : ScalarArg,
      (∃ vf vm vt vd, (FiniteValue f vf ∧ FiniteValue m vm ∧ FiniteValue t vt ∧ FiniteValue d vd) ∧
        (0 < vf ∧ 0 < vm ∧ 0 < vt ∧ 0 < vd)) → ∃ s, graphene_falkovsky f m t d = .ok s := by
  intro h
  obtain ⟨s, hs⟩ := h (.int (2 ^ 1024)) (.finite 1) (.finite 1) (.finite 1)
    ⟨((2 ^ 1024 : ℤ) : ℝ), 1, 1, 1, ⟨rfl, rfl, rfl, rfl⟩, by push_cast; positivity, one_pos,
      one_pos, one_pos⟩
  obtain ⟨_, _, _, _, -, -, ⟨h1, -⟩, -⟩ := (C33_accepts_partial _ _ _ _ s).mp hs
  apply h1
  simp only [TooLarge, floatLimit]
  rw [abs_of_pos (by positivity)]
  exact sub_le_self _ (by positivity)

/-- Default conditions at a Fermi level of 0.4 eV are accepted. -/
example : graphene_falkovsky (.finite 0.4) = .ok ⟨some (.name "graphene-falkovsky".toList),
    some [0.4, 10000, 300, grapheneThickness], some (0, ⊤)⟩ := by
  rw [C33_accepts_partial]
  have : 0 < grapheneThickness := by unfold grapheneThickness; norm_num
  exact ⟨_, _, _, _, ⟨rfl, rfl, rfl, rfl⟩, ⟨by norm_num, by norm_num, by norm_num, this⟩,
    ⟨id, id, id, id⟩, rfl⟩

#print axioms C33_accepts_partial
#print axioms C33_rejects
#print axioms C33_conditions
#print axioms C33_wavelengths
#print axioms C33_overflow_negation

end Meent
