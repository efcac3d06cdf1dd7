import Verif.Lemmas.Dispersion

/-!
# C32: closed-form materials

`evaluate` computes the Sellmeier formulas, raises `NotImplementedError` for unknown ones, and
`find_nk_index` on a closed-form material returns no gain.
-/

namespace Meent

open Spec

/-- **C32, formula 1.** The index is the square root of
`1 + C₀ + Σ Bᵢ λ² / (λ² - Cᵢ²)` for every coefficient list and all wavelengths. -/
theorem C32_formula1 (sp : SciPy) (c0 : ℝ) (terms : List (ℝ × ℝ))
    (range : Option (EReal × EReal)) (wl : List ℝ) :
    evaluate sp ⟨some (.num 1), some (sellmeierCoefficients c0 terms), range⟩ wl =
      .ok (wl.map (sellmeierIndex c0 (terms.map fun t => (t.1, t.2 ^ 2)))) :=
  sellmeier_value (fun c => c ^ 2) c0 terms wl

/-- **C32, formula 2.** The same with `Cᵢ` in place of `Cᵢ²`. -/
theorem C32_formula2 (sp : SciPy) (c0 : ℝ) (terms : List (ℝ × ℝ))
    (range : Option (EReal × EReal)) (wl : List ℝ) :
    evaluate sp ⟨some (.num 2), some (sellmeierCoefficients c0 terms), range⟩ wl =
      .ok (wl.map (sellmeierIndex c0 terms)) := by
  have := sellmeier_value (fun c => c) c0 terms wl
  rw [List.map_congr_left (g := fun t => t) (fun t _ => rfl), List.map_id'] at this
  exact this

/-- **C32, order of the terms.** Reordering the terms does not change the result. -/
theorem C32_order (sp : SciPy) (n : ℤ) (hn : n = 1 ∨ n = 2) (c0 : ℝ)
    (terms terms' : List (ℝ × ℝ)) (hp : terms.Perm terms') (range : Option (EReal × EReal))
    (wl : List ℝ) :
    evaluate sp ⟨some (.num n), some (sellmeierCoefficients c0 terms), range⟩ wl =
      evaluate sp ⟨some (.num n), some (sellmeierCoefficients c0 terms'), range⟩ wl := by
  have key : ∀ a b : List (ℝ × ℝ), a.Perm b → sellmeierIndex c0 a = sellmeierIndex c0 b := by
    intro a b h
    funext w
    have h1 : (∃ t ∈ a, w ^ 2 = t.2) ↔ ∃ t ∈ b, w ^ 2 = t.2 := by
      simp only [h.mem_iff]
    have h2 : sellmeierSquare c0 a w = sellmeierSquare c0 b w := by
      unfold sellmeierSquare
      rw [(h.map _).sum_eq]
    unfold sellmeierIndex
    simp only [h1, h2]
  rcases hn with rfl | rfl
  · rw [C32_formula1, C32_formula1, key _ _ (hp.map _)]
  · rw [C32_formula2, C32_formula2, key _ _ hp]

/-- **C32, malformed lists.** A list of even length, to which no sum corresponds, raises
`IndexError`. -/
theorem C32_malformed (sp : SciPy) (n : ℤ) (hn : n = 1 ∨ n = 2) (cs : List ℝ)
    (hc : cs.length % 2 = 0) (range : Option (EReal × EReal)) (wl : List ℝ) :
    evaluate sp ⟨some (.num n), some cs, range⟩ wl = .error .indexError := by
  rcases hn with rfl | rfl
  · exact sellmeier_even _ cs wl hc
  · exact sellmeier_even _ cs wl hc

private theorem chunks4_incomplete : ∀ cs : List ℝ, cs.length % 4 ≠ 0 → chunks4 cs = .error .valueError
  | [], h => absurd rfl h
  | [_], _ => rfl
  | [_, _], _ => rfl
  | [_, _, _], _ => rfl
  | _ :: _ :: _ :: _ :: rest, h => by
      have := chunks4_incomplete rest (by simp only [List.length_cons] at h; omega)
      simp only [chunks4, this]
      rfl

/-- **C32, incomplete oscillators.** A Brendel-Bormann list in which an oscillator or the leading parameters are incomplete, and a
graphene list that does not have four entries, raises. -/
theorem C32_incomplete (sp : SciPy) (cs : List ℝ) (range : Option (EReal × EReal)) (wl : List ℝ) :
    ((cs.length < 3 ∨ (cs.length - 3) % 4 ≠ 0) →
      evaluate sp ⟨some (.name "brendel-bormann-ev".toList), some cs, range⟩ wl = .error .valueError) ∧
    (cs.length = 0 → evaluate sp ⟨some (.name "brendel-bormann-cm".toList), some cs, range⟩ wl = .error .indexError) ∧
    ((0 < cs.length ∧ (cs.length - 1) % 4 ≠ 0) →
      evaluate sp ⟨some (.name "brendel-bormann-cm".toList), some cs, range⟩ wl = .error .valueError) ∧
    (cs.length ≠ 4 → evaluate sp ⟨some (.name "graphene-falkovsky".toList), some cs, range⟩ wl = .error .valueError) := by
  have e1 : ∀ cs, evaluate sp ⟨some (.name "brendel-bormann-ev".toList), some cs, range⟩ wl = model_brendel_bormann_ev sp cs wl :=
    fun _ => rfl
  have e2 : ∀ cs, evaluate sp ⟨some (.name "brendel-bormann-cm".toList), some cs, range⟩ wl = model_brendel_bormann_cm sp cs wl :=
    fun _ => rfl
  have e3 : ∀ cs, evaluate sp ⟨some (.name "graphene-falkovsky".toList), some cs, range⟩ wl = model_graphene_falkovsky sp cs wl :=
    fun _ => rfl
  rw [e1, e2, e3]
  refine ⟨fun h => ?_, fun h => ?_, fun h => ?_, fun h => ?_⟩
  · match cs, h with
    | [], _ => rfl
    | [_], _ => rfl
    | [_, _], _ => rfl
    | _ :: _ :: _ :: rest, h =>
      simp only [model_brendel_bormann_ev, chunks4_incomplete rest (by simp only [List.length_cons] at h; omega)]
      rfl
  · rw [List.length_eq_zero_iff.mp h]
    rfl
  · match cs, h with
    | _ :: rest, h =>
      simp only [model_brendel_bormann_cm, chunks4_incomplete rest (by simp only [List.length_cons] at h; omega)]
      rfl
  · match cs, h with
    | [], _ => rfl
    | [_], _ => rfl
    | [_, _], _ => rfl
    | [_, _, _], _ => rfl
    | [_, _, _, _], h => exact absurd rfl h
    | _ :: _ :: _ :: _ :: _ :: _, _ => rfl

/-- A Drude term followed by three quarters of an oscillator. -/
example (sp : SciPy) (wl : List ℝ) :
    evaluate sp ⟨some (.name "brendel-bormann-ev".toList), some [9, 1, 0.1, 0.2, 1, 3], none⟩ wl = .error .valueError :=
  (C32_incomplete sp _ none wl).1 (by simp)

/-- **C32, unknown formulas.** -/
theorem C32_unknown (sp : SciPy) (key : FormulaKey) (h1 : key ≠ .num 1) (h2 : key ≠ .num 2)
    (h3 : key ≠ .name "brendel-bormann-ev".toList) (h4 : key ≠ .name "brendel-bormann-cm".toList)
    (h5 : key ≠ .name "graphene-falkovsky".toList) (cs : Option (List ℝ))
    (range : Option (EReal × EReal)) (wl : List ℝ) :
    evaluate sp ⟨some key, cs, range⟩ wl = .error .notImplemented := by
  have : FORMULAS sp key = none := by
    cases key with
    | num n =>
      have e1 : n ≠ 1 := fun h => h1 (by rw [h])
      have e2 : n ≠ 2 := fun h => h2 (by rw [h])
      simp [FORMULAS, e1, e2]
    | name s =>
      have e1 : s ≠ "brendel-bormann-ev".toList := fun h => h3 (by rw [h])
      have e2 : s ≠ "brendel-bormann-cm".toList := fun h => h4 (by rw [h])
      have e3 : s ≠ "graphene-falkovsky".toList := fun h => h5 (by rw [h])
      simp only [FORMULAS, if_neg e1, if_neg e2, if_neg e3]
  simp only [evaluate, this]

/-- **C32, no gain.** Looking up a closed-form material that is passive (`Spec.PassiveSpec`) at
positive wavelengths never returns gain.  The Faddeeva function is only assumed to have its
integral representation in the upper half plane; the quadrature may return any number.  Missing:
a Brendel-Bormann model with coefficients that describe gain, see `C32_gain_negation`. -/
theorem C32_no_gain_partial (sp : SciPy) (hw : IsFaddeeva sp.wofz) (t : Table) (m : MatArg)
    (s : FSpec) (b : Bool) (hd : Denotes t m (.spec s) b) (hs : PassiveSpec s) (wl : List ℝ)
    (hwl : ∀ w ∈ wl, 0 < w) (r : List (Option ℂ))
    (h : (find_nk_index sp m t wl).value = .ok r) : NoGain r := by
  refine noGain_find hd h fun n hn z hz => ?_
  cases hs with
  | sellmeier k cs range hk =>
    rcases hk with rfl | rfl
    · cases cs with
      | none => cases hn
      | some cs => exact (sellmeier_real hn z hz).ge
    · cases cs with
      | none => cases hn
      | some cs => exact (sellmeier_real hn z hz).ge
  | brendelBormannEv plasma strength damping osc range hs hdm ho =>
    rw [evaluate_ev] at hn
    simp only [model_brendel_bormann_ev, chunks4_flatMap] at hn
    change Except.ok _ = _ at hn
    cases hn
    obtain ⟨w, hwm, e⟩ := List.mem_map.mp hz
    exact bbEvAt_im hw hs hdm (fun o ho' => ho _ _ _ _ ho') (hwl w hwm) e
  | brendelBormannCm eps osc range ho =>
    rw [evaluate_cm] at hn
    simp only [model_brendel_bormann_cm, chunks4_flatMap] at hn
    change Except.ok _ = _ at hn
    cases hn
    obtain ⟨w, hwm, e⟩ := List.mem_map.mp hz
    exact bbCmAt_im hw (fun o ho' => ho _ _ _ _ ho') (hwl w hwm) e
  | graphene f mo te d range ht hdd =>
    rw [evaluate_graphene] at hn
    simp only [model_graphene_falkovsky] at hn
    split_ifs at hn
    cases hn
    obtain ⟨w, hwm, e⟩ := List.mem_map.mp hz
    exact grapheneAt_im ht hdd (hwl w hwm) e

/-- **C32, counterexample.** A Brendel-Bormann material with a negative Drude strength returns
gain. -/
theorem C32_gain_negation :
    ¬ ∀ (sp : SciPy) (s : FSpec) (wl : List ℝ) (r : List (Option ℂ)), (∀ w ∈ wl, 0 < w) →
      (find_nk_index sp (.spec s) [] wl).value = .ok r → NoGain r := by
  intro h
  have hom : (0 : ℝ) < 1e-2 / 1 / wavenumberPerEv := by
    unfold wavenumberPerEv
    norm_num
  have hval : ∃ z : ℂ, z.im < 0 ∧ bbEvAt ⟨fun z => z, fun _ _ => 0⟩ 1 (-1) 1 [] 1 = some z := by
    unfold bbEvAt
    rw [if_neg one_ne_zero]
    simp only
    generalize 1e-2 / 1 / wavenumberPerEv = omega at *
    have e : (omega : ℂ) * (omega + Complex.I * ((1 : ℝ) : ℂ)) = ⟨omega ^ 2, omega⟩ := by
      apply Complex.ext
      · simp [sq]
      · simp
    have hne : (⟨omega ^ 2, omega⟩ : ℂ) ≠ 0 := by
      intro h'
      have := congrArg Complex.im h'
      simp at this
      exact hom.ne' this
    have hc : cdiv (((-1 : ℝ) * 1 ^ 2 : ℝ) : ℂ) ((omega : ℂ) * (omega + Complex.I * ((1 : ℝ) : ℂ))) =
        some ((((-1 : ℝ) * 1 ^ 2 : ℝ) : ℂ) / ⟨omega ^ 2, omega⟩) := by
      rw [e]
      unfold cdiv
      rw [if_neg hne]
    rw [hc]
    refine ⟨_, ?_, rfl⟩
    have him : (1 - (((-1 : ℝ) * 1 ^ 2 : ℝ) : ℂ) / ⟨omega ^ 2, omega⟩).im < 0 := by
      rw [Complex.sub_im, Complex.one_im, div_eq_mul_inv, Complex.im_ofReal_mul, Complex.inv_im]
      have hn : 0 < Complex.normSq ⟨omega ^ 2, omega⟩ := Complex.normSq_pos.mpr hne
      have : 0 < omega / Complex.normSq ⟨omega ^ 2, omega⟩ := div_pos hom hn
      simp only [neg_div]
      nlinarith
    by_contra hcon
    push Not at hcon
    have hre : 0 ≤ (csqrt (1 - (((-1 : ℝ) * 1 ^ 2 : ℝ) : ℂ) / ⟨omega ^ 2, omega⟩)).re :=
      csqrt_re_nonneg _
    have h2 := congrArg Complex.im (csqrt_sq (1 - (((-1 : ℝ) * 1 ^ 2 : ℝ) : ℂ) / ⟨omega ^ 2, omega⟩))
    rw [sq, Complex.mul_im] at h2
    have := mul_nonneg hre hcon
    linarith
  obtain ⟨z, hz, he⟩ := hval
  have hf : (find_nk_index ⟨fun z => z, fun _ _ => 0⟩
      (.spec ⟨some (.name "brendel-bormann-ev".toList), some [1, -1, 1], some (0, ⊤)⟩) [] [1]).value
      = .ok [some (star z)] := by
    have hd : Denotes [] (.spec ⟨some (.name "brendel-bormann-ev".toList), some [1, -1, 1],
      some (0, ⊤)⟩) (.spec ⟨some (.name "brendel-bormann-ev".toList), some [1, -1, 1],
      some (0, ⊤)⟩) false := .spec _
    rw [find_of_denotes _ hd (by simp [HasRange])]
    have : evaluate ⟨fun z => z, fun _ _ => 0⟩ ⟨some (.name "brendel-bormann-ev".toList),
        some [1, -1, 1], some (0, ⊤)⟩ [1] = .ok [some z] := by
      change Except.ok [bbEvAt _ 1 (-1) 1 [] 1] = _
      rw [he]
    simp only [indexOf, this]
    rfl
  have := h _ _ _ _ (by simp) hf (star z) (by simp)
  simp at this
  linarith

/-- The hypotheses of `C32_no_gain_partial` are met by the gold table shipped with the code, with
the Faddeeva function defined by its integral. -/
example : ∃ sp : SciPy, IsFaddeeva sp.wofz ∧
    PassiveSpec ⟨some (.name "brendel-bormann-ev".toList),
      some [9.20007, 0.85195, 0.09509, 0.03361, 0.08138, 0.24435, 0.66983, 0.04378, 0.02654,
        3.57689, 0.30055, 0.39482, 0.09543, 3.59156, 0.93598, 0.83641, 7.69005, 3.59644, 0.88825,
        1.28384, 0.23893, 34.87059, 1.87353], some ((1.5e-7 : ℝ), (1e-4 : ℝ))⟩ := by
  refine ⟨⟨fun z => Complex.I / Real.pi * ∫ t : ℝ, ((Real.exp (-t ^ 2) : ℝ) : ℂ) / (z - (t : ℂ)),
    fun _ _ => 0⟩, fun z _ => rfl, ?_⟩
  refine .brendelBormannEv 9.20007 0.85195 0.09509 [(0.03361, 0.08138, 0.24435, 0.66983),
    (0.04378, 0.02654, 3.57689, 0.30055), (0.39482, 0.09543, 3.59156, 0.93598),
    (0.83641, 7.69005, 3.59644, 0.88825), (1.28384, 0.23893, 34.87059, 1.87353)] _
    (by norm_num) (by norm_num) ?_
  intro f g c s h
  simp only [List.mem_cons, Prod.mk.injEq, List.not_mem_nil, or_false] at h
  rcases h with ⟨rfl, rfl, rfl, rfl⟩ | ⟨rfl, rfl, rfl, rfl⟩ | ⟨rfl, rfl, rfl, rfl⟩ |
    ⟨rfl, rfl, rfl, rfl⟩ | ⟨rfl, rfl, rfl, rfl⟩ <;>
  exact ⟨by norm_num, by norm_num, by norm_num⟩

/-- Fused-silica-like coefficients: with `C₀ = 0`, one term `B = 3`, `C = 0`, the index is `2`. -/
example (sp : SciPy) :
    evaluate sp ⟨some (.num 1), some [0, 3, 0], none⟩ [1] = .ok [some 2] := by
  rw [show [0, 3, 0] = sellmeierCoefficients 0 [(3, 0)] from rfl, C32_formula1]
  have : sellmeierSquare 0 [((3 : ℝ), (0 : ℝ))] 1 = 2 ^ 2 := by norm_num [sellmeierSquare]
  simp [sellmeierIndex, this]

#print axioms C32_formula1
#print axioms C32_formula2
#print axioms C32_order
#print axioms C32_malformed
#print axioms C32_incomplete
#print axioms C32_unknown
#print axioms C32_no_gain_partial
#print axioms C32_gain_negation

end Meent
