import Verif.Lemmas.Oscillators
import Verif.Props.C33

/-!
# C78: closed-form materials follow the published models

Gold, titanium and calcium fluoride are stored as Brendel-Bormann coefficients and graphene as conditions.  `find_nk_index` evaluates
the models that `nk_data/README.md` names: a Drude term plus Lorentz oscillators averaged over a normal distribution of their centre
frequency, and the Falkovsky/Kubo sheet conductivity.
-/

namespace Meent

open Spec MeasureTheory Filter Topology

private theorem shown_ok {sp : SciPy} {t : Table} {m : MatArg} {s : FSpec} {b : Bool} (hd : Denotes t m (.spec s) b)
    (hr : s.range ≠ none) {wl : List ℝ} {f : ℝ → ℂ} (h : evaluate sp s wl = .ok (wl.map fun w => some (f w))) :
    (find_nk_index sp m t wl).value = .ok (wl.map fun w => some (shown b (f w))) := by
  rw [find_of_denotes sp hd hr]
  simp only [indexOf, h]
  cases b
  · show Except.ok (List.map _ (List.map _ wl)) = _
    rw [List.map_map]
    rfl
  · show Except.ok (List.map _ (List.map _ wl)) = _
    rw [List.map_map]
    rfl

/-- **C78, metals.**  The lookup of a Brendel-Bormann metal gives, at every positive wavelength, the root of the Drude permittivity plus
the Gaussian averages of its oscillators.  `wofz` is only assumed to have its integral representation. -/
theorem C78_metal (sp : SciPy) (hw : IsFaddeeva sp.wofz) (plasma strength damping : ℝ) (osc : List Oscillator)
    (ho : ∀ o ∈ osc, o.Spread) (range : Option (EReal × EReal)) (hr : range ≠ none) (t : Table) (m : MatArg) (b : Bool)
    (hd : Denotes t m (.spec ⟨some (.name "brendel-bormann-ev".toList), some (metalCoefficients plasma strength damping osc), range⟩) b)
    (wl : List ℝ) (hwl : ∀ w ∈ wl, 0 < w) :
    (find_nk_index sp m t wl).value = .ok (wl.map fun w => some (shown b (rootIndex (metal plasma strength damping osc w)))) := by
  refine shown_ok hd hr ?_
  rw [evaluate_ev]
  have hc := chunks4_flatMap (osc.map fun o => (o.strength, o.damping, o.centre, o.width))
  rw [List.flatMap_map] at hc
  simp only [metalCoefficients, model_brendel_bormann_ev, hc]
  show Except.ok _ = _
  congr 1
  exact List.map_congr_left fun w h => bbEvAt_value hw plasma strength damping osc ho (hwl w h)

/-- **C78, crystals.**  The same for the layout in wavenumbers, which has no Drude term. -/
theorem C78_crystal (sp : SciPy) (hw : IsFaddeeva sp.wofz) (eps_inf : ℝ) (osc : List Oscillator) (hne : osc ≠ [])
    (ho : ∀ o ∈ osc, o.Spread) (range : Option (EReal × EReal)) (hr : range ≠ none) (t : Table) (m : MatArg) (b : Bool)
    (hd : Denotes t m (.spec ⟨some (.name "brendel-bormann-cm".toList), some (crystalCoefficients eps_inf osc), range⟩) b)
    (wl : List ℝ) (hwl : ∀ w ∈ wl, 0 < w) :
    (find_nk_index sp m t wl).value = .ok (wl.map fun w => some (shown b (rootIndex (crystal eps_inf osc w)))) := by
  refine shown_ok hd hr ?_
  rw [evaluate_cm]
  have hc := chunks4_flatMap (osc.map fun o => (o.strength, o.damping, o.width, o.centre))
  rw [List.flatMap_map] at hc
  simp only [crystalCoefficients, model_brendel_bormann_cm, hc]
  show Except.ok _ = _
  congr 1
  exact List.map_congr_left fun w h => bbCmAt_value hw eps_inf osc hne ho (hwl w h)

private theorem norm_pos {x : ℝ} (h : 0 < x) : normalizeArg (.finite x) = .ok x := if_neg (not_le.mpr h)

private theorem norm_neg {x : ℝ} (h : x ≤ 0) : normalizeArg (.finite x) = .error .valueError := if_pos h

private theorem graphene_spec {μ mobility temperature thickness : ℝ} {s : FSpec}
    (hs : graphene_falkovsky (.finite μ) (.finite mobility) (.finite temperature) (.finite thickness) = .ok s) :
    (0 < μ ∧ 0 < mobility ∧ 0 < temperature ∧ 0 < thickness) ∧
      s = ⟨some (.name "graphene-falkovsky".toList), some [μ, mobility, temperature, thickness], some (0, ⊤)⟩ := by
  unfold graphene_falkovsky at hs
  by_cases h1 : μ ≤ 0
  · rw [norm_neg h1] at hs; cases hs
  rw [norm_pos (not_le.mp h1)] at hs
  by_cases h2 : mobility ≤ 0
  · rw [norm_neg h2] at hs; cases hs
  rw [norm_pos (not_le.mp h2)] at hs
  by_cases h3 : temperature ≤ 0
  · rw [norm_neg h3] at hs; cases hs
  rw [norm_pos (not_le.mp h3)] at hs
  by_cases h4 : thickness ≤ 0
  · rw [norm_neg h4] at hs; cases hs
  rw [norm_pos (not_le.mp h4)] at hs
  cases hs
  push Not at h1 h2 h3 h4
  exact ⟨⟨h1, h2, h3, h4⟩, rfl⟩

private theorem graphene_find (sp : SciPy) {μ mobility temperature thickness : ℝ} {s : FSpec}
    (hs : graphene_falkovsky (.finite μ) (.finite mobility) (.finite temperature) (.finite thickness) = .ok s) (t : Table)
    (wl : List ℝ) (hwl : ∀ w ∈ wl, 0 < w) :
    (find_nk_index sp (.spec s) t wl).value = .ok (wl.map fun w => some (star (rootIndex
      (sheetPermittivity si.eps0 (angular w) thickness
        (conductivity sp μ (thermal temperature) (scattering μ mobility) (photonEnergy w)))))) := by
  obtain ⟨⟨h1, h2, h3, h4⟩, rfl⟩ := graphene_spec hs
  refine shown_ok (b := false) (Denotes.spec _) (by simp) ?_
  rw [evaluate_graphene]
  unfold model_graphene_falkovsky
  simp only
  rw [if_neg, if_neg, if_neg]
  · congr 1
    exact List.map_congr_left fun w h => grapheneAt_some sp h1 h2 h4 (hwl w h)
  · exact fun h => h3.ne' h.1
  · exact (mul_pos h2 h1).ne'
  · rintro ⟨w, hw, h⟩
    exact absurd (hwl w hw) (not_lt.mpr h)

/-- **C78, graphene.**  The lookup of a dynamic graphene material gives the root of the permittivity of a layer with the Falkovsky/Kubo
sheet conductivity.  The code clips a ratio of hyperbolic cosines at the limits of double precision, so its occupation function is
`occupationGap` up to `exp(-709)`.  The interband integral ends at 1000 eV. -/
theorem C78_graphene (sp : SciPy) (hq : IsQuadrature sp.quad) (μ mobility temperature thickness : ℝ) (s : FSpec)
    (hs : graphene_falkovsky (.finite μ) (.finite mobility) (.finite temperature) (.finite thickness) = .ok s) :
    ∃ G, RoundedGap μ (thermal temperature) G ∧ ∀ (t : Table) (wl : List ℝ), (∀ w ∈ wl, 0 < w) →
      (find_nk_index sp (.spec s) t wl).value =
        .ok (wl.map fun w => some (star (rootIndex (graphene μ mobility temperature thickness G w)))) := by
  refine ⟨occupation μ (thermal temperature), occupation_rounded _ _, fun t wl hwl => ?_⟩
  rw [graphene_find sp hs t wl hwl]
  congr 1
  refine List.map_congr_left fun w h => ?_
  rw [conductivity_eq hq _ _ _ (photonEnergy_pos (hwl w h))]
  rfl

private theorem star_root_sq (z : ℂ) : star (rootIndex z) ^ 2 = star z := by
  rw [← star_pow]
  congr 1
  exact csqrt_sq z

private theorem find_one {sp : SciPy} {μ mobility temperature thickness : ℝ} {s : FSpec}
    (hs : graphene_falkovsky (.finite μ) (.finite mobility) (.finite temperature) (.finite thickness) = .ok s) {t : Table}
    {wl : ℝ} (hwl : 0 < wl) {n : ℂ} (hn : (find_nk_index sp (.spec s) t [wl]).value = .ok [some n]) :
    (n ^ 2 - 1) * (angular wl * si.eps0 * thickness : ℝ) =
      star (Complex.I * conductivity sp μ (thermal temperature) (scattering μ mobility) (photonEnergy wl)) := by
  obtain ⟨⟨h1, h2, h3, h4⟩, -⟩ := graphene_spec hs
  rw [graphene_find sp hs t [wl] (by simpa using hwl)] at hn
  simp only [List.map_cons, List.map_nil] at hn
  cases hn
  rw [star_root_sq, sheetPermittivity, star_add, star_one, add_sub_cancel_left]
  obtain ⟨c1, c2, c3, c4, c5, c6⟩ := si_pos
  have hω : 0 < angular wl := by unfold angular; positivity
  have hne : ((angular wl * si.eps0 * thickness : ℝ) : ℂ) ≠ 0 := by
    exact_mod_cast (by positivity : (angular wl * si.eps0 * thickness : ℝ) ≠ 0)
  generalize Complex.I * conductivity sp μ (thermal temperature) (scattering μ mobility) (photonEnergy wl) = X
  have e : star (X / (((angular wl : ℝ) : ℂ) * ((si.eps0 : ℝ) : ℂ) * (thickness : ℂ))) =
      star X / ((angular wl * si.eps0 * thickness : ℝ) : ℂ) := by
    rw [star_div₀]
    push_cast
    simp
  rw [e, div_mul_cancel₀ _ hne]

/-- **C78, sheet response.**  The effective thickness only spreads the sheet: `(n² - 1) · thickness` does not depend on it. -/
theorem C78_sheet (sp : SciPy) (μ mobility temperature d₁ d₂ : ℝ) (s₁ s₂ : FSpec)
    (h₁ : graphene_falkovsky (.finite μ) (.finite mobility) (.finite temperature) (.finite d₁) = .ok s₁)
    (h₂ : graphene_falkovsky (.finite μ) (.finite mobility) (.finite temperature) (.finite d₂) = .ok s₂)
    (t : Table) (wl : ℝ) (hwl : 0 < wl) (n₁ n₂ : ℂ) (e₁ : (find_nk_index sp (.spec s₁) t [wl]).value = .ok [some n₁])
    (e₂ : (find_nk_index sp (.spec s₂) t [wl]).value = .ok [some n₂]) : (n₁ ^ 2 - 1) * d₁ = (n₂ ^ 2 - 1) * d₂ := by
  have h := (find_one h₁ hwl e₁).trans (find_one h₂ hwl e₂).symm
  obtain ⟨c1, c2, c3, c4, c5, c6⟩ := si_pos
  have hω : 0 < angular wl := by unfold angular; positivity
  have hne : ((angular wl * si.eps0 : ℝ) : ℂ) ≠ 0 := by
    exact_mod_cast (by positivity : (angular wl * si.eps0 : ℝ) ≠ 0)
  refine mul_left_cancel₀ hne ?_
  push_cast at h ⊢
  linear_combination h

/-- **C78, onset.**  In clean graphene (mobility to infinity) the absorbed part of the sheet conductivity is `e²/4ℏ` times a factor `G`
below one that grows with the photon energy, and at twice the Fermi level it is `tanh(μ/T)/2`: the interband onset. -/
theorem C78_onset (sp : SciPy) (μ temperature thickness : ℝ) (hT : 0 < temperature) :
    ∃ G, RoundedGap μ (thermal temperature) G ∧ StrictMonoOn G (Set.Ici 0) ∧ (∀ x, G x < 1) ∧
      G μ = Real.tanh (μ / thermal temperature) / 2 ∧
      ∀ (t : Table) (wl : ℝ), 0 < wl → ∀ (s : ℝ → FSpec) (n : ℝ → ℂ),
        (∀ mobility > 0, graphene_falkovsky (.finite μ) (.finite mobility) (.finite temperature) (.finite thickness) = .ok (s mobility)) →
        (∀ mobility > 0, (find_nk_index sp (.spec (s mobility)) t [wl]).value = .ok [some (n mobility)]) →
        Tendsto (fun mobility => -(n mobility ^ 2).im * (angular wl * si.eps0 * thickness)) atTop
          (𝓝 (si.e ^ 2 / (4 * si.hbar) * G (photonEnergy wl / 2))) := by
  obtain ⟨c1, c2, c3, c4, c5, c6⟩ := si_pos
  have hth : 0 < thermal temperature := by unfold thermal; positivity
  refine ⟨occupation μ (thermal temperature), occupation_rounded _ _, occupation_strictMono μ hth, occupation_lt_one _ _,
    occupation_fermi _ _, fun t wl hwl s n hs hn => ?_⟩
  have hE := photonEnergy_pos hwl
  have key : ∀ mobility > 0, -(n mobility ^ 2).im * (angular wl * si.eps0 * thickness) =
      2 * elementaryCharge ^ 2 * thermal temperature * logaddexp (μ / (2 * thermal temperature)) (-μ / (2 * thermal temperature)) /
        (Real.pi * hbar) * (scattering μ mobility / (photonEnergy wl ^ 2 + scattering μ mobility ^ 2)) +
        elementaryCharge ^ 2 / (4 * hbar) * occupation μ (thermal temperature) (photonEnergy wl / 2) := by
    intro mobility hm
    have h := congrArg Complex.im (find_one (hs mobility hm) hwl (hn mobility hm))
    rw [Complex.im_mul_ofReal, Complex.sub_im, Complex.one_im, sub_zero] at h
    rw [neg_mul, h, ← conductivity_re_eq sp μ (thermal temperature) (scattering μ mobility) hE]
    simp
  have hsc : Tendsto (fun mobility => scattering μ mobility) atTop (𝓝 0) := by
    have e : ∀ mobility, scattering μ mobility = (si.hbar * si.fermiVelocity ^ 2 / (si.e * μ) * 10000) * mobility⁻¹ := by
      intro mobility
      unfold scattering
      rw [div_eq_mul_inv, div_eq_mul_inv, mul_inv, mul_inv, mul_inv]
      simp only [div_eq_mul_inv, mul_inv, inv_inv]
      ring
    simp only [e]
    have h0 := (tendsto_inv_atTop_zero (𝕜 := ℝ)).const_mul (si.hbar * si.fermiVelocity ^ 2 / (si.e * μ) * 10000)
    rwa [mul_zero] at h0
  have hfrac : Tendsto (fun mobility => scattering μ mobility / (photonEnergy wl ^ 2 + scattering μ mobility ^ 2)) atTop (𝓝 0) := by
    have h2 : Tendsto (fun mobility => photonEnergy wl ^ 2 + scattering μ mobility ^ 2) atTop (𝓝 (photonEnergy wl ^ 2 + 0 ^ 2)) :=
      tendsto_const_nhds.add (hsc.pow 2)
    have h3 := hsc.div h2 (by positivity)
    rwa [zero_div] at h3
  have hlim := (hfrac.const_mul (2 * elementaryCharge ^ 2 * thermal temperature *
    logaddexp (μ / (2 * thermal temperature)) (-μ / (2 * thermal temperature)) / (Real.pi * hbar))).add_const
      (elementaryCharge ^ 2 / (4 * hbar) * occupation μ (thermal temperature) (photonEnergy wl / 2))
  rw [mul_zero, zero_add] at hlim
  refine hlim.congr' ?_
  filter_upwards [eventually_gt_atTop 0] with mobility hm
  exact (key mobility hm).symm

/-! ### Non-vacuity -/

/-- SciPy with the Faddeeva function and the quadrature as the integrals that define them. -/
noncomputable def idealSciPy : SciPy where
  wofz := fun z => Complex.I / Real.pi * ∫ t : ℝ, ((Real.exp (-t ^ 2) : ℝ) : ℂ) / (z - (t : ℂ))
  quad := fun f _ => ∫ z in (0 : ℝ)..1000, f z

/-- The gold file that ships with the code, read by name. -/
example : ∃ osc : List Oscillator, osc.length = 5 ∧ ∀ wl : List ℝ, (∀ w ∈ wl, 0 < w) →
    (find_nk_index idealSciPy (.name "optprop_au".toList) [("OPTPROP_AU".toList,
      .spec ⟨some (.name "brendel-bormann-ev".toList), some [9.20007, 0.85195, 0.09509, 0.03361, 0.08138, 0.24435, 0.66983, 0.04378,
        0.02654, 3.57689, 0.30055, 0.39482, 0.09543, 3.59156, 0.93598, 0.83641, 7.69005, 3.59644, 0.88825, 1.28384, 0.23893, 34.87059,
        1.87353], some ((1.5e-7 : ℝ), (1e-4 : ℝ))⟩)] wl).value =
      .ok (wl.map fun w => some (star (rootIndex (metal 9.20007 0.85195 0.09509 osc w)))) := by
  refine ⟨[⟨0.03361, 0.08138, 0.24435, 0.66983⟩, ⟨0.04378, 0.02654, 3.57689, 0.30055⟩, ⟨0.39482, 0.09543, 3.59156, 0.93598⟩,
    ⟨0.83641, 7.69005, 3.59644, 0.88825⟩, ⟨1.28384, 0.23893, 34.87059, 1.87353⟩], rfl, fun wl hwl => ?_⟩
  refine C78_metal idealSciPy (fun _ _ => rfl) 9.20007 0.85195 0.09509 _ ?_ (some ((1.5e-7 : ℝ), (1e-4 : ℝ))) (by simp) _ _ false ?_ wl hwl
  · intro o ho
    simp only [List.mem_cons, List.not_mem_nil, or_false] at ho
    rcases ho with rfl | rfl | rfl | rfl | rfl <;> exact ⟨by norm_num, by norm_num⟩
  · refine Denotes.plain _ _ ?_ ?_
    · rintro ⟨base, h⟩
      have := congrArg List.reverse h
      rw [List.reverse_append] at this
      have h2 : ("optprop_au".toList.reverse).take 6 = ("__real".toList.reverse) := by
        rw [this, List.take_append_of_le_length (by decide), List.take_of_length_le (by decide)]
      revert h2
      decide
    · have : upper "optprop_au".toList = "OPTPROP_AU".toList := by decide
      rw [this]
      simp [List.lookup]
      rfl

/-- The graphene of the README, and that graphene twice as thick. -/
example : ∃ s₁ s₂, graphene_falkovsky (.finite 0.35) (.finite 8000) (.finite 325) (.finite 0.34e-9) = .ok s₁ ∧
    graphene_falkovsky (.finite 0.35) (.finite 8000) (.finite 325) (.finite 0.68e-9) = .ok s₂ ∧
    ∃ n₁ n₂, (find_nk_index idealSciPy (.spec s₁) [] [1.55e-6]).value = .ok [some n₁] ∧
      (find_nk_index idealSciPy (.spec s₂) [] [1.55e-6]).value = .ok [some n₂] ∧
      (n₁ ^ 2 - 1) * (0.34e-9 : ℝ) = (n₂ ^ 2 - 1) * (0.68e-9 : ℝ) := by
  have h₁ : ∃ s, graphene_falkovsky (.finite 0.35) (.finite 8000) (.finite 325) (.finite 0.34e-9) = .ok s := by
    unfold graphene_falkovsky
    rw [norm_pos (by norm_num), norm_pos (by norm_num), norm_pos (by norm_num), norm_pos (by norm_num)]
    exact ⟨_, rfl⟩
  have h₂ : ∃ s, graphene_falkovsky (.finite 0.35) (.finite 8000) (.finite 325) (.finite 0.68e-9) = .ok s := by
    unfold graphene_falkovsky
    rw [norm_pos (by norm_num), norm_pos (by norm_num), norm_pos (by norm_num), norm_pos (by norm_num)]
    exact ⟨_, rfl⟩
  obtain ⟨s₁, h₁⟩ := h₁
  obtain ⟨s₂, h₂⟩ := h₂
  have hq : IsQuadrature idealSciPy.quad := fun _ _ _ => rfl
  obtain ⟨G₁, -, e₁⟩ := C78_graphene idealSciPy hq _ _ _ _ s₁ h₁
  obtain ⟨G₂, -, e₂⟩ := C78_graphene idealSciPy hq _ _ _ _ s₂ h₂
  have f₁ := e₁ [] [1.55e-6] (by norm_num)
  have f₂ := e₂ [] [1.55e-6] (by norm_num)
  exact ⟨s₁, s₂, h₁, h₂, _, _, f₁, f₂, C78_sheet idealSciPy _ _ _ _ _ s₁ s₂ h₁ h₂ [] _ (by norm_num) _ _ f₁ f₂⟩

end Meent

#print axioms Meent.C78_metal
#print axioms Meent.C78_crystal
#print axioms Meent.C78_graphene
#print axioms Meent.C78_sheet
#print axioms Meent.C78_onset
