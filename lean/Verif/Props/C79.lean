import Verif.Lemmas.Axes
import Verif.Lemmas.CellWave

/-!
# C79: exchanging the axes
-/

open Matrix

namespace Meent

/-- **C79, separable layers.** Exchange the axes of every raster, the periods, the numbers of orders and the direction of incidence.
If every layer is a product of a function of `x` and a function of `y`, the efficiencies of both problems are the same, with the two
order indices exchanged: for TE and TM incidence, and for the configured polarization if that is exchanged as well.  Any two
eigensolvers; both Fourier types; conical and 2D solvers in any combination. -/
theorem C79_exchange_partial (la la' : LinAlg) (s : Settings) (θ' ψ' : ℂ) (φ' : Option ℂ) (pol' : ℝ)
    (u : Ucell) (hu : s.ucell = .raster u) (hny : 0 < u.ny) (hnx : 0 < u.nx) (hsep : ∀ a ∈ u.layers, Spec.Separable a)
    (hi : Spec.RealIllumination s.p) (hi' : Spec.RealIllumination (Spec.exchangeAxes s u θ' φ' pol' ψ').p)
    (hd : Spec.ExchangedDirection s.p.theta s.p.phi θ' φ') (hp : s.p.use_pinv = false) (ha : s.algo = .tmm)
    (hg : gratingType s ≠ 0) (hg' : gratingType (Spec.exchangeAxes s u θ' φ' pol' ψ') ≠ 0)
    (sol : Solved s.p.fto.1 s.p.fto.2) (sol' : Solved s.p.fto.2 s.p.fto.1) (h : conv_solve la s = .ok sol)
    (h' : conv_solve la' (Spec.exchangeAxes s u θ' φ' pol' ψ') = .ok sol') :
    ∃ y te tm y' te' tm', sol.result = ⟨some y, some te, some tm⟩ ∧ sol'.result = ⟨some y', some te', some tm'⟩ ∧
      Spec.ExchangedEff te te' ∧ Spec.ExchangedEff tm tm' ∧ (Spec.ExchangedPsi s.p.psi ψ' → Spec.ExchangedEff y y') := by
  have hn := RealIllumination.n_top_ne hi
  have ht := sinTheta_real hi
  have ht' : sinTheta θ' = Complex.sin θ' := sinTheta_real hi'
  obtain ⟨cs, y, te, tm, hc, er, ⟨f1, d1⟩, ⟨f2, d2⟩, ⟨f3, d3⟩⟩ := solved_bvp hp ha hn hg h
  obtain ⟨cs', y', te', tm', hc', er', q1, q2, q3⟩ :=
    solved_unique (s := Spec.exchangeAxes s u θ' φ' pol' ψ') hp ha hn hg' h'
  have hci := convMats_exchange (la' := la') hp hu hny hnx hsep θ' φ' pol' ψ' hc
  obtain rfl := Except.ok.inj (hci.symm.trans hc')
  have W := weights_swap (u := u) (pol' := pol') (ψ' := ψ') ht ht' hd hg hg'
  have hk := solved_oblique hi ha hg hc h
  have hte : Spec.ExchangedPsi ((Real.pi / 2 : ℝ) : ℂ) ((Real.pi / 2 : ℝ) : ℂ) := by
    refine ⟨-1, by norm_num, by rw [neg_one_mul, neg_neg], ?_⟩
    rw [← Complex.ofReal_cos, Real.cos_pi_div_two, Complex.ofReal_zero, mul_zero]
  have htm : Spec.ExchangedPsi 0 0 := ⟨1, one_pow 2, by simp, by simp⟩
  have E : ∀ {ψ ψ1 : ℂ} {r : SubRes (2 * s.p.fto.2 + 1) (2 * s.p.fto.1 + 1)} {r1 : SubRes (2 * s.p.fto.1 + 1) (2 * s.p.fto.2 + 1)} {fs},
      Spec.Diffraction s.p cs ψ r fs → Spec.ExchangedPsi ψ ψ1 →
      (∀ r, (∃ fs, Spec.Diffraction (Spec.exchangeAxes s u θ' φ' pol' ψ').p (cs.map Conv.exchange) ψ1 r fs) → Spec.SameAmplitudes r r1) →
      Spec.Reports sol.result r → Spec.Reports sol'.result r1 → Spec.ExchangedEff r r1 := by
    intro ψ ψ1 r r1 fs hd1 hψ hq hr hr1
    obtain ⟨r', fs', hd', hN⟩ := exchange_core (pol' := pol') (ψ' := ψ') ht ht' hd hk hψ hd1
    exact (hN.congr (hq r' ⟨fs', hd'⟩)).eff W (conv_solve_eff h hr) (conv_solve_eff h' hr1)
  exact ⟨y, te, tm, y', te', tm', er, er',
    E d2 hte q2 (by rw [er]; exact .inr (.inl rfl)) (by rw [er']; exact .inr (.inl rfl)),
    E d3 htm q3 (by rw [er]; exact .inr (.inr rfl)) (by rw [er']; exact .inr (.inr rfl)),
    fun hψ => E d1 hψ q1 (by rw [er]; exact .inl rfl) (by rw [er']; exact .inl rfl)⟩

/-! ### Layers of two rows and two columns -/

section
variable {κ nb d : ℝ}

theorem cell_exchange (a : Fin 2 → Fin 2 → ℂ) (φ' : ℝ) (φ : ℝ) :
    Spec.exchangeAxes (cellSettings a φ κ nb d) ⟨2, 2, [a]⟩ (cellSettings a φ κ nb d).p.theta (some (φ' : ℂ)) (cellSettings a φ κ nb d).p.pol
      (cellSettings a φ κ nb d).p.psi = cellSettings (Spec.exchanged true a) φ' κ nb d := rfl

theorem cell_direction (a : Fin 2 → Fin 2 → ℂ) : Spec.ExchangedDirection (cellSettings a 0 κ nb d).p.theta (cellSettings a 0 κ nb d).p.phi
    (cellSettings a 0 κ nb d).p.theta (some ((Real.pi / 2 : ℝ) : ℂ)) := by
  refine ⟨?_, ?_, rfl⟩ <;>
    simp only [cellSettings, exParams, Option.getD_some, Complex.ofReal_zero, Complex.sin_zero, Complex.cos_zero, ← Complex.ofReal_sin,
      ← Complex.ofReal_cos, Real.sin_pi_div_two, Real.cos_pi_div_two] <;> simp

end

/-- A checkerboard of the indices 1 and 7: its own image when the axes are exchanged. -/
noncomputable def checker : Fin 2 → Fin 2 → ℂ := fun i j => if i = j then 1 else 7

/-- Stripes of the indices 1 and 7 that vary along `x`. -/
noncomputable def stripes : Fin 2 → Fin 2 → ℂ := fun _ j => if j = 0 then 1 else 7

theorem ordinary_one_seven {P : Prop} [Decidable P] : Spec.OrdinaryMedium (if P then 1 else 7) := by
  split_ifs <;> constructor <;> norm_num

theorem checker_exchanged : Spec.exchanged true checker = checker := by
  funext i j
  fin_cases i <;> fin_cases j <;> simp [Spec.exchanged, checker, Spec.revIdx]

theorem checker_x : ((2 / (checker 1 0 ^ 2 + checker 0 0 ^ 2) + 2 / (checker 1 1 ^ 2 + checker 0 1 ^ 2)) / 2)⁻¹ = ((25 : ℝ) : ℂ) := by
  simp [checker]; norm_num

theorem checker_y : (2 / (1 / checker 1 0 ^ 2 + 1 / checker 0 0 ^ 2) + 2 / (1 / checker 1 1 ^ 2 + 1 / checker 0 1 ^ 2)) / 2
    = ((49 / 25 : ℝ) : ℂ) := by
  simp [checker]; norm_num

theorem checker_z : ((checker 1 0 ^ 2 + checker 0 0 ^ 2) / 2 + (checker 1 1 ^ 2 + checker 0 1 ^ 2) / 2) / 2 = ((25 : ℝ) : ℂ) := by
  simp [checker]; norm_num

/-- **C79, other layers: success.** With the light in the plane of `x`, no eigensolver gives an answer for a checkerboard;
with the axes exchanged, which does not change the checkerboard, there is an answer. -/
theorem C79_negation : ∃ (s : Settings) (u : Ucell) (θ' ψ' : ℂ) (φ' : Option ℂ) (pol' : ℝ), s.ucell = .raster u ∧
    Spec.exchangeAll (decide (s.fourier_type = 1)) u = u ∧ Spec.RealIllumination s.p ∧
    Spec.RealIllumination (Spec.exchangeAxes s u θ' φ' pol' ψ').p ∧ Spec.ExchangedDirection s.p.theta s.p.phi θ' φ' ∧
    s.p.use_pinv = false ∧ s.algo = .tmm ∧ gratingType s = 2 ∧ gratingType (Spec.exchangeAxes s u θ' φ' pol' ψ') = 2 ∧
    (∀ la, ¬ ∃ sol, conv_solve la s = .ok sol) ∧
    ∃ la, Spec.ReturnsBasis la ∧ ∃ sol, conv_solve la (Spec.exchangeAxes s u θ' φ' pol' ψ') = .ok sol := by
  have hκ : (0 : ℝ) < 7 / 5 := by norm_num
  have S : ∀ φ : ℝ, Real.cos φ = 0 ∨ Real.sin φ = 0 → _ := fun φ h0 => cell_solves (κ := 7 / 5) (nb := 3) (d := 1 / 3) hκ (by norm_num)
    (by norm_num) checker φ (fun i j => ordinary_one_seven) h0 25 (49 / 25) 25 (by norm_num) (by norm_num) checker_x checker_y checker_z
  refine ⟨cellSettings checker 0 (7 / 5) 3 (1 / 3), ⟨2, 2, [checker]⟩, (cellSettings checker 0 (7 / 5) 3 (1 / 3)).p.theta,
    (cellSettings checker 0 (7 / 5) 3 (1 / 3)).p.psi, some ((Real.pi / 2 : ℝ) : ℂ), (cellSettings checker 0 (7 / 5) 3 (1 / 3)).p.pol, rfl, ?_,
    cell_illumination hκ _ _, ?_, cell_direction _, rfl, rfl, rfl, rfl, ?_, exLA, exLA_basis, ?_⟩
  · show (⟨2, 2, [Spec.exchanged true checker]⟩ : Ucell) = _
    rw [checker_exchanged]
  · rw [cell_exchange]; exact cell_illumination hκ _ _
  · intro la h
    refine (S 0 (.inr Real.sin_zero)).1 la h ((cell_cutoff_iff checker 0 (.inr Real.sin_zero) _ _ _).mpr (.inr ?_))
    rw [Real.sin_zero, Real.cos_zero]
    norm_num
  · rw [cell_exchange, checker_exchanged]
    refine (S _ (.inl Real.cos_pi_div_two)).2 fun h => ?_
    have := (cell_cutoff_iff checker _ (.inl Real.cos_pi_div_two) _ _ _).mp h
    rw [Real.sin_pi_div_two, Real.cos_pi_div_two] at this
    norm_num at this

/-- **C79, other layers: efficiencies.** A checkerboard in air that is solved both ways: it reflects no TE light in the plane of `x`
and some in the plane of `y`, with any eigensolvers. -/
theorem C79_efficiency_negation : ∃ (s : Settings) (u : Ucell) (θ' ψ' : ℂ) (φ' : Option ℂ) (pol' : ℝ), s.ucell = .raster u ∧
    Spec.exchangeAll (decide (s.fourier_type = 1)) u = u ∧ Spec.RealIllumination s.p ∧
    Spec.RealIllumination (Spec.exchangeAxes s u θ' φ' pol' ψ').p ∧ Spec.ExchangedDirection s.p.theta s.p.phi θ' φ' ∧
    s.p.use_pinv = false ∧ s.algo = .tmm ∧ gratingType s = 2 ∧ gratingType (Spec.exchangeAxes s u θ' φ' pol' ψ') = 2 ∧
    (∃ la, Spec.ReturnsBasis la ∧ (∃ sol, conv_solve la s = .ok sol) ∧
      ∃ sol, conv_solve la (Spec.exchangeAxes s u θ' φ' pol' ψ') = .ok sol) ∧
    ∀ la la' sol sol', conv_solve la s = .ok sol → conv_solve la' (Spec.exchangeAxes s u θ' φ' pol' ψ') = .ok sol' →
      ∃ y te tm y' te' tm', sol.result = ⟨some y, some te, some tm⟩ ∧ sol'.result = ⟨some y', some te', some tm'⟩ ∧
        (∀ j i, te.de_ri j i = 0) ∧ ∀ j i, 0 < te'.de_ri j i := by
  have hκ : (0 : ℝ) < 1 / 2 := by norm_num
  have s0 : Real.cos 0 = 0 ∨ Real.sin 0 = 0 := .inr Real.sin_zero
  have s1 : Real.cos (Real.pi / 2) = 0 ∨ Real.sin (Real.pi / 2) = 0 := .inl Real.cos_pi_div_two
  have r171 : Real.sqrt 171 ^ 2 = 171 := Real.sq_sqrt (by norm_num)
  have r99 : Real.sqrt 99 ^ 2 = 99 := Real.sq_sqrt (by norm_num)
  have p171 : 0 < Real.sqrt 171 := by positivity
  have p99 : 0 < Real.sqrt 99 := by positivity
  obtain ⟨d, hd⟩ : ∃ d : ℝ, d = 5 / Real.sqrt 171 := ⟨_, rfl⟩
  have pd : 0 < d := by rw [hd]; positivity
  have c0 : ∀ x y : ℝ, across 0 x y = y := fun x y => if_neg (by rw [Real.cos_zero]; exact one_ne_zero)
  have c1 : ∀ x y : ℝ, across (Real.pi / 2) x y = x := fun x y => if_pos Real.cos_pi_div_two
  have S : ∀ φ : ℝ, Real.cos φ = 0 ∨ Real.sin φ = 0 → _ := fun φ h0 => cell_solves (κ := 1 / 2) (nb := 2 * (1 / 2)) (d := d) hκ (by norm_num)
    pd checker φ (fun i j => ordinary_one_seven) h0 25 (49 / 25) 25 (by norm_num) (by norm_num) checker_x checker_y checker_z
  have hy0 : (((1 / 2 * Real.sqrt 3 : ℝ)) : ℂ) ≠ 0 := by
    exact_mod_cast (by positivity : (0 : ℝ) < 1 / 2 * Real.sqrt 3).ne'
  refine ⟨cellSettings checker 0 (1 / 2) (2 * (1 / 2)) d, ⟨2, 2, [checker]⟩, (cellSettings checker 0 (1 / 2) (2 * (1 / 2)) d).p.theta,
    (cellSettings checker 0 (1 / 2) (2 * (1 / 2)) d).p.psi, some ((Real.pi / 2 : ℝ) : ℂ), (cellSettings checker 0 (1 / 2) (2 * (1 / 2)) d).p.pol,
    rfl, ?_, cell_illumination hκ _ _, ?_, cell_direction _, rfl, rfl, rfl, rfl, ⟨exLA, exLA_basis, ?_, ?_⟩, ?_⟩
  · show (⟨2, 2, [Spec.exchanged true checker]⟩ : Ucell) = _
    rw [checker_exchanged]
  · rw [cell_exchange]; exact cell_illumination hκ _ _
  · refine (S 0 s0).2 fun h => ?_
    have := (cell_cutoff_iff checker _ s0 _ _ _).mp h
    rw [Real.sin_zero, Real.cos_zero] at this
    norm_num at this
  · rw [cell_exchange, checker_exchanged]
    refine (S _ s1).2 fun h => ?_
    have := (cell_cutoff_iff checker _ s1 _ _ _).mp h
    rw [Real.sin_pi_div_two, Real.cos_pi_div_two] at this
    norm_num at this
  · intro la la' sol sol' h h'
    obtain ⟨y, te, tm, e, R, T, hR, hw⟩ := cell_te hκ checker 0 s0 (by norm_num) checker_x checker_y checker_z
      (β := ((Real.sqrt 171 / 10 : ℝ) : ℂ)) (βp := ((Real.sqrt 99 / 2 : ℝ) : ℂ)) (Y := ((Real.sqrt 99 / 50 : ℝ) : ℂ))
      (by exact_mod_cast (by positivity : (0 : ℝ) < Real.sqrt 171 / 10).ne') (by exact_mod_cast (by positivity : (0 : ℝ) < Real.sqrt 99 / 50).ne')
      (by rw [c0, ← Complex.ofReal_pow]; congr 1; rw [div_pow, r171]; norm_num)
      (by rw [c0, ← Complex.ofReal_mul]; congr 1; ring)
      (by rw [← Complex.ofReal_mul]; congr 1; linear_combination (-1 / 100) * r99) h
    obtain ⟨y', te', tm', e', R', T', hR', hw'⟩ := cell_te (d := d) hκ (Spec.exchanged true checker) (Real.pi / 2) s1 (ez := 25) (by norm_num)
      (by rw [checker_exchanged]; exact checker_x) (by rw [checker_exchanged]; exact checker_y) (by rw [checker_exchanged]; exact checker_z)
      (β := ((Real.sqrt 99 / 2 : ℝ) : ℂ)) (βp := ((7 * Real.sqrt 99 / 50 : ℝ) : ℂ)) (Y := ((Real.sqrt 99 / 14 : ℝ) : ℂ))
      (by exact_mod_cast (by positivity : (0 : ℝ) < Real.sqrt 99 / 2).ne') (by exact_mod_cast (by positivity : (0 : ℝ) < Real.sqrt 99 / 14).ne')
      (by rw [c1, ← Complex.ofReal_pow]; congr 1; rw [div_pow, r99]; norm_num)
      (by rw [c1, ← Complex.ofReal_mul]; congr 1; ring)
      (by rw [← Complex.ofReal_mul]; congr 1; linear_combination (-1 / 100) * r99) h'
    refine ⟨y, te, tm, y', te', tm', e, e', fun j i => ?_, fun j i => ?_⟩
    · have hδ : (2 * Real.pi * ((Real.sqrt 171 / 10 : ℝ) : ℂ) * d : ℂ) = Real.pi := by
        have : 2 * Real.pi * (Real.sqrt 171 / 10) * d = Real.pi := by rw [hd]; field_simp; norm_num
        exact_mod_cast this
      rw [hδ] at hw
      rw [hR, cell_half_wave hy0 hw, map_zero]
    · refine lt_of_lt_of_eq ?_ (hR' j i).symm
      refine Complex.normSq_pos.mpr (cell_some_wave hy0 ?_ ?_ ?_ hw')
      · exact_mod_cast (by positivity : (0 : ℝ) < Real.sqrt 99 / 2).ne'
      · have hδ : (2 * Real.pi * ((Real.sqrt 99 / 2 : ℝ) : ℂ) * d : ℂ) = ((5 * Real.sqrt 99 / Real.sqrt 171 * Real.pi : ℝ) : ℂ) := by
          have : 2 * Real.pi * (Real.sqrt 99 / 2) * d = 5 * Real.sqrt 99 / Real.sqrt 171 * Real.pi := by rw [hd]; ring
          exact_mod_cast this
        rw [hδ, ← Complex.ofReal_sin]
        intro hs
        obtain ⟨n, hn⟩ := Real.sin_eq_zero_iff.mp (by exact_mod_cast hs : Real.sin (5 * Real.sqrt 99 / Real.sqrt 171 * Real.pi) = 0)
        have hn := mul_right_cancel₀ Real.pi_ne_zero hn
        have h2 : (n : ℝ) ^ 2 * 19 = 275 := by
          rw [hn, div_pow, mul_pow, r99, r171]; norm_num
        have h3 : n ^ 2 * 19 = 275 := by exact_mod_cast h2
        omega
      · rw [← Complex.ofReal_pow, ← Complex.ofReal_pow]
        intro hs
        have hs : (1 / 2 * Real.sqrt 3) ^ 2 = (Real.sqrt 99 / 2) ^ 2 := by exact_mod_cast hs
        rw [mul_pow, div_pow (Real.sqrt 99), r99, Real.sq_sqrt (by norm_num)] at hs
        norm_num at hs

/-- Stripes meet the hypotheses of `C79_exchange_partial`, with both problems solved. -/
example : ∃ sol sol', conv_solve exLA (cellSettings stripes 0 (7 / 5) 3 (1 / 3)) = .ok sol ∧
    conv_solve exLA (Spec.exchangeAxes (cellSettings stripes 0 (7 / 5) 3 (1 / 3)) ⟨2, 2, [stripes]⟩
      (cellSettings stripes 0 (7 / 5) 3 (1 / 3)).p.theta (some ((Real.pi / 2 : ℝ) : ℂ)) (cellSettings stripes 0 (7 / 5) 3 (1 / 3)).p.pol
      (cellSettings stripes 0 (7 / 5) 3 (1 / 3)).p.psi) = .ok sol' ∧
    (∀ a ∈ [stripes], Spec.Separable a) ∧ gratingType (cellSettings stripes 0 (7 / 5) 3 (1 / 3)) = 2 ∧
    Spec.ExchangedDirection (cellSettings stripes 0 (7 / 5) 3 (1 / 3)).p.theta (cellSettings stripes 0 (7 / 5) 3 (1 / 3)).p.phi
      (cellSettings stripes 0 (7 / 5) 3 (1 / 3)).p.theta (some ((Real.pi / 2 : ℝ) : ℂ)) ∧
    Spec.RealIllumination (cellSettings stripes 0 (7 / 5) 3 (1 / 3)).p := by
  have hκ : (0 : ℝ) < 7 / 5 := by norm_num
  have v : stripes 0 0 = 1 ∧ stripes 0 1 = 7 ∧ stripes 1 0 = 1 ∧ stripes 1 1 = 7 := by simp [stripes]
  obtain ⟨v1, v2, v3, v4⟩ := v
  have w : Spec.exchanged true stripes 0 0 = 7 ∧ Spec.exchanged true stripes 0 1 = 7 ∧ Spec.exchanged true stripes 1 0 = 1 ∧
      Spec.exchanged true stripes 1 1 = 1 := by simp [Spec.exchanged, stripes, Spec.revIdx]
  obtain ⟨w1, w2, w3, w4⟩ := w
  have s0 : Real.cos 0 = 0 ∨ Real.sin 0 = 0 := .inr Real.sin_zero
  have s1 : Real.cos (Real.pi / 2) = 0 ∨ Real.sin (Real.pi / 2) = 0 := .inl Real.cos_pi_div_two
  obtain ⟨sol, h⟩ := (cell_solves (κ := 7 / 5) (nb := 3) (d := 1 / 3) hκ (by norm_num) (by norm_num) stripes 0
    (fun i j => ordinary_one_seven) s0 (49 / 25) 25 25 (by norm_num) (by norm_num)
    (by rw [v1, v2, v3, v4]; norm_num) (by rw [v1, v2, v3, v4]; norm_num) (by rw [v1, v2, v3, v4]; norm_num)).2 (fun h => by
      have := (cell_cutoff_iff stripes 0 s0 _ _ _).mp h
      rw [Real.sin_zero, Real.cos_zero] at this
      norm_num at this)
  obtain ⟨sol', h'⟩ := (cell_solves (κ := 7 / 5) (nb := 3) (d := 1 / 3) hκ (by norm_num) (by norm_num) (Spec.exchanged true stripes)
    (Real.pi / 2) (fun i j => ordinary_one_seven) s1 25 (49 / 25) 25 (by norm_num) (by norm_num)
    (by rw [w1, w2, w3, w4]; norm_num) (by rw [w1, w2, w3, w4]; norm_num) (by rw [w1, w2, w3, w4]; norm_num)).2 (fun h => by
      have := (cell_cutoff_iff (Spec.exchanged true stripes) _ s1 _ _ _).mp h
      rw [Real.sin_pi_div_two, Real.cos_pi_div_two] at this
      norm_num at this)
  exact ⟨sol, sol', h, h', fun a ha => ⟨fun j => if j = 0 then 1 else 7, fun _ => 1, fun i j => by
    rw [List.mem_singleton.mp ha, mul_one]; rfl⟩, rfl, cell_direction _, cell_illumination hκ _ _⟩

end Meent

#print axioms Meent.C79_exchange_partial
#print axioms Meent.C79_negation
#print axioms Meent.C79_efficiency_negation
