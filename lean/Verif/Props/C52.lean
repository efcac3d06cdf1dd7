import Verif.Lemmas.Nan
import Verif.Lemmas.ObjectExample
import Verif.Props.C18

/-!
# C52: Normal incidence

The conical and 2D solvers split every order into its s and p part with respect to the plane it leaves in.  For an
order along the surface normal this plane is undefined.
-/

open Matrix

namespace Meent

/-- **C52, where NaN comes from.** Once the structure has been read, a conical or 2D solve gives NaN exactly if one of
the orders kept in the calculation leaves along the surface normal; a 1D TE/TM solve never does. -/
theorem C52_nan (la : LinAlg) (s : Settings) (cs : List (Conv (FlatIdx s.p.fto.1 s.p.fto.2)))
    (hc : convMats la s = .ok cs) (ha : s.algo = .tmm) (ht : s.p.theta.re < Real.pi / 2) :
    conv_solve la s = .error .nan ↔ gratingType s ≠ 0 ∧ Spec.SomeAlongNormal s.p := by
  unfold conv_solve
  rw [bind_nan, hc]
  simp only [reduceCtorEq, false_or, Except.ok.injEq, exists_eq_left', solve_for_conv_nan, ha, true_and]
  rw [normal_iff ht]

/-- **C52, normal incidence.** After `theta = 0` the object holds the perturbation instead.  If this is a real angle
between 0 and 90 degrees, small enough for the in-plane wavenumber of the incident wave to stay below the spacing of
the orders, then no order is along the normal, and `conv_solve` cannot give NaN unless the structure itself does. -/
theorem C52_normal_partial (la : LinAlg) (o o' o'' : Obj) (h0 : step la o (.setTheta (some 0)) = (o', .done))
    (ε : ℝ) (he : o.perturbation = (ε : ℂ)) (hpos : 0 < ε) (hlt : ε < Real.pi / 2) (hn : o.n_top ≠ 0)
    (px py : ℝ) (rest : List ℝ) (hp : o.period = px :: py :: rest) (hphi : ((o.phi.getD 0).im : ℝ) = 0)
    (hx : ‖o.n_top‖ * Real.sin ε < |o.wavelength / px|) (hy : ‖o.n_top‖ * Real.sin ε < |o.wavelength / py|) :
    o'.theta = some (ε : ℂ) ∧
    (step la o' .convSolve = (o'', .raised .nan) → ∃ u fx fy, o'.structure = .ok u ∧ o'.orders = .ok (fx, fy) ∧
      convMats la (o'.settings u fx fy) = .error .nan) := by
  have hth : o' = { o with theta := some (ε : ℂ) } := by
    have := (Prod.mk.inj h0).1
    rw [← this]
    simp [he]
  refine ⟨by rw [hth], fun h => ?_⟩
  obtain ⟨u, fx, fy, hs, ho, hc⟩ := convSolve_nan (step_solve_error.mp h)
  refine ⟨u, fx, fy, hs, ho, ?_⟩
  rcases hc with hc | hex
  · exact hc
  · exfalso
    have hst : (o'.params fx fy).theta = (ε : ℂ) := by rw [hth]; rfl
    have hsn : (o'.params fx fy).n_top = o.n_top := by rw [hth]; rfl
    have hsp : (o'.params fx fy).phi = o.phi := by rw [hth]; rfl
    have hsw : (o'.params fx fy).wavelength = o.wavelength := by rw [hth]; rfl
    have hsw' : o'.wavelength = (o'.params fx fy).wavelength := rfl
    have hper : (o'.params fx fy).period = (px, py) := by rw [hth]; simp [Obj.params, hp]
    rw [hsw'] at hex
    obtain ⟨m, k, -, -, e1, e2⟩ := (normal_iff (by rw [hst]; simpa using hlt)).mp hex
    rw [hst, hsn, hsp, hper, hsw] at e1 e2
    obtain ⟨φ, hφ⟩ : ∃ φ : ℝ, o.phi.getD 0 = (φ : ℂ) := ⟨_, Complex.ext rfl hphi⟩
    rw [hφ] at e1 e2
    simp only [← Complex.ofReal_sin, ← Complex.ofReal_cos] at e1 e2
    have hs0 : 0 < Real.sin ε := Real.sin_pos_of_pos_of_lt_pi hpos (by linarith [Real.pi_pos])
    have key : ∀ (c w : ℝ) (j : ℤ), |c| ≤ 1 → ‖o.n_top‖ * Real.sin ε < |w| →
        o.n_top * ((Real.sin ε : ℝ) : ℂ) * (c : ℂ) + (j : ℂ) * (w : ℂ) = 0 → c = 0 := by
      intro c w j hc hw h
      have h' : ‖o.n_top * ((Real.sin ε : ℝ) : ℂ) * (c : ℂ)‖ = ‖(j : ℂ) * (w : ℂ)‖ := by
        rw [eq_neg_of_add_eq_zero_left h, norm_neg]
      rw [norm_mul, norm_mul, norm_mul, Complex.norm_real, Complex.norm_real, Complex.norm_real, Complex.norm_intCast,
        Real.norm_eq_abs, Real.norm_eq_abs, Real.norm_eq_abs, abs_of_pos hs0] at h'
      by_cases hj : j = 0
      · subst hj
        have hnp : 0 < ‖o.n_top‖ := norm_pos_iff.mpr hn
        rw [Int.cast_zero, abs_zero, zero_mul] at h'
        rcases mul_eq_zero.mp h' with h' | h'
        · rcases mul_eq_zero.mp h' with h' | h' <;> linarith
        · exact abs_eq_zero.mp h'
      · exfalso
        have h1 : (1 : ℝ) ≤ |(j : ℝ)| := by
          rw [← Int.cast_abs]; exact_mod_cast Int.one_le_abs hj
        have h2 : ‖o.n_top‖ * Real.sin ε * |c| ≤ ‖o.n_top‖ * Real.sin ε :=
          mul_le_of_le_one_right (by positivity) hc
        have h3 : |w| ≤ |(j : ℝ)| * |w| := le_mul_of_one_le_left (abs_nonneg _) h1
        linarith
    have c0 := key _ _ _ (Real.abs_cos_le_one φ) hx e1
    have s0 := key _ _ _ (Real.abs_sin_le_one φ) hy e2
    have := Real.sin_sq_add_cos_sq φ
    rw [c0, s0] at this
    norm_num at this

/-- Non-vacuity: the example grating under normal incidence, with the default perturbation. -/
example : ∃ o', step exLA (exObj 0 (some 0)) (.setTheta (some 0)) = (o', .done) ∧
    (exObj 0 (some 0)).perturbation = (((1 / 10 ^ 20 : ℝ)) : ℂ) ∧ (exObj 0 (some 0)).n_top ≠ 0 ∧
    (exObj 0 (some 0)).period = [1, 1] ∧ ((exObj 0 (some 0)).phi.getD 0).im = 0 ∧
    ‖(exObj 0 (some 0)).n_top‖ * Real.sin (1 / 10 ^ 20) < |(exObj 0 (some 0)).wavelength / 1| := by
  refine ⟨_, rfl, ?_, one_ne_zero, rfl, rfl, ?_⟩
  · simp [exObj]
  · have : Real.sin (1 / 10 ^ 20) < 1 / 10 ^ 20 := Real.sin_lt (by positivity)
    simp only [exObj, norm_one, one_mul, div_one, abs_one]
    norm_num at this ⊢
    linarith

/-- A homogeneous layer in air under 30 degrees, with period twice the wavelength and azimuth 0. -/
noncomputable def normalSettings : Settings where
  p := { n_top := 1, n_bot := 1, theta := ((Real.pi / 6 : ℝ) : ℂ), phi := some 0, psi := 0,
         pol := 0, fto := (1, 0), period := (2, 2), wavelength := 1, thickness := [1], use_pinv := false }
  ucell := .raster ⟨1, 1, [fun _ _ => 2]⟩
  fourier_type := 0
  enhanced_dfs := false
  algo := .tmm

/-- **C52, counterexample.** Away from normal incidence a diffraction order can leave exactly along the normal, and then
the result is NaN: a homogeneous layer under 30 degrees with period twice the wavelength, whose order -1 is normal. -/
theorem C52_order_negation : (∃ cs, convMats exLA normalSettings = .ok cs) ∧
    Spec.AlongNormal normalSettings.p (-1) 0 ∧ conv_solve exLA normalSettings = .error .nan := by
  have hc : convMats exLA normalSettings = .ok [Spec.scalarConv 1 0 2] := by
    unfold convMats
    simp only [normalSettings, if_true]
    exact C18_homogeneous_discrete exLA 1 1 Nat.one_pos Nat.one_pos [2]
      (fun n h => by rw [List.mem_singleton] at h; rw [h]; exact two_ne_zero) 1 0 false false
  have hnorm : Spec.AlongNormal normalSettings.p (-1) 0 := by
    have h6 : Complex.sin ((Real.pi / 6 : ℝ) : ℂ) = 1 / 2 := by
      rw [← Complex.ofReal_sin, Real.sin_pi_div_six]; norm_num
    unfold Spec.AlongNormal
    simp only [normalSettings, Option.getD_some, h6, Complex.cos_zero, Complex.sin_zero]
    norm_num
  refine ⟨⟨_, hc⟩, hnorm, (C52_nan exLA _ _ hc rfl ?_).mpr ⟨?_, -1, 0, ?_, ?_, hnorm⟩⟩
  · change (((Real.pi / 6 : ℝ) : ℂ)).re < _
    rw [Complex.ofReal_re]
    linarith [Real.pi_pos]
  · simp [gratingType, normalSettings]
  · simp [normalSettings]
  · simp [normalSettings]

#print axioms C52_nan
#print axioms C52_normal_partial
#print axioms C52_order_negation

end Meent
