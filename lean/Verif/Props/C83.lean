import Verif.Lemmas.Angles
import Verif.Lemmas.BareExample
import Verif.Props.C56
import Mathlib.Analysis.Real.Pi.Bounds

/-!
# C83: angles that mean the same give the same results
-/

set_option linter.unusedSectionVars false
set_option linter.unusedSimpArgs false

open Matrix

namespace Meent

/-! ### The direction of incidence -/

/-- **C83 (partial: polar angles below `float32(π/2)`).** Two ways to write the same direction of incidence give the same
outcome: the same results, or the same exception. -/
theorem C83_direction_partial (la : LinAlg) (s : Settings) (θ φ θ' φ' ψ : ℂ) (hd : Spec.SameDirection θ φ θ' φ')
    (h1 : θ.re < Spec.singleHalfPi) (h2 : θ'.re < Spec.singleHalfPi) :
    conv_solve la (Spec.withAngles s θ' φ' ψ) = conv_solve la (Spec.withAngles s θ φ ψ) := by
  refine conv_solve_turned la (Spec.withAngles s θ φ ψ) (θ := θ') (φ := some φ') hd.1 (kxVec_turned ?_) (kyVec_turned ?_) (by simp)
  · rw [sinTheta_small h2, sinTheta_small h1]
    exact hd.2.1
  · rw [sinTheta_small h2, sinTheta_small h1]
    exact hd.2.2

/-- **C83.** Whole turns of the azimuth change nothing, whatever the polar angle. -/
theorem C83_azimuth (la : LinAlg) (s : Settings) (θ φ ψ : ℂ) (k : ℤ) :
    conv_solve la (Spec.withAngles s θ (φ + k * (2 * Real.pi)) ψ) = conv_solve la (Spec.withAngles s θ φ ψ) := by
  refine conv_solve_turned la (Spec.withAngles s θ φ ψ) (θ := θ) (φ := some (φ + k * (2 * Real.pi))) rfl
    (kxVec_turned ?_) (kyVec_turned ?_) (by simp)
  · simp only [Option.getD_some, Complex.cos_add_int_mul_two_pi]
  · simp only [Option.getD_some, Complex.sin_add_int_mul_two_pi]

/-- A negative polar angle is the positive one seen from the other side. -/
theorem C83_other_side (la : LinAlg) (s : Settings) (θ φ ψ : ℂ) (h : |θ.re| < Spec.singleHalfPi) :
    conv_solve la (Spec.withAngles s (-θ) (φ + Real.pi) ψ) = conv_solve la (Spec.withAngles s θ φ ψ) := by
  refine C83_direction_partial la s θ φ (-θ) (φ + Real.pi) ψ ⟨Complex.cos_neg θ, ?_, ?_⟩ (abs_lt.mp h).2
    (by rw [Complex.neg_re]; linarith [(abs_lt.mp h).1])
  · rw [Complex.sin_neg, Complex.cos_add_pi]; ring
  · rw [Complex.sin_neg, Complex.sin_add_pi]; ring

/-! ### The polarization angle -/

/-- **C83.** Outside the TE/TM formulation half turns of the polarization angle change the sign of the field only:
amplitudes are multiplied by `(-1)^k`, efficiencies and the results for TE and TM incidence stay. -/
theorem C83_psi (la : LinAlg) (s : Settings) (hg : gratingType s ≠ 0) (ha : s.algo = .tmm) (k : ℤ)
    (sol : Solved s.p.fto.1 s.p.fto.2) (h : conv_solve la s = .ok sol) :
    ∃ sol' : Solved s.p.fto.1 s.p.fto.2, conv_solve la (Spec.withPsi s (s.p.psi + k * Real.pi)) = .ok sol' ∧
      sol'.result.res_te_inc = sol.result.res_te_inc ∧ sol'.result.res_tm_inc = sol.result.res_tm_inc ∧
      ∃ r r', sol.result.res = some r ∧ sol'.result.res = some r' ∧ Spec.TimesPhase ((-1) ^ k) r r' := by
  obtain ⟨sol', h1, h2, h3, r, r', h4, h5, h6⟩ := conv_solve_half_turn h hg ha (s.p.psi + k * Real.pi)
  refine ⟨sol', h1, h2, h3, r, r', h4, h5, h6 _ ?_ ?_ ?_⟩
  · rw [Complex.cos_antiperiodic.add_int_mul_eq k, Int.cast_negOnePow]
  · rw [Complex.sin_antiperiodic.add_int_mul_eq k, Int.cast_negOnePow]
  · rw [norm_zpow, norm_neg, norm_one, _root_.one_zpow]

/-- **C83.** The results for TE and TM incidence do not depend on the polarization angle, and neither does success. -/
theorem C83_psi_free (la : LinAlg) (s : Settings) (hg : gratingType s ≠ 0) (ha : s.algo = .tmm) (ψ : ℂ)
    (sol : Solved s.p.fto.1 s.p.fto.2) (h : conv_solve la s = .ok sol) :
    ∃ sol' : Solved s.p.fto.1 s.p.fto.2, conv_solve la (Spec.withPsi s ψ) = .ok sol' ∧
      sol'.result.res_te_inc = sol.result.res_te_inc ∧ sol'.result.res_tm_inc = sol.result.res_tm_inc := by
  obtain ⟨sol', h1, h2, h3, -⟩ := conv_solve_half_turn h hg ha ψ
  exact ⟨sol', h1, h2, h3⟩

/-! ### Whole turns of the polar angle -/

namespace C83

/-- No interface at all: index 2 on both sides, 30 degrees plus `k` whole turns. -/
noncomputable abbrev nothing (k : ℤ) : Settings :=
  { bareSettings 2 0 none with p := { (bareSettings 2 0 none).p with theta := ((Real.pi / 6 : ℝ) : ℂ) + k * (2 * Real.pi) } }

theorem cos_single : 0 < Real.cos f32HalfPiPrev ∧ Real.cos f32HalfPiPrev < 1 / 10 ^ 7 := by
  have h1 := Real.pi_gt_d20
  have h2 := Real.pi_lt_d20
  rw [← Real.sin_pi_div_two_sub]
  unfold f32HalfPiPrev
  constructor
  · refine Real.sin_pos_of_pos_of_lt_pi ?_ ?_ <;> norm_num at * <;> linarith
  · refine (Real.sin_lt ?_).trans ?_ <;> norm_num at * <;> linarith

theorem cos_turn (k : ℤ) : Complex.cos (nothing k).p.theta = ((Real.sqrt 3 / 2 : ℝ) : ℂ) := by
  show Complex.cos (((Real.pi / 6 : ℝ) : ℂ) + k * (2 * Real.pi)) = _
  rw [Complex.cos_add_int_mul_two_pi, ← Complex.ofReal_cos, Real.cos_pi_div_six]

/-- The reflected amplitude when the code takes `σ` for the sine of the polar angle. -/
theorem amplitude (la : LinAlg) (k : ℤ) (σ c : ℝ) (hσ : sinTheta (nothing k).p.theta = (σ : ℂ)) (hc : 0 < c) (h1 : σ ^ 2 + c ^ 2 = 1) :
    ∃ o : Out1D _, conv_solve la (nothing k) = .ok (.tetm o) ∧
      ∀ j i, o.res.R_s j i = (((Real.sqrt 3 / 2 - c) / (2 * c) : ℝ) : ℂ) := by
  have hkx : ∀ i, kxVec (nothing k).p 1 i = ((2 * σ : ℝ) : ℂ) := by
    intro i
    have hi : (i : ℕ) = 0 := by
      have := i.isLt
      simp only [bareSettings] at this
      omega
    unfold kxVec
    rw [hσ]
    simp [bareSettings, hi]
  have hkz : ∀ i, kz1d 2 (kxVec (nothing k).p 1) i = ((2 * c : ℝ) : ℂ) := by
    intro i
    unfold kz1d
    rw [hkx i]
    have e : ((2 : ℂ) ^ 2 - ((2 * σ : ℝ) : ℂ) ^ 2) = (((2 * c) ^ 2 : ℝ) : ℂ) := by
      rw [← Complex.ofReal_pow, show ((2 : ℂ) ^ 2) = (((2 : ℝ) ^ 2 : ℝ) : ℂ) by norm_num, ← Complex.ofReal_sub]
      congr 1
      linear_combination -4 * h1
    rw [e]
    exact star_csqrt_unique (by rw [← Complex.ofReal_pow]) (by rw [Complex.ofReal_re]; linarith) (by rw [Complex.ofReal_im])
  have hne : ((2 * c : ℝ) : ℂ) ≠ 0 := by exact_mod_cast (by linarith : (0 : ℝ) < 2 * c).ne'
  obtain ⟨o, ho⟩ := bare_1d_ok (la := la) (p := (nothing k).p) (wl := 1) (convs := []) rfl rfl (.inl rfl) (by
    intro i
    show dy 0 (kz1d 2 (kxVec (nothing k).p 1) i) 2 + dy 0 (kz1d 2 (kxVec (nothing k).p 1) i) 2 ≠ 0
    rw [hkz i]
    simp only [dy, if_true]
    rw [← two_mul]
    exact mul_ne_zero two_ne_zero hne)
  refine ⟨o, conv_solve_tetm.mpr ⟨[], bareSettings_convs la 2 0 none, by simp [gratingType, bareSettings], rfl, ho⟩, ?_⟩
  obtain ⟨R, T, hT, h | h⟩ := bare_1d rfl rfl ho
  · obtain ⟨-, hR, -, he⟩ := h
    intro j i
    have e := he i
    rw [hT, cos_turn] at e
    change kz1d 2 (kxVec (nothing k).p 1) i * (R i + deltaI0 i) = 2 * ((Real.sqrt 3 / 2 : ℝ) : ℂ) * deltaI0 i - kz1d 2 (kxVec (nothing k).p 1) i * R i at e
    have hd : (deltaI0 : _ → ℂ) i = 1 := by
      have h0 := i.isLt
      have h1 : (nothing k).p.fto.1 = 0 := rfl
      unfold deltaI0
      rw [if_pos (by omega)]
    rw [hkz i, hd] at e
    rw [hR j]
    push_cast at e hne ⊢
    rw [eq_div_iff hne]
    linear_combination e / 2
  · exact absurd h.1 (by simp [bareSettings])

end C83

/-- **C83, negation.** A whole turn more in the polar angle does change the results. Without any interface at all, nothing is
reflected at 30 degrees; at 390 degrees the code reports a reflected amplitude of more than a million. -/
theorem C83_negation (la : LinAlg) :
    ∃ (o o' : Out1D _), conv_solve la (C83.nothing 0) = .ok (.tetm o) ∧ conv_solve la (C83.nothing 1) = .ok (.tetm o') ∧
      (∀ j i, o.res.R_s j i = 0) ∧ (∀ j i, 10 ^ 6 < ‖o'.res.R_s j i‖) := by
  have hp := Real.pi_gt_d20
  have h3 : Real.sqrt 3 ^ 2 = 3 := Real.sq_sqrt (by norm_num)
  have h30 : 1 < Real.sqrt 3 := by
    have := Real.sqrt_nonneg 3
    nlinarith
  obtain ⟨c1, c2⟩ := C83.cos_single
  obtain ⟨o, ho, hR⟩ := C83.amplitude la 0 (1 / 2) (Real.sqrt 3 / 2) (by
    rw [sinTheta_small]
    · show Complex.sin (((Real.pi / 6 : ℝ) : ℂ) + ((0 : ℤ) : ℂ) * (2 * Real.pi)) = _
      rw [Complex.sin_add_int_mul_two_pi, ← Complex.ofReal_sin, Real.sin_pi_div_six]
    · have h2 := Real.pi_lt_d20
      simp [f32HalfPi]
      norm_num at *
      linarith) (by linarith) (by rw [div_pow (Real.sqrt 3), h3]; norm_num)
  obtain ⟨o', ho', hR'⟩ := C83.amplitude la 1 (Real.sin f32HalfPiPrev) (Real.cos f32HalfPiPrev) (by
    unfold sinTheta
    have him : (C83.nothing 1).p.theta.im = 0 := by simp
    have hre : (C83.nothing 1).p.theta.re = Real.pi / 6 + 2 * Real.pi := by simp
    rw [if_pos, him, Complex.ofReal_zero, zero_mul, add_zero, Complex.ofReal_sin]
    rw [hre, f32HalfPi]
    norm_num at *
    linarith) c1 (Real.sin_sq_add_cos_sq _)
  refine ⟨o, o', ho, ho', fun j i => by rw [hR, sub_self, zero_div, Complex.ofReal_zero], fun j i => ?_⟩
  rw [hR', Complex.norm_real, Real.norm_eq_abs]
  refine lt_of_lt_of_le ?_ (le_abs_self _)
  rw [lt_div_iff₀ (by linarith)]
  norm_num at *
  linarith

/-- The two angles of `C83_negation` describe the same direction. -/
theorem C83_negation_same (φ : ℂ) : Spec.SameDirection (C83.nothing 0).p.theta φ (C83.nothing 1).p.theta φ := by
  have e : ∀ k : ℤ, Complex.sin (C83.nothing k).p.theta = Complex.sin ((Real.pi / 6 : ℝ) : ℂ) :=
    fun k => Complex.sin_add_int_mul_two_pi _ _
  exact ⟨by rw [C83.cos_turn, C83.cos_turn], by rw [e, e], by rw [e, e]⟩

/-! ### Examples -/

namespace C83

/-- An absorbing film in the 2D formulation at 30 degrees. -/
noncomputable def film (pol : ℝ) (f g : ℕ) : Settings :=
  { lossySettings pol (some 0) f with p := { exParams pol (some 0) with fto := (f, g) }, ucell := .raster (Spec.homogeneousRaster 2 2 [2 - Complex.I]) }

theorem film_solves (pol : ℝ) (f g : ℕ) : ∃ sol, conv_solve exLA (film pol f g) = .ok sol := by
  refine C56_films exLA exLA_basis _ rfl rfl ?_ 2 2 [2 - Complex.I] rfl
  refine ⟨lossy_illumination pol (some 0) (by intro φ h; cases h; rfl) f g, ⟨Or.inl rfl, ?_⟩, ?_, ?_, ?_, ?_, ?_,
    Or.inr (lossy_not_normal pol f g), ?_⟩
  · intro l hl
    obtain rfl := List.mem_singleton.mp hl
    exact ⟨fun i j => by simp [Spec.OrdinaryMedium], (0 : Fin 2), (0 : Fin 2), by simp [Spec.AbsorbingMedium]⟩
  · intro d hd
    obtain rfl : d = 1 / 3 := by simpa [film, exParams] using hd
    norm_num
  · simp [film, exParams]
  · simp [film, exParams, Spec.layerCount, Spec.homogeneousRaster]
  · simp [film, exParams, Spec.IsReal]
  · simp [film, exParams]
  · intro h
    simp [film, gratingType, Spec.homogeneousRaster] at h

end C83

/-- The film solves, and solves in the same way when its direction of incidence is written as `-30` degrees with azimuth 180. -/
example (pol : ℝ) (f g : ℕ) : ∃ sol, conv_solve exLA (C83.film pol f g) = .ok sol ∧
    conv_solve exLA (Spec.withAngles (C83.film pol f g) (-((Real.pi / 6 : ℝ) : ℂ)) (0 + Real.pi) (C83.film pol f g).p.psi) = .ok sol := by
  obtain ⟨sol, h⟩ := C83.film_solves pol f g
  refine ⟨sol, h, ?_⟩
  rw [C83_other_side exLA (C83.film pol f g) ((Real.pi / 6 : ℝ) : ℂ) 0 (C83.film pol f g).p.psi ?_]
  · exact h
  · have h1 := Real.pi_gt_d20
    have h2 := Real.pi_lt_d20
    rw [Complex.ofReal_re, abs_of_pos (by positivity), Spec.singleHalfPi]
    norm_num at *
    linarith

/-- The film solves with every polarization angle. -/
example (pol : ℝ) (f g : ℕ) (k : ℤ) : ∃ sol sol' : Solved f g, conv_solve exLA (C83.film pol f g) = .ok sol ∧
    conv_solve exLA (Spec.withPsi (C83.film pol f g) ((C83.film pol f g).p.psi + k * Real.pi)) = .ok sol' ∧
    ∃ r r', sol.result.res = some r ∧ sol'.result.res = some r' ∧ Spec.TimesPhase ((-1) ^ k) r r' := by
  obtain ⟨sol, h⟩ := C83.film_solves pol f g
  obtain ⟨sol', h1, -, -, h2⟩ := C83_psi exLA (C83.film pol f g) (by simp [C83.film, gratingType, Spec.homogeneousRaster]) rfl k sol h
  exact ⟨sol, sol', h, h1, h2⟩

end Meent

#print axioms Meent.C83_direction_partial
#print axioms Meent.C83_azimuth
#print axioms Meent.C83_other_side
#print axioms Meent.C83_psi
#print axioms Meent.C83_psi_free
#print axioms Meent.C83_negation
#print axioms Meent.C83_negation_same
