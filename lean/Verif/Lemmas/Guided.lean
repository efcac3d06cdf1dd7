import Verif.Lemmas.Diag
import Verif.Lemmas.EigBasis
import Verif.Lemmas.Orders
import Verif.Lemmas.LayerCount
import Verif.Lemmas.Dispatch
import Verif.Props.C04
import Verif.Props.C18

/-!
# A transparent film at a guided mode (helper lemmas)

A film of index 2 in vacuum; its first diffraction order is evanescent outside, with decay `g = √(3/2)`, and propagates inside with the
same `g` as normal component, and the film is a quarter wave thick for this component.
-/

open Matrix

set_option linter.unusedSectionVars false
set_option linter.unusedVariables false
set_option linter.unusedSimpArgs false

namespace Meent

theorem diag_step_ok {n : Type} [Fintype n] [DecidableEq n] {la : LinAlg} {x v g : n → ℂ} {r : TState n × Matrix n n ℂ × Matrix n n ℂ}
    (h : tmmStep la false (diagonal x) 1 (diagonal v) ⟨1, diagonal g, 1⟩ = .ok r) :
    (∀ i, v i ≠ 0) ∧ (∀ i, 1 + g i / v i ≠ 0) ∧
    r.1.F = diagonal (fun i => 1 + x i ^ 2 * ((1 - g i / v i) / (1 + g i / v i))) ∧
    r.1.G = diagonal (fun i => v i * (1 - x i ^ 2 * ((1 - g i / v i) / (1 + g i / v i)))) := by
  have hd := tmmStep_ok.mp h
  have hv := isUnit_diag_ne hd.hV
  have ha : ∀ i, (1 : ℂ) / 1 + g i / v i ≠ 0 := by
    have := hd.hA
    unfold stepA at this
    rw [inv_one, Matrix.one_mul, diag_inv_of_isUnit hd.hV, diagonal_mul_diagonal, ← diagonal_one, diagonal_add, ← diagonal_smul] at this
    intro i h0
    refine isUnit_diag_ne this i ?_
    simp only [Pi.smul_apply, smul_eq_mul]
    have : (1 + (v i)⁻¹ * g i : ℂ) = 1 / 1 + g i / v i := by ring
    rw [this, h0, mul_zero]
  have hs := tmmStep_diag la (x := x) (w := fun _ => 1) (v := v) (f := fun _ => 1) (g := g) (t := fun _ => 1) (fun _ => one_ne_zero) hv ha
  simp only [diagonal_one] at hs
  rw [h] at hs
  cases hs
  simp only [div_one] at ha ⊢
  exact ⟨hv, ha, by simp, trivial⟩

theorem film_step {n : Type} [Fintype n] [DecidableEq n] {p : Params} (hpol : p.pol = 0) (hp : p.use_pinv = false) {k0 d : ℝ} {e : ℂ}
    {kx g : n → ℂ} {c : Conv n} (hc : c.epy = diagonal fun _ => e) {b : TState n × LayerInfo n n}
    (h : step1d exLA p k0 kx c d ⟨1, diagonal g, 1⟩ = .ok b) (i : n) {γ : ℂ} (hγ : γ ≠ 0) (hv : csqrt (kx i ^ 2 - e) = Complex.I * γ)
    (hx : Complex.exp (-(k0 : ℂ) * (Complex.I * γ) * (d : ℂ)) = -Complex.I) {kt : n → ℂ} (hkt : kt i = -Complex.I * γ)
    (hg : g i = γ) (hu : IsUnit (b.1.G + (Complex.I • diagonal kt) * b.1.F).det) : False := by
  unfold step1d transfer_1d_3 at h
  simp only [Except.bind_ok, hp, Except.ok.injEq] at h
  obtain ⟨m, hm, t, ht, rfl⟩ := h
  simp only [transfer_1d_2, hpol, if_true, Except.ok.injEq] at hm
  subst hm
  have hE : exLA.eig ((diagonal fun i => kx i ^ 2) - c.epy) = (fun i => kx i ^ 2 - e, 1) := by
    rw [hc, diagonal_sub, exLA_eig_diagonal]
  simp only [hE, Matrix.one_mul, phaseX] at ht
  obtain ⟨h1, h2, hF, hG⟩ := diag_step_ok ht
  rw [hF, hG, ← diagonal_smul, diagonal_mul_diagonal, diagonal_add] at hu
  have := isUnit_diag_ne hu i
  apply this
  simp only [Pi.smul_apply, smul_eq_mul, hv, hx, hg, hkt]
  have hI := Complex.I_sq
  have e1 : γ / (Complex.I * γ) = -Complex.I := by
    rw [div_eq_iff (mul_ne_zero Complex.I_ne_zero hγ)]
    linear_combination γ * hI
  have hne : (1 + -Complex.I : ℂ) ≠ 0 := by
    intro h0
    have := congrArg Complex.re h0
    simp at this
  have e2 : (1 - -Complex.I) / (1 + -Complex.I) = Complex.I := by
    rw [div_eq_iff hne]
    linear_combination hI
  rw [e1, e2]
  linear_combination (-γ * Complex.I ^ 2 + Complex.I * γ * (1 - Complex.I ^ 2)) * hI

/-- The film. -/
noncomputable def guidedSettings : Settings where
  p := { n_top := 1, n_bot := 1, theta := ((Real.pi / 6 : ℝ) : ℂ), phi := none, psi := ((Real.pi / 2 : ℝ) : ℂ), pol := 0, fto := (1, 0),
         period := ((Real.sqrt (5 / 2) - 1 / 2)⁻¹, 1), wavelength := 1, thickness := [1 / (4 * Real.sqrt (3 / 2))], use_pinv := false }
  ucell := .raster (Spec.homogeneousRaster 1 1 [2])
  fourier_type := 0
  enhanced_dfs := true
  algo := .tmm

private theorem sqrt_bounds : 1 < Real.sqrt (5 / 2) := by
  rw [Real.lt_sqrt (by norm_num)]; norm_num

theorem guided_lossless : Spec.LosslessProblem guidedSettings where
  n_top_real := by simp [guidedSettings, Spec.IsReal]
  n_top_pos := by simp [guidedSettings]
  theta_real := by simp only [guidedSettings, Spec.IsReal, Complex.ofReal_im]
  theta_lo := by simp only [guidedSettings, Complex.ofReal_re]; linarith [Real.pi_pos]
  theta_hi := by simp only [guidedSettings, Complex.ofReal_re]; linarith [Real.pi_pos]
  phi_real := by simp [guidedSettings]
  psi_real := by simp only [guidedSettings, Spec.IsReal, Complex.ofReal_im]
  wavelength_pos := by simp [guidedSettings]
  period_x_pos := inv_pos.mpr (by linarith [sqrt_bounds])
  period_y_pos := one_pos
  structure_real := by
    intro l hl i j
    obtain rfl := List.mem_singleton.mp hl
    simp [Spec.IsReal]
  n_bot_real := by simp [guidedSettings, Spec.IsReal]
  n_bot_pos := by simp [guidedSettings]

theorem guided_kx : kxVec guidedSettings.p 1 (2 : Fin 3) = ((Real.sqrt (5 / 2) : ℝ) : ℂ) := by
  have := (RealIncidence.of_spec guided_lossless.toRealIllumination).kx_eq' (ph := 0) (by simp [guidedSettings]) 1 (2 : Fin 3)
  rw [this]
  congr 1
  simp only [guidedSettings, Complex.ofReal_re, Complex.one_re, Real.sin_pi_div_six, Real.cos_zero, one_div, inv_inv]
  norm_num

theorem guided_epy : (Spec.scalarConv 1 0 2).row.epy = diagonal fun _ => 4 := by
  ext i j
  simp only [Conv.row, Spec.scalarConv, submatrix_apply, Matrix.smul_apply, smul_eq_mul, diagonal_apply, one_apply]
  have : (rowIdx (fx := 1) (fy := 0) i = rowIdx j) ↔ i = j := by
    simp [rowIdx]
  simp only [this]
  split <;> norm_num

theorem guided_fails (la : LinAlg) (sol : Solved 1 0) : conv_solve la guidedSettings ≠ .ok sol := by
  intro h
  obtain ⟨sol', h, -⟩ := conv_solve_basis (la' := exLA) rfl exLA_basis h
  have hc : convMats exLA guidedSettings = .ok [Spec.scalarConv 1 0 2] :=
    C18_homogeneous_discrete exLA 1 1 one_pos one_pos [2] (by simp) 1 0 true false
  rcases conv_solve_cases h with ⟨hg, o, rfl⟩ | ⟨hg, -⟩ | ⟨hg, -⟩
  · obtain ⟨cs, h1, -, -, h4⟩ := conv_solve_tetm.mp h
    rw [hc] at h1
    cases h1
    obtain ⟨-, init, r, x, hi, hr, hx, rfl⟩ := (solve_1d_iff rfl).mp h4
    obtain ⟨a, ha, b, hb, rfl⟩ := runLayers_cons.mp hr
    have hi' : init = (kz1d 1 (kxVec guidedSettings.p 1), kz1d 1 (kxVec guidedSettings.p 1),
        ⟨1, diagonal (Complex.I • kz1d 1 (kxVec guidedSettings.p 1)), 1⟩) := by
      rw [diagonal_smul]
      have : transfer_1d_1 (0 : ℝ) (kxVec guidedSettings.p 1) 1 1 = .ok init := hi
      rw [transfer_1d_1, if_pos rfl] at this
      exact (Except.ok.inj this).symm
    subst hi'
    obtain rfl : (_, []) = a := Except.ok.inj ha
    have hu : IsUnit (b.1.G + (Complex.I • diagonal (kz1d 1 (kxVec guidedSettings.p 1))) * b.1.F).det := by
      unfold transfer_1d_4 at hx
      simp only [show guidedSettings.p.pol = 0 from rfl, if_true, Except.bind_ok, meeinv_false_ok] at hx
      obtain ⟨_, ⟨hw, -⟩, -⟩ := hx
      exact hw
    have h52 : ((Real.sqrt (5 / 2) : ℝ) : ℂ) ^ 2 = ((5 / 2 : ℝ) : ℂ) := by
      rw [← Complex.ofReal_pow, Real.sq_sqrt (by norm_num)]
    have h32 : (0 : ℝ) < Real.sqrt (3 / 2) := Real.sqrt_pos.mpr (by norm_num)
    have hkz : kz1d 1 (kxVec guidedSettings.p 1) (2 : Fin 3) = -Complex.I * ((Real.sqrt (3 / 2) : ℝ) : ℂ) := by
      unfold kz1d
      rw [guided_kx, h52]
      have : ((1 : ℂ) ^ 2 - ((5 / 2 : ℝ) : ℂ)) = ((-(3 / 2) : ℝ) : ℂ) := by push_cast; norm_num
      rw [this, csqrt_ofReal_neg (by norm_num), neg_neg]
      simp
    refine film_step (p := guidedSettings.p) rfl rfl (e := 4) (c := (Spec.scalarConv 1 0 2).row) guided_epy hb (2 : Fin 3)
      (γ := ((Real.sqrt (3 / 2) : ℝ) : ℂ)) (by exact_mod_cast h32.ne') ?_ ?_ hkz ?_ hu
    · have e := guided_kx
      rw [show kxVec guidedSettings.p guidedSettings.p.wavelength (2 : Fin 3) = _ from e, h52]
      have : (((5 / 2 : ℝ) : ℂ) - 4) = ((-(3 / 2) : ℝ) : ℂ) := by push_cast; norm_num
      rw [this, csqrt_ofReal_neg (by norm_num), neg_neg]
    · have : -((2 * Real.pi / guidedSettings.p.wavelength : ℝ) : ℂ) * (Complex.I * ((Real.sqrt (3 / 2) : ℝ) : ℂ))
          * ((1 / (4 * Real.sqrt (3 / 2)) : ℝ) : ℂ) = -(Real.pi / 2 * Complex.I) := by
        have hs : ((Real.sqrt (3 / 2) : ℝ) : ℂ) ≠ 0 := by exact_mod_cast h32.ne'
        rw [show guidedSettings.p.wavelength = 1 from rfl]
        push_cast
        field_simp
        norm_num
      refine (congrArg Complex.exp this).trans ?_
      rw [Complex.exp_neg, Complex.exp_pi_div_two_mul_I, Complex.inv_I]
    · show Complex.I * kz1d 1 (kxVec guidedSettings.p 1) (2 : Fin 3) = _
      rw [hkz]
      linear_combination -((Real.sqrt (3 / 2) : ℝ) : ℂ) * Complex.I_sq
  · simp [gratingType, guidedSettings, Spec.homogeneousRaster] at hg
  · simp [gratingType, guidedSettings, Spec.homogeneousRaster] at hg

end Meent
