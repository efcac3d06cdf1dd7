import Verif.Spec.Coatings
import Mathlib.Analysis.SpecialFunctions.Trigonometric.Complex
import Mathlib.Analysis.SpecificLimits.Basic

/-!
# Coatings: algebra of characteristic matrices (helper lemmas)
-/

open Matrix

namespace Meent

set_option linter.unusedSectionVars false
set_option linter.unusedSimpArgs false
set_option linter.unusedVariables false

theorem stack_append (k0 : ℝ) (Y : Spec.Film → ℂ) (A B : List Spec.Film) :
    Spec.stackMatrix k0 Y (A ++ B) = Spec.stackMatrix k0 Y A * Spec.stackMatrix k0 Y B := by
  unfold Spec.stackMatrix
  rw [List.map_append, List.prod_append]

theorem stack_cons (k0 : ℝ) (Y : Spec.Film → ℂ) (f : Spec.Film) (B : List Spec.Film) :
    Spec.stackMatrix k0 Y (f :: B) = Spec.filmMatrix k0 Y f * Spec.stackMatrix k0 Y B := by
  unfold Spec.stackMatrix
  rw [List.map_cons, List.prod_cons]

theorem norm_of_sq {e : ℂ} (h : e ^ 2 = 1) : ‖e‖ = 1 := by
  have : ‖e‖ ^ 2 = 1 := by rw [← norm_pow, h, norm_one]
  exact (pow_eq_one_iff_of_nonneg (norm_nonneg e) two_ne_zero).mp this

/-- A half-wave film has characteristic matrix `±1`. -/
theorem half_wave {k0 : ℝ} {f : Spec.Film} (h : Spec.HalfWave k0 f) :
    ∃ e : ℂ, ‖e‖ = 1 ∧ ∀ Y, Spec.filmMatrix k0 Y f = e • (1 : Matrix (Fin 2) (Fin 2) ℂ) := by
  obtain ⟨m, hm⟩ := h
  have hs : Complex.sin (m * Real.pi) = 0 := Complex.sin_int_mul_pi m
  refine ⟨Complex.cos (m * Real.pi), ?_, fun Y => ?_⟩
  · exact norm_of_sq (by rw [Complex.cos_sq', hs]; ring)
  · unfold Spec.filmMatrix
    simp only [hm, hs, mul_zero, zero_div]
    ext i j
    fin_cases i <;> fin_cases j <;> simp

/-- Characteristic matrix of a quarter-wave film. -/
theorem quarter_wave {k0 : ℝ} {f : Spec.Film} (h : Spec.QuarterWave k0 f) :
    ∃ e : ℂ, ‖e‖ = 1 ∧ ∀ Y : Spec.Film → ℂ, Spec.filmMatrix k0 Y f = e • !![0, 1 / Y f; Y f, 0] := by
  obtain ⟨m, hm⟩ := h
  have hc : Complex.cos ((m + 1 / 2) * Real.pi) = 0 := Complex.cos_eq_zero_iff.mpr ⟨m, by ring⟩
  have hs : Complex.sin ((m + 1 / 2) * Real.pi) ^ 2 = 1 := by rw [Complex.sin_sq, hc]; ring
  refine ⟨Complex.I * Complex.sin ((m + 1 / 2) * Real.pi), ?_, fun Y => ?_⟩
  · rw [norm_mul, Complex.norm_I, one_mul]
    exact norm_of_sq hs
  · unfold Spec.filmMatrix
    simp only [hm, hc]
    ext i j
    fin_cases i <;> fin_cases j <;> simp [div_eq_mul_inv]
    ring

section
variable {Y₀ Y₁ e : ℂ} {M : Matrix (Fin 2) (Fin 2) ℂ}

theorem filmR_smul (he : e ≠ 0) : Spec.filmR Y₀ Y₁ (e • M) = Spec.filmR Y₀ Y₁ M := by
  unfold Spec.filmR
  simp only [Matrix.smul_apply, smul_eq_mul]
  rw [show Y₀ * (e * M 0 0 + e * M 0 1 * Y₁) - (e * M 1 0 + e * M 1 1 * Y₁) = e * (Y₀ * (M 0 0 + M 0 1 * Y₁) - (M 1 0 + M 1 1 * Y₁)) by ring,
    show Y₀ * (e * M 0 0 + e * M 0 1 * Y₁) + (e * M 1 0 + e * M 1 1 * Y₁) = e * (Y₀ * (M 0 0 + M 0 1 * Y₁) + (M 1 0 + M 1 1 * Y₁)) by ring,
    mul_div_mul_left _ _ he]

theorem filmT_smul : Spec.filmT Y₀ Y₁ (e • M) = e⁻¹ * Spec.filmT Y₀ Y₁ M := by
  unfold Spec.filmT
  simp only [Matrix.smul_apply, smul_eq_mul]
  rw [show Y₀ * (e * M 0 0 + e * M 0 1 * Y₁) + (e * M 1 0 + e * M 1 1 * Y₁) = e * (Y₀ * (M 0 0 + M 0 1 * Y₁) + (M 1 0 + M 1 1 * Y₁)) by ring,
    div_mul_eq_div_div_swap, div_eq_mul_inv _ e, mul_comm]

theorem reflectance_smul (he : ‖e‖ = 1) : Spec.filmReflectance Y₀ Y₁ (e • M) = Spec.filmReflectance Y₀ Y₁ M := by
  unfold Spec.filmReflectance
  rw [filmR_smul (by rintro rfl; simp at he)]

theorem transmittance_smul (he : ‖e‖ = 1) : Spec.filmTransmittance Y₀ Y₁ (e • M) = Spec.filmTransmittance Y₀ Y₁ M := by
  unfold Spec.filmTransmittance
  rw [filmT_smul, norm_mul, norm_inv, he, inv_one, one_mul]

end

/-- The stack with and without a half-wave film. -/
theorem stack_absentee {k0 : ℝ} {f : Spec.Film} (h : Spec.HalfWave k0 f) (A B : List Spec.Film) :
    ∃ e : ℂ, ‖e‖ = 1 ∧ ∀ Y, Spec.stackMatrix k0 Y (A ++ f :: B) = e • Spec.stackMatrix k0 Y (A ++ B) := by
  obtain ⟨e, he, hY⟩ := half_wave h
  refine ⟨e, he, fun Y => ?_⟩
  rw [stack_append, stack_cons, hY, stack_append, Matrix.smul_mul, Matrix.one_mul, Matrix.mul_smul]

/-- A film is two films on top of each other. -/
theorem film_add (k0 : ℝ) (Y : Spec.Film → ℂ) (f g : Spec.Film) (d : ℝ) (hY : Y f ≠ 0) (h1 : Y g = Y f) (h2 : g.kz = f.kz)
    (hd : g.d = f.d + d) (f' : Spec.Film) (h3 : Y f' = Y f) (h4 : f'.kz = f.kz) (h5 : f'.d = d) :
    Spec.filmMatrix k0 Y g = Spec.filmMatrix k0 Y f' * Spec.filmMatrix k0 Y f := by
  unfold Spec.filmMatrix
  simp only [h1, h2, h3, h4, h5, hd]
  have e : (k0 : ℂ) * f.kz * ((f.d + d : ℝ) : ℂ) = k0 * f.kz * d + k0 * f.kz * f.d := by push_cast; ring
  rw [e, Complex.cos_add, Complex.sin_add]
  have hI : Complex.I * Complex.I = -1 := Complex.I_mul_I
  generalize Complex.sin (k0 * f.kz * d) = s1
  generalize Complex.cos (k0 * f.kz * d) = c1
  generalize Complex.sin (k0 * f.kz * f.d) = s2
  generalize Complex.cos (k0 * f.kz * f.d) = c2
  ext i j
  fin_cases i <;> fin_cases j <;> simp [Matrix.mul_apply, Fin.sum_univ_two] <;> field_simp <;> first | linear_combination (-(s1 * s2)) * Complex.I_sq | ring

theorem pair_matrix {k0 : ℝ} {H L : Spec.Film} (hH : Spec.QuarterWave k0 H) (hL : Spec.QuarterWave k0 L) :
    ∃ e : ℂ, ‖e‖ = 1 ∧ ∀ Y : Spec.Film → ℂ, Spec.filmMatrix k0 Y H * Spec.filmMatrix k0 Y L = e • !![Y L / Y H, 0; 0, Y H / Y L] := by
  obtain ⟨e, he, h1⟩ := quarter_wave hH
  obtain ⟨e', he', h2⟩ := quarter_wave hL
  refine ⟨e * e', by rw [norm_mul, he, he', one_mul], fun Y => ?_⟩
  rw [h1, h2, Matrix.smul_mul, Matrix.mul_smul, smul_smul]
  congr 1
  ext i j
  fin_cases i <;> fin_cases j <;> simp [Matrix.mul_apply, Fin.sum_univ_two, div_eq_mul_inv, mul_comm]

theorem pairs_matrix {k0 : ℝ} {H L : Spec.Film} (hH : Spec.QuarterWave k0 H) (hL : Spec.QuarterWave k0 L) (N : ℕ) :
    ∃ e : ℂ, ‖e‖ = 1 ∧ ∀ Y : Spec.Film → ℂ, Spec.stackMatrix k0 Y (Spec.pairs H L N) = e • !![(Y L / Y H) ^ N, 0; 0, (Y H / Y L) ^ N] := by
  obtain ⟨e, he, h1⟩ := pair_matrix hH hL
  refine ⟨e ^ N, by rw [norm_pow, he, one_pow], fun Y => ?_⟩
  induction N with
  | zero =>
    simp only [Spec.pairs, Spec.stackMatrix, List.replicate_zero, List.flatten_nil, List.map_nil, List.prod_nil, pow_zero, one_smul]
    ext i j
    fin_cases i <;> fin_cases j <;> simp
  | succ n ih =>
    have : Spec.pairs H L (n + 1) = H :: L :: Spec.pairs H L n := by simp [Spec.pairs, List.replicate_succ]
    rw [this, stack_cons, stack_cons, ← Matrix.mul_assoc, h1, ih, Matrix.smul_mul, Matrix.mul_smul, smul_smul, pow_succ' e]
    congr 1
    ext i j
    fin_cases i <;> fin_cases j <;> simp [Matrix.mul_apply, Fin.sum_univ_two, pow_succ']

/-! ### Quarter-wave films and stacks between lossless media -/

theorem quarter_reflectance {y0 y1 a : ℝ} {Y : ℂ} (h0 : 0 < y0) (h1 : 0 < y1) (ha : 0 < a) (hY : Y ^ 2 = a) :
    Spec.filmReflectance y0 y1 !![0, 1 / Y; Y, 0] = ((y0 * y1 - a) / (y0 * y1 + a)) ^ 2 := by
  have hn : Y ≠ 0 := by rintro rfl; simp at hY; exact ha.ne' (by exact_mod_cast hY.symm)
  have e : Spec.filmR y0 y1 !![0, 1 / Y; Y, 0] = (((y0 * y1 - a) / (y0 * y1 + a) : ℝ) : ℂ) := by
    unfold Spec.filmR
    simp only [of_apply, cons_val', cons_val_zero, cons_val_one, cons_val_fin_one, zero_add, add_zero, zero_mul]
    push_cast
    rw [← hY, show (y0 : ℂ) * (1 / Y * y1) - Y = (y0 * y1 - Y ^ 2) / Y by field_simp,
      show (y0 : ℂ) * (1 / Y * y1) + Y = (y0 * y1 + Y ^ 2) / Y by field_simp, div_div_div_cancel_right₀ hn]
  unfold Spec.filmReflectance
  rw [e, Complex.norm_real, Real.norm_eq_abs, sq_abs]

theorem quarter_transmittance {y0 y1 a : ℝ} {Y : ℂ} (h0 : 0 < y0) (h1 : 0 < y1) (ha : 0 < a) (hY : Y ^ 2 = a) :
    Spec.filmTransmittance y0 y1 !![0, 1 / Y; Y, 0] = 4 * (y0 * y1) * a / (y0 * y1 + a) ^ 2 := by
  have hn : Y ≠ 0 := by rintro rfl; simp at hY; exact ha.ne' (by exact_mod_cast hY.symm)
  have hN : ‖Y‖ ^ 2 = a := by rw [← norm_pow, hY, Complex.norm_real, Real.norm_eq_abs, abs_of_pos ha]
  have e : Spec.filmT y0 y1 !![0, 1 / Y; Y, 0] = ((2 * y0 / (y0 * y1 + a) : ℝ) : ℂ) * Y := by
    unfold Spec.filmT
    simp only [of_apply, cons_val', cons_val_zero, cons_val_one, cons_val_fin_one, zero_add, add_zero, zero_mul]
    push_cast
    rw [← hY, show (y0 : ℂ) * (1 / Y * y1) + Y = (y0 * y1 + Y ^ 2) / Y by field_simp]
    rw [div_div_eq_mul_div, div_mul_eq_mul_div]
  unfold Spec.filmTransmittance
  rw [e, norm_mul, mul_pow, hN, Complex.norm_real, Real.norm_eq_abs, sq_abs, Complex.ofReal_re, Complex.ofReal_re]
  have : y0 * y1 + a ≠ 0 := by positivity
  field_simp
  ring

theorem mirror_reflectance {y0 y1 g : ℝ} {p q : ℂ} (h0 : 0 < y0) (h1 : 0 < y1) (hg : 0 < g) (hpq : p * q = 1) (hq : q ^ 2 = g) :
    Spec.filmReflectance y0 y1 !![p, 0; 0, q] = ((y0 - g * y1) / (y0 + g * y1)) ^ 2 := by
  have hn : q ≠ 0 := by rintro rfl; simp at hpq
  have e : Spec.filmR y0 y1 !![p, 0; 0, q] = (((y0 - g * y1) / (y0 + g * y1) : ℝ) : ℂ) := by
    unfold Spec.filmR
    simp only [of_apply, cons_val', cons_val_zero, cons_val_one, cons_val_fin_one, zero_add, add_zero, zero_mul]
    push_cast
    rw [← hq, ← mul_div_mul_right _ _ hn,
      show ((y0 : ℂ) * p - q * y1) * q = y0 - q ^ 2 * y1 by linear_combination (y0 : ℂ) * hpq,
      show ((y0 : ℂ) * p + q * y1) * q = y0 + q ^ 2 * y1 by linear_combination (y0 : ℂ) * hpq]
  unfold Spec.filmReflectance
  rw [e, Complex.norm_real, Real.norm_eq_abs, sq_abs]

theorem mirror_transmittance {y0 y1 g : ℝ} {p q : ℂ} (h0 : 0 < y0) (h1 : 0 < y1) (hg : 0 < g) (hpq : p * q = 1) (hq : q ^ 2 = g) :
    Spec.filmTransmittance y0 y1 !![p, 0; 0, q] = 4 * y0 * (g * y1) / (y0 + g * y1) ^ 2 := by
  have hn : q ≠ 0 := by rintro rfl; simp at hpq
  have hN : ‖q‖ ^ 2 = g := by rw [← norm_pow, hq, Complex.norm_real, Real.norm_eq_abs, abs_of_pos hg]
  have e : Spec.filmT y0 y1 !![p, 0; 0, q] = ((2 * y0 / (y0 + g * y1) : ℝ) : ℂ) * q := by
    unfold Spec.filmT
    simp only [of_apply, cons_val', cons_val_zero, cons_val_one, cons_val_fin_one, zero_add, add_zero, zero_mul]
    push_cast
    rw [← hq, ← mul_div_mul_right _ _ hn,
      show ((y0 : ℂ) * p + q * y1) * q = y0 + q ^ 2 * y1 by linear_combination (y0 : ℂ) * hpq, div_mul_eq_mul_div]
  unfold Spec.filmTransmittance
  rw [e, norm_mul, mul_pow, hN, Complex.norm_real, Real.norm_eq_abs, sq_abs, Complex.ofReal_re, Complex.ofReal_re]
  have : y0 + g * y1 ≠ 0 := by positivity
  field_simp
  ring

/-! ### Lossless films -/

/-- What the characteristic matrices of lossless films have in common. -/
structure LosslessMatrix (M : Matrix (Fin 2) (Fin 2) ℂ) : Prop where
  m00 : star (M 0 0) = M 0 0
  m11 : star (M 1 1) = M 1 1
  m01 : star (M 0 1) = -M 0 1
  m10 : star (M 1 0) = -M 1 0
  det : M 0 0 * M 1 1 - M 0 1 * M 1 0 = 1

theorem LosslessMatrix.mul {M N : Matrix (Fin 2) (Fin 2) ℂ} (h : LosslessMatrix M) (k : LosslessMatrix N) : LosslessMatrix (M * N) := by
  obtain ⟨a, b, c, d, e⟩ := h
  obtain ⟨a', b', c', d', e'⟩ := k
  constructor <;> simp only [Matrix.mul_apply, Fin.sum_univ_two, star_add, star_mul, a, b, c, d, a', b', c', d']
  · ring
  · ring
  · ring
  · ring
  · linear_combination (N 0 0 * N 1 1 - N 0 1 * N 1 0) * e + e'

theorem lossless_film {k0 : ℝ} {Y : Spec.Film → ℂ} {f : Spec.Film} {σ : ℂ} (hσ : σ = 1 ∨ σ = -1) (hk : star f.kz = σ * f.kz)
    (hY : star (Y f) = σ * Y f) (h0 : Y f ≠ 0) : LosslessMatrix (Spec.filmMatrix k0 Y f) := by
  have hδ : star ((k0 : ℂ) * f.kz * f.d) = σ * (k0 * f.kz * f.d) := by
    simp only [star_mul, hk]
    rw [show star (k0 : ℂ) = k0 from Complex.conj_ofReal _, show star (f.d : ℂ) = f.d from Complex.conj_ofReal _]
    ring
  have hc : star (Complex.cos (k0 * f.kz * f.d)) = Complex.cos (k0 * f.kz * f.d) := by
    rw [show star (Complex.cos (k0 * f.kz * f.d)) = Complex.cos (star ((k0 : ℂ) * f.kz * f.d)) from (Complex.cos_conj _).symm, hδ]
    rcases hσ with rfl | rfl
    · rw [one_mul]
    · rw [neg_one_mul, Complex.cos_neg]
  have hs : star (Complex.sin (k0 * f.kz * f.d)) = σ * Complex.sin (k0 * f.kz * f.d) := by
    rw [show star (Complex.sin (k0 * f.kz * f.d)) = Complex.sin (star ((k0 : ℂ) * f.kz * f.d)) from (Complex.sin_conj _).symm, hδ]
    rcases hσ with rfl | rfl
    · rw [one_mul, one_mul]
    · rw [neg_one_mul, neg_one_mul, Complex.sin_neg]
  have hI : star Complex.I = -Complex.I := Complex.conj_I
  have hσ2 : σ * σ = 1 := by rcases hσ with rfl | rfl <;> norm_num
  have hσ0 : σ ≠ 0 := by rintro rfl; simp at hσ2
  unfold Spec.filmMatrix
  constructor <;> simp only [of_apply, cons_val', cons_val_zero, cons_val_one, cons_val_fin_one, star_mul, star_div₀, hc, hs, hI, hY]
  · field_simp
  · linear_combination (-(Complex.sin (k0 * f.kz * f.d) * Y f * Complex.I)) * hσ2
  · have := Complex.sin_sq_add_cos_sq (k0 * f.kz * f.d)
    field_simp
    linear_combination this - (Complex.sin (k0 * f.kz * f.d) ^ 2) * Complex.I_sq

theorem lossless_stack {k0 : ℝ} {Y : Spec.Film → ℂ} {fs : List Spec.Film} (h : ∀ f ∈ fs, LosslessMatrix (Spec.filmMatrix k0 Y f)) :
    LosslessMatrix (Spec.stackMatrix k0 Y fs) := by
  induction fs with
  | nil => constructor <;> simp [Spec.stackMatrix]
  | cons f fs ih =>
    rw [stack_cons]
    exact (h f (by simp)).mul (ih fun g hg => h g (by simp [hg]))

/-- Above a lossless medium that only carries evanescent light, a lossless stack reflects everything. -/
theorem total_reflectance {y0 : ℝ} {Y₁ : ℂ} {M : Matrix (Fin 2) (Fin 2) ℂ} (hM : LosslessMatrix M) (h0 : 0 < y0) (h1 : star Y₁ = -Y₁) :
    Spec.filmReflectance y0 Y₁ M = 1 := by
  obtain ⟨a, b, c, d, e⟩ := hM
  unfold Spec.filmReflectance Spec.filmR
  simp only
  set B := M 0 0 + M 0 1 * Y₁ with hB
  set C := M 1 0 + M 1 1 * Y₁ with hC
  have sB : star B = B := by rw [hB, star_add, star_mul, a, c, h1]; ring
  have sC : star C = -C := by rw [hC, star_add, star_mul, b, d, h1]; ring
  have hs : star ((y0 : ℂ) * B + C) = y0 * B - C := by
    rw [star_add, star_mul, sB, sC, show star (y0 : ℂ) = y0 from Complex.conj_ofReal _]; ring
  have hne : (y0 : ℂ) * B + C ≠ 0 := by
    intro h
    have h2 : (y0 : ℂ) * B - C = 0 := by rw [← hs, h, star_zero]
    have hy : (y0 : ℂ) ≠ 0 := by exact_mod_cast h0.ne'
    have hB0 : B = 0 := by
      have : (2 * y0 : ℂ) * B = 0 := by linear_combination h + h2
      exact (mul_eq_zero.mp this).resolve_left (mul_ne_zero two_ne_zero hy)
    have hC0 : C = 0 := by linear_combination h - (y0 : ℂ) * hB0
    have k1 : M 0 0 * C - M 1 0 * B = Y₁ := by rw [hB, hC]; linear_combination Y₁ * e
    have k2 : M 1 1 * B - M 0 1 * C = 1 := by rw [hB, hC]; linear_combination e
    rw [hB0, hC0] at k2
    simp at k2
  rw [norm_div, ← hs, norm_star, div_self (norm_ne_zero_iff.mpr hne), one_pow]

end Meent
