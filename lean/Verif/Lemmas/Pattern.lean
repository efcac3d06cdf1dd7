import Verif.Spec.Pattern
import Verif.Lemmas.Shift
import Verif.Props.C19
import Verif.Props.C35
import Verif.Props.C36
import Mathlib.MeasureTheory.Integral.IntervalIntegral.Periodic

/-!
# Fourier coefficients of displaced patterns (helper lemmas)
-/

open Matrix

namespace Meent

set_option linter.unusedSectionVars false
set_option linter.unusedSimpArgs false
set_option linter.unusedVariables false

theorem coeff_const_mul (a : ℂ) (g : ℝ → ℂ) (p : ℝ) (m : ℤ) : Spec.fourierCoeffOn (fun t => a * g t) p m = a * Spec.fourierCoeffOn g p m := by
  unfold Spec.fourierCoeffOn
  simp only [mul_assoc a]
  rw [intervalIntegral.integral_const_mul]
  ring

theorem coeff_shift {G : ℝ → ℂ} {p : ℝ} (hp : 0 < p) (hG : ∀ t, G (t + p) = G t) (d : ℝ) (m : ℤ) :
    Spec.fourierCoeffOn (fun t => G (t - d)) p m = Complex.exp (-(2 * Real.pi * Complex.I * d / p)) ^ m * Spec.fourierCoeffOn G p m := by
  unfold Spec.fourierCoeffOn
  have hp' : (p : ℂ) ≠ 0 := by exact_mod_cast hp.ne'
  have e1 : ∀ t : ℝ, G (t - d) * Complex.exp (-(2 * Real.pi * Complex.I * (m : ℂ) * (t : ℂ) / (p : ℂ)))
      = (fun u : ℝ => Complex.exp (-(2 * Real.pi * Complex.I * d / p)) ^ m * (G u * Complex.exp (-(2 * Real.pi * Complex.I * (m : ℂ) * (u : ℂ) / (p : ℂ))))) (t - d) := by
    intro t
    simp only
    rw [← Complex.exp_int_mul, mul_left_comm, ← Complex.exp_add]
    congr 2
    push_cast
    field_simp
    ring
  simp only [e1]
  rw [intervalIntegral.integral_comp_sub_right (fun u : ℝ => Complex.exp (-(2 * Real.pi * Complex.I * d / p)) ^ m * (G u * Complex.exp (-(2 * Real.pi * Complex.I * (m : ℂ) * (u : ℂ) / (p : ℂ)))))]
  have hper : Function.Periodic (fun u : ℝ => Complex.exp (-(2 * Real.pi * Complex.I * d / p)) ^ m * (G u * Complex.exp (-(2 * Real.pi * Complex.I * (m : ℂ) * (u : ℂ) / (p : ℂ))))) p := by
    intro u
    simp only [hG]
    congr 2
    rw [show -(2 * Real.pi * Complex.I * (m : ℂ) * ((u + p : ℝ) : ℂ) / (p : ℂ)) = -(2 * Real.pi * Complex.I * (m : ℂ) * (u : ℂ) / (p : ℂ)) - m * (2 * Real.pi * Complex.I) by
      push_cast; field_simp; ring]
    rw [Complex.exp_periodic.sub_int_mul_eq]
  have := hper.intervalIntegral_add_eq (0 - d) 0
  rw [show 0 - d + p = p - d by ring, zero_add] at this
  rw [this, intervalIntegral.integral_const_mul]
  ring

/-- The phase of a displacement by `d` in a period `p`. -/
noncomputable def moveW (d p : ℝ) : ℂ := (Complex.exp (-(2 * Real.pi * Complex.I * d / p)))⁻¹

theorem toeplitz_shift {G : ℝ → ℂ} {p : ℝ} (hp : 0 < p) (hG : ∀ t, G (t + p) = G t) (d : ℝ) (fy : ℕ) :
    Spec.toeplitzOn fy (fun t => G (t - d)) p
      = gConj (fun r : Fin (2 * fy + 1) => moveW d p ^ ((r.val : ℤ) - fy)) (Spec.toeplitzOn fy G p) := by
  ext r c
  rw [gConj_apply]
  simp only [Spec.toeplitzOn, of_apply]
  rw [coeff_shift hp hG]
  unfold moveW
  set w := Complex.exp (-(2 * Real.pi * Complex.I * d / p)) with hw
  have hw0 : w ≠ 0 := Complex.exp_ne_zero _
  rw [show (c.val : ℤ) - (r.val : ℤ) = -((r.val : ℤ) - fy) + ((c.val : ℤ) - fy) by ring, zpow_add₀ hw0, _root_.inv_zpow', _root_.inv_zpow', _root_.zpow_neg w ((c.val : ℤ) - fy), inv_inv]
  ring

theorem gConj_inv' {n : Type} [Fintype n] [DecidableEq n] {D : n → ℂ} (hD : ∀ i, D i ≠ 0) (A : Matrix n n ℂ) : (gConj D A)⁻¹ = gConj D A⁻¹ := by
  by_cases hA : IsUnit A.det
  · exact gConj_inv hD hA
  · rw [nonsing_inv_apply_not_isUnit _ hA, nonsing_inv_apply_not_isUnit _ (by rwa [gConj_det hD])]
    ext i j
    rw [gConj_apply]
    simp

theorem moveW_ne (d p : ℝ) : moveW d p ≠ 0 := inv_ne_zero (Complex.exp_ne_zero _)

theorem exp_moveW (d p : ℝ) (m n : ℤ) : Complex.exp (-(2 * Real.pi * Complex.I * d / p)) ^ (m - n) = moveW d p ^ n * (moveW d p ^ m)⁻¹ := by
  have h := Complex.exp_ne_zero (-(2 * Real.pi * Complex.I * d / p))
  unfold moveW
  rw [zpow_sub₀ h, _root_.inv_zpow, _root_.inv_zpow, inv_inv]
  field_simp

theorem conv_displaced {fx fy : ℕ} {E : ℝ → ℝ → ℂ} {P Q : ℝ} (hP : 0 < P) (hQ : 0 < Q) (hy : ∀ y x, E (y + Q) x = E y x) (hx : ∀ y x, E y (x + P) = E y x)
    (dx dy : ℝ) {c c' : Conv (FlatIdx fx fy)} (h : Spec.ContinuousConv E Q P c) (h' : Spec.ContinuousConv (fun y x => E (y - dy) (x - dx)) Q P c') :
    c' = c.gauge (shiftD (moveW dx P) (moveW dy Q)) := by
  have hD := shiftD_ne (fx := fx) (fy := fy) (moveW_ne dx P) (moveW_ne dy Q)
  have hDy : ∀ r : Fin (2 * fy + 1), moveW dy Q ^ ((r.val : ℤ) - fy) ≠ 0 := fun r => zpow_ne_zero _ (moveW_ne _ _)
  -- one entry
  have key : ∀ (g : ℂ → ℂ) (r k : FlatIdx fx fy),
      Spec.fourierCoeffOn (fun t => (Spec.toeplitzOn fy (fun v => g (E (v - dy) (t - dx))) Q)⁻¹ (Spec.rowOf r) (Spec.rowOf k)) P (Spec.orderX k - Spec.orderX r)
        = shiftD (moveW dx P) (moveW dy Q) r * Spec.fourierCoeffOn (fun t => (Spec.toeplitzOn fy (fun v => g (E v t)) Q)⁻¹ (Spec.rowOf r) (Spec.rowOf k)) P
          (Spec.orderX k - Spec.orderX r) * (shiftD (moveW dx P) (moveW dy Q) k)⁻¹ := by
    intro g r k
    have e : ∀ t, (Spec.toeplitzOn fy (fun v => g (E (v - dy) (t - dx))) Q)⁻¹ (Spec.rowOf r) (Spec.rowOf k)
        = (moveW dy Q ^ (Spec.orderY r) * (moveW dy Q ^ (Spec.orderY k))⁻¹)
          * (fun u => (Spec.toeplitzOn fy (fun v => g (E v u)) Q)⁻¹ (Spec.rowOf r) (Spec.rowOf k)) (t - dx) := by
      intro t
      rw [toeplitz_shift (G := fun v => g (E v (t - dx))) hQ (fun v => by rw [hy]) dy fy, gConj_inv' hDy, gConj_apply]
      show moveW dy Q ^ (Spec.orderY r) * _ * (moveW dy Q ^ (Spec.orderY k))⁻¹ = _
      ring
    simp only [e]
    rw [coeff_const_mul, coeff_shift hP (G := fun u => (Spec.toeplitzOn fy (fun v => g (E v u)) Q)⁻¹ (Spec.rowOf r) (Spec.rowOf k)) (fun t => by simp only [hx]), exp_moveW]
    unfold shiftD
    rw [mul_inv]
    ring
  have hz : c'.epzi = gConj (shiftD (moveW dx P) (moveW dy Q)) c.epzi := by
    obtain ⟨z, z1, z2, z3⟩ := h.direct
    obtain ⟨z', z1', z2', z3'⟩ := h'.direct
    have e : z' = gConj (shiftD (moveW dx P) (moveW dy Q)) z := by
      ext r k
      rw [gConj_apply, z1, z1']
      unfold Spec.fourierCoeffOn2
      have e : ∀ t, Spec.fourierCoeffOn (fun v => E (v - dy) (t - dx)) Q (Spec.orderY k - Spec.orderY r)
          = (moveW dy Q ^ (Spec.orderY r) * (moveW dy Q ^ (Spec.orderY k))⁻¹)
            * (fun u => Spec.fourierCoeffOn (fun v => E v u) Q (Spec.orderY k - Spec.orderY r)) (t - dx) := by
        intro t
        rw [coeff_shift (G := fun v => E v (t - dx)) hQ (fun v => by rw [hy]) dy, exp_moveW]
      simp only [e]
      rw [coeff_const_mul, coeff_shift hP (G := fun u => Spec.fourierCoeffOn (fun v => E v u) Q (Spec.orderY k - Spec.orderY r)) (fun t => by simp only [hx]), exp_moveW]
      unfold shiftD
      rw [mul_inv]
      ring
    rw [z3', z3, e, gConj_inv hD z2]
  have hy' : c'.epy = gConj (shiftD (moveW dx P) (moveW dy Q)) c.epy := by
    ext r k
    rw [gConj_apply, h'.inverseY, h.inverseY, key fun z => 1 / z]
  have hx' : c'.epx = gConj (shiftD (moveW dx P) (moveW dy Q)) c.epx := by
    have e : c'.epx⁻¹ = gConj (shiftD (moveW dx P) (moveW dy Q)) c.epx⁻¹ := by
      ext r k
      rw [gConj_apply, h'.inverseX.2, h.inverseX.2, key fun z => z]
    rw [← nonsing_inv_nonsing_inv _ h'.inverseX.1, e, gConj_inv', nonsing_inv_nonsing_inv _ h.inverseX.1]
    exact hD
  obtain ⟨a, b, d⟩ := c'
  simp only at hz hy' hx'
  rw [hz, hy', hx']
  rfl

end Meent
