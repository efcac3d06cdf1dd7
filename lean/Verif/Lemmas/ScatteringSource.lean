import Verif.Model.ScatteringSource
import Verif.Lemmas.ScatteringEnergy2D

/-!
# Sources of the 2D scattering functions (helper lemmas)
-/

open Matrix

namespace Meent

/-- The index of the zero order. -/
def zeroFlat (fx fy : ℕ) : FlatIdx fx fy := finProdFinEquiv (⟨fy, by omega⟩, ⟨fx, by omega⟩)

theorem delta_eq (fx fy : ℕ) : delta_vector (2 * fy + 1) (2 * fx + 1) = Pi.single (zeroFlat fx fy) 1 := by
  have hv : (zeroFlat fx fy : ℕ) = fx + (2 * fx + 1) * fy := rfl
  funext i
  unfold delta_vector
  rw [Pi.single_apply]
  have h1 : (2 * fy + 1) / 2 = fy := by omega
  have h2 : (2 * fx + 1) / 2 = fx := by omega
  rw [h1, h2]
  refine if_congr ?_ rfl rfl
  have h3 : fy * (2 * fx + 1) + fx = fx + (2 * fx + 1) * fy := by ring
  rw [Fin.ext_iff, hv, h3]

theorem zeroFlat_mod (fx fy : ℕ) : (zeroFlat fx fy).modNat = ⟨fx, by omega⟩ := by
  have h : finProdFinEquiv.symm (zeroFlat fx fy) = (⟨fy, by omega⟩, ⟨fx, by omega⟩) := Equiv.symm_apply_apply _ _
  exact congrArg Prod.snd h

theorem zeroFlat_div (fx fy : ℕ) : (zeroFlat fx fy).divNat = ⟨fy, by omega⟩ := by
  have h : finProdFinEquiv.symm (zeroFlat fx fy) = (⟨fy, by omega⟩, ⟨fx, by omega⟩) := Equiv.symm_apply_apply _ _
  exact congrArg Prod.fst h

/-- The wave vector of the incident light. -/
noncomputable def kInc (n θ φ : ℝ) : Fin 3 → ℂ :=
  ![(n : ℂ) * (Complex.sin θ * Complex.cos φ), (n : ℂ) * (Complex.sin θ * Complex.sin φ), (n : ℂ) * Complex.cos θ]

theorem ate_eq {n θ φ : ℝ} (hn : 0 < n) (hθ : 0 < Real.sin θ) : normalized (crossProduct (kInc n θ φ) ![0, 0, 1]) = ![Complex.sin φ, -Complex.cos φ, 0] := by
  have hs : (0 : ℝ) < n * Real.sin θ := mul_pos hn hθ
  have hc : crossProduct (kInc n θ φ) ![0, 0, 1] = ![((n * Real.sin θ : ℝ) : ℂ) * (Real.sin φ : ℝ), ((n * Real.sin θ : ℝ) : ℂ) * (-Real.cos φ : ℝ), 0] := by
    rw [cross_apply]
    funext i
    fin_cases i <;> simp [kInc] <;> ring
  have hnorm : Real.sqrt (∑ j, ‖crossProduct (kInc n θ φ) ![0, 0, 1] j‖ ^ 2) = n * Real.sin θ := by
    rw [hc, Fin.sum_univ_three]
    simp only [cons_val_zero, cons_val_one, cons_val, norm_mul, Complex.norm_real, Real.norm_eq_abs, norm_zero, mul_pow, sq_abs]
    rw [show n ^ 2 * Real.sin θ ^ 2 * Real.sin φ ^ 2 + n ^ 2 * Real.sin θ ^ 2 * (-Real.cos φ) ^ 2 + 0 ^ 2 = (n * Real.sin θ) ^ 2 * (Real.sin φ ^ 2 + Real.cos φ ^ 2) by ring,
      Real.sin_sq_add_cos_sq, mul_one, Real.sqrt_sq hs.le]
  have h0 : ((n * Real.sin θ : ℝ) : ℂ) ≠ 0 := by exact_mod_cast hs.ne'
  unfold normalized
  rw [hnorm, hc]
  funext i
  fin_cases i
  · simp only [Fin.zero_eta, cons_val_zero]
    rw [mul_div_cancel_left₀ _ h0, Complex.ofReal_sin]
  · simp only [Fin.mk_one, cons_val_one, cons_val_zero]
    rw [mul_div_cancel_left₀ _ h0, Complex.ofReal_neg, Complex.ofReal_cos]
  · simp

theorem atm_eq {n θ φ : ℝ} (hn : 0 < n) : normalized (crossProduct ![Complex.sin φ, -Complex.cos φ, 0] (kInc n θ φ)) =
    ![-(Complex.cos θ * Complex.cos φ), -(Complex.cos θ * Complex.sin φ), Complex.sin θ] := by
  have hsc : Complex.sin φ ^ 2 + Complex.cos φ ^ 2 = 1 := Complex.sin_sq_add_cos_sq _
  have hc : crossProduct ![Complex.sin φ, -Complex.cos φ, 0] (kInc n θ φ) =
      ![(n : ℂ) * (-(Real.cos θ * Real.cos φ) : ℝ), (n : ℂ) * (-(Real.cos θ * Real.sin φ) : ℝ), (n : ℂ) * (Real.sin θ : ℝ)] := by
    rw [cross_apply]
    funext i
    fin_cases i
    · simp [kInc]; ring
    · simp [kInc]; ring
    · simp [kInc]; linear_combination (n : ℂ) * Complex.sin θ * hsc
  have hnorm : Real.sqrt (∑ j, ‖crossProduct ![Complex.sin φ, -Complex.cos φ, 0] (kInc n θ φ) j‖ ^ 2) = n := by
    rw [hc, Fin.sum_univ_three]
    simp only [cons_val_zero, cons_val_one, cons_val, norm_mul, Complex.norm_real, Real.norm_eq_abs, mul_pow, sq_abs]
    have h1 := Real.sin_sq_add_cos_sq θ
    have h2 := Real.sin_sq_add_cos_sq φ
    rw [show n ^ 2 * (-(Real.cos θ * Real.cos φ)) ^ 2 + n ^ 2 * (-(Real.cos θ * Real.sin φ)) ^ 2 + n ^ 2 * Real.sin θ ^ 2 = n ^ 2 by
      linear_combination n ^ 2 * Real.cos θ ^ 2 * h2 + n ^ 2 * h1, Real.sqrt_sq hn.le]
  have h0 : (n : ℂ) ≠ 0 := by exact_mod_cast hn.ne'
  unfold normalized
  rw [hnorm, hc]
  funext i
  fin_cases i
  · simp only [Fin.zero_eta, cons_val_zero]
    rw [mul_div_cancel_left₀ _ h0]; push_cast; rfl
  · simp only [Fin.mk_one, cons_val_one, cons_val_zero]
    rw [mul_div_cancel_left₀ _ h0]; push_cast; rfl
  · simp only [Fin.reduceFinMk, cons_val]
    rw [mul_div_cancel_left₀ _ h0, Complex.ofReal_sin]

theorem polarization_eq {n θ φ : ℝ} (hn : 0 < n) (h0 : θ ≠ 0) (hθ : 0 < Real.sin θ) (pte ptm : ℂ) (P Q : ℕ) :
    (initial_conditions (kInc n θ φ) θ ![0, 0, 1] pte ptm P Q).1 =
      ![pte * Complex.sin φ - ptm * (Complex.cos θ * Complex.cos φ), -pte * Complex.cos φ - ptm * (Complex.cos θ * Complex.sin φ), ptm * Complex.sin θ] := by
  have h0' : (θ : ℂ) ≠ 0 := by exact_mod_cast h0
  unfold initial_conditions
  dsimp only
  rw [if_pos h0', ate_eq hn hθ, atm_eq hn]
  funext i
  fin_cases i
  · simp; ring
  · simp; ring
  · simp

theorem source_eq (K nv : Fin 3 → ℂ) (θ pte ptm : ℂ) (P Q : ℕ) :
    (initial_conditions K θ nv pte ptm P Q).2 = Sum.elim (Pi.single (zeroFlat Q P) ((initial_conditions K θ nv pte ptm P Q).1 0))
      (Pi.single (zeroFlat Q P) ((initial_conditions K θ nv pte ptm P Q).1 1)) := by
  have hd := delta_eq Q P
  have hp : ∀ (z : ℂ) (i : FlatIdx Q P), z * (Pi.single (zeroFlat Q P) 1 : FlatIdx Q P → ℂ) i = (Pi.single (zeroFlat Q P) z : FlatIdx Q P → ℂ) i := by
    intro z i
    rw [Pi.single_apply, Pi.single_apply]
    split <;> simp
  unfold initial_conditions
  dsimp only
  rw [hd]
  simp only [hp]

/-- A half space has independent modes if all its orders have wave numbers along x and y. -/
theorem homogeneous_isUnit {m : Type} [Fintype m] [DecidableEq m] {kx ky : m → ℂ} {e : ℂ} (he : e ≠ 0) (h0 : ∀ i, kx i * ky i ≠ 0) (hz : ∀ i, Spec.depthWave e kx ky i ≠ 0)
    (hs : ∀ i, Spec.depthWave e kx ky i ^ 2 = e - kx i ^ 2 - ky i ^ 2) : ∃ V, homogeneous_module kx ky e = .ok (V, Spec.depthWave e kx ky) ∧ IsUnit V.det := by
  refine ⟨_, homogeneous_module_value he h0 hz, ?_⟩
  set D := diagonal (Sum.elim (fun i => (Complex.I * Spec.depthWave e kx ky i)⁻¹) fun i => (Complex.I * Spec.depthWave e kx ky i)⁻¹) with hD
  refine isUnit_det_of_right_inverse (B := e⁻¹ • (-omegaR kx ky (Spec.constant m e) * D)) ?_
  rw [omegaR_constant, hD, ← fromBlocks_diagonal, fromBlocks_multiply, Matrix.mul_smul, fromBlocks_multiply, fromBlocks_smul, ← fromBlocks_one]
  simp only [diagonal_mul_diagonal, Matrix.mul_zero, add_zero, zero_add, diagonal_add, ← diagonal_smul]
  rw [← diagonal_one, ← diagonal_zero]
  have hI := Complex.I_sq
  have hi : ∀ i, (Complex.I * Spec.depthWave e kx ky i)⁻¹ ^ 2 * (e - kx i ^ 2 - ky i ^ 2) = -1 := by
    intro i
    rw [← hs i, inv_pow, mul_pow, hI, neg_one_mul, inv_neg, neg_mul, inv_mul_cancel₀ (pow_ne_zero 2 (hz i))]
  congr 1 <;> congr 1 <;> funext i <;> simp only [Pi.smul_apply, smul_eq_mul]
  · have := hi i
    generalize (Complex.I * Spec.depthWave e kx ky i)⁻¹ = d at *
    linear_combination -(e⁻¹ * e) * this + inv_mul_cancel₀ he
  · ring
  · ring
  · have := hi i
    generalize (Complex.I * Spec.depthWave e kx ky i)⁻¹ = d at *
    linear_combination -(e⁻¹ * e) * this + inv_mul_cancel₀ he

end Meent
