import Verif.Lemmas.ScatteringEnergy2D

/-!
# The half spaces of the 2D scattering functions at normal incidence (helper lemmas)
-/

open Matrix

namespace Meent

variable {m : Type} [Fintype m] [DecidableEq m]

/-- A matrix that acts on circularly polarized fields as a number. -/
def circ (m : Type) [DecidableEq m] (p q : ℂ) : Matrix (m ⊕ m) (m ⊕ m) ℂ := fromBlocks (diagonal fun _ => p) (diagonal fun _ => q) (diagonal fun _ => -q) (diagonal fun _ => p)

theorem circ_mul (p q r s : ℂ) : circ m p q * circ m r s = circ m (p * r - q * s) (p * s + q * r) := by
  unfold circ
  rw [fromBlocks_multiply]
  simp only [diagonal_mul_diagonal, diagonal_add]
  congr 1 <;> congr 1 <;> funext i <;> ring

theorem circ_add (p q r s : ℂ) : circ m p q + circ m r s = circ m (p + r) (q + s) := by
  unfold circ
  rw [fromBlocks_add]
  simp only [diagonal_add]
  congr 2
  funext i
  ring

theorem circ_one : circ m 1 0 = 1 := by
  unfold circ
  rw [neg_zero, diagonal_one, diagonal_zero, fromBlocks_one]

theorem circ_isUnit {p q : ℂ} (h : p ^ 2 + q ^ 2 ≠ 0) : IsUnit (circ m p q).det := by
  refine isUnit_det_of_right_inverse (B := circ m (p / (p ^ 2 + q ^ 2)) (-q / (p ^ 2 + q ^ 2))) ?_
  rw [circ_mul, ← circ_one]
  congr 1
  · field_simp
    ring
  · field_simp
    ring

/-- A circularly polarized field. -/
noncomputable def circular (m : Type) (z : ℂ) : m ⊕ m → ℂ := Sum.elim (fun _ => z) fun _ => Complex.I * z

theorem circ_mulVec (p q z : ℂ) : circ m p q *ᵥ circular m z = circular m ((p + Complex.I * q) * z) := by
  unfold circ circular
  rw [fromBlocks_mulVec]
  funext j
  rcases j with i | i
  · simp only [Sum.elim_inl, Sum.elim_inr, Pi.add_apply, mulVec_diagonal, Function.comp]
    ring
  · simp only [Sum.elim_inl, Sum.elim_inr, Pi.add_apply, mulVec_diagonal, Function.comp]
    linear_combination -q * z * Complex.I_sq

omit [Fintype m] [DecidableEq m] in
theorem circular_add (y z : ℂ) : circular m y + circular m z = circular m (y + z) := by
  funext j
  rcases j with i | i <;> simp [circular, mul_add]

omit [Fintype m] [DecidableEq m] in
theorem circular_sub (y z : ℂ) : circular m y - circular m z = circular m (y - z) := by
  funext j
  rcases j with i | i <;> simp [circular, mul_sub]

omit [Fintype m] [DecidableEq m] in
theorem depthWave_normal {s : ℝ} (hs : 0 < s) (i : m) : Spec.depthWave ((s : ℂ) ^ 2) (fun _ => 0) (fun _ => 0) i = s := by
  unfold Spec.depthWave
  rw [show (s : ℂ) ^ 2 - 0 ^ 2 - 0 ^ 2 = (s : ℂ) ^ 2 by ring, csqrt_ofReal_sq hs.le, Complex.star_def, Complex.conj_ofReal]

theorem power_normal {s : ℝ} (hs : 0 < s) (z : ℂ) : Spec.power2D ((s : ℂ) ^ 2) (fun _ : m => 0) (fun _ => 0) (circular m z) = Fintype.card m * (2 * s * Complex.normSq z) := by
  unfold Spec.power2D circular
  simp only [depthWave_normal hs, Sum.elim_inl, Sum.elim_inr, zero_mul, add_zero, neg_zero, zero_div, norm_zero, norm_mul, Complex.norm_I, one_mul, Complex.ofReal_re,
    ← Complex.normSq_eq_norm_sq, Finset.sum_const, Finset.card_univ, nsmul_eq_mul]
  simp
  left
  ring

theorem homogeneous_module_normal {s : ℝ} (hs : 0 < s) :
    homogeneous_module (fun _ : m => 0) (fun _ => 0) ((s : ℂ) ^ 2) = .ok (circ m (-Complex.I * (1 / 10 ^ 10) / s) (-Complex.I * s), fun _ => (s : ℂ)) := by
  have hs0 : (s : ℂ) ≠ 0 := by exact_mod_cast hs.ne'
  have hk : star (csqrt ((s : ℂ) ^ 2 - 0 ^ 2 - 0 ^ 2)) = s := depthWave_normal hs (0 : Fin 1)
  have he : (Sum.elim (fun _ => Complex.I * (s : ℂ)) fun _ => Complex.I * (s : ℂ) : m ⊕ m → ℂ) = fun _ => Complex.I * (s : ℂ) := by
    funext j
    rcases j with i | i <;> rfl
  unfold homogeneous_module
  dsimp only
  rw [smul_smul, mul_inv_cancel₀ (pow_ne_zero 2 hs0), one_smul]
  simp only [hk, if_neg hs0]
  rw [he]
  have hu : IsUnit (diagonal fun _ : m ⊕ m => Complex.I * (s : ℂ)).det := by
    rw [det_diagonal, isUnit_iff_ne_zero, Finset.prod_ne_zero_iff]
    exact fun _ _ => mul_ne_zero Complex.I_ne_zero hs0
  refine Except.bind_ok.mpr ⟨_, npInv_ok.mpr ⟨hu, rfl⟩, ?_⟩
  rw [inv_diagonal' fun _ => mul_ne_zero Complex.I_ne_zero hs0]
  have hi : (Complex.I * (s : ℂ))⁻¹ = -Complex.I / s := by
    rw [mul_inv, Complex.inv_I]; ring
  simp only [hi]
  congr 2
  ext a b
  rw [mul_diagonal, of_apply]
  unfold circ
  rcases a with i | i <;> rcases b with j | j <;> by_cases hij : i = j <;> simp [hij] <;> field_simp

end Meent
