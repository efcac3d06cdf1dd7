import Verif.Model.Scattering2D
import Verif.Spec.Scattering2D
import Verif.Lemmas.Scattering
import Verif.Lemmas.ScatteringExample
import Verif.Lemmas.Diag
import Verif.Lemmas.Energy1D

/-!
# Modes for the scattering matrices of 2D problems (helper lemmas)
-/

open Matrix

namespace Meent

variable {m : Type} [Fintype m] [DecidableEq m]

theorem P_Q_kz_ok {kx ky : m → ℂ} {c : Conv m} {PQ : Matrix (m ⊕ m) (m ⊕ m) ℂ × Matrix (m ⊕ m) (m ⊕ m) ℂ} :
    P_Q_kz kx ky c = .ok PQ ↔ IsUnit c.epzi.det ∧
      PQ = (fromBlocks (diagonal kx * c.epzi * diagonal ky) (-diagonal kx * c.epzi * diagonal kx + 1) (diagonal ky * c.epzi * diagonal ky - 1)
        (-diagonal ky * c.epzi * diagonal kx), -omegaR kx ky c) := by
  have e : fromBlocks (diagonal kx * 1 * diagonal ky) (-diagonal kx * 1 * diagonal kx + c.epy) (-c.epx + diagonal ky * 1 * diagonal ky)
      (-diagonal ky * 1 * diagonal kx) = -omegaR kx ky c := by
    unfold omegaR
    dsimp only
    rw [fromBlocks_neg]
    have k1 : (diagonal fun i => kx i ^ 2) = diagonal kx * diagonal kx := by
      rw [diagonal_mul_diagonal]
      congr 1
      funext i
      ring
    have k2 : (diagonal fun i => ky i ^ 2) = diagonal ky * diagonal ky := by
      rw [diagonal_mul_diagonal]
      congr 1
      funext i
      ring
    rw [k1, k2]
    congr 1 <;> noncomm_ring
  unfold P_Q_kz
  simp only [Except.bind_ok, npInv_one, Except.ok.injEq, npInv_ok]
  constructor
  · rintro ⟨x, ⟨hu, -⟩, y, rfl, rfl⟩
    exact ⟨hu, by rw [e]⟩
  · rintro ⟨hu, rfl⟩
    exact ⟨_, ⟨hu, rfl⟩, 1, rfl, by rw [e]⟩

theorem P_mul_Q (kx ky : m → ℂ) (c : Conv m) :
    fromBlocks (diagonal kx * c.epzi * diagonal ky) (-diagonal kx * c.epzi * diagonal kx + 1) (diagonal ky * c.epzi * diagonal ky - 1)
        (-diagonal ky * c.epzi * diagonal kx) * -omegaR kx ky c = omega2LR kx ky c := by
  unfold omegaR omega2LR
  dsimp only
  have k1 : (diagonal fun i => kx i ^ 2) = diagonal kx * diagonal kx := by
    rw [diagonal_mul_diagonal]
    congr 1
    funext i
    ring
  have k2 : (diagonal fun i => ky i ^ 2) = diagonal ky * diagonal ky := by
    rw [diagonal_mul_diagonal]
    congr 1
    funext i
    ring
  have k3 : diagonal ky * diagonal kx = diagonal kx * diagonal ky := by
    rw [diagonal_mul_diagonal, diagonal_mul_diagonal]
    congr 1
    funext i
    ring
  rw [k1, k2, fromBlocks_neg, fromBlocks_multiply]
  generalize diagonal kx = X at *
  generalize diagonal ky = Y at *
  have k4 : ∀ Z, Y * (X * Z) = X * (Y * Z) := fun Z => by rw [← Matrix.mul_assoc, k3, Matrix.mul_assoc]
  congr 1 <;>
  · simp only [Matrix.mul_add, Matrix.add_mul, Matrix.mul_sub, Matrix.sub_mul, Matrix.mul_neg, Matrix.neg_mul, neg_neg, neg_sub, Matrix.mul_assoc, Matrix.one_mul, Matrix.mul_one, k3, k4]
    abel

theorem scattering_2d_wv_ok {la : LinAlg} {kx ky : m → ℂ} {c : Conv m} {M : Modes (m ⊕ m)} :
    scattering_2d_wv la kx ky c = .ok M ↔ IsUnit c.epzi.det ∧ transfer_2d_2 la kx ky c false = .ok { M with V := -M.V } := by
  unfold scattering_2d_wv transfer_2d_2
  simp only [Except.bind_ok, P_Q_kz_ok, meeinv_false_ok, npInv_ok, Except.ok.injEq]
  constructor
  · rintro ⟨PQ, ⟨hu, rfl⟩, L, ⟨hL, rfl⟩, rfl⟩
    simp only [P_mul_Q] at hL ⊢
    refine ⟨hu, _, ⟨hL, rfl⟩, ?_⟩
    simp
  · rintro ⟨hu, L, ⟨hL, rfl⟩, e⟩
    refine ⟨_, ⟨hu, rfl⟩, _, ⟨?_, rfl⟩, ?_⟩
    · simp only [P_mul_Q]
      exact hL
    · simp only [P_mul_Q]
      obtain ⟨W, V, q⟩ := M
      simp only [Modes.mk.injEq] at e ⊢
      refine ⟨e.1, ?_, e.2.2⟩
      rw [Matrix.neg_mul, Matrix.neg_mul, e.2.1, neg_neg]

/-- The curl equations as two matrix equations. -/
theorem curlMode_iff {kx ky : m → ℂ} {c : Conv m} {q : ℂ} {E H : m ⊕ m → ℂ} :
    Spec.CurlMode kx ky c q E H ↔ -omegaR kx ky c *ᵥ E = q • H ∧
      fromBlocks (diagonal kx * c.epzi * diagonal ky) (-diagonal kx * c.epzi * diagonal kx + 1) (diagonal ky * c.epzi * diagonal ky - 1)
        (-diagonal ky * c.epzi * diagonal kx) *ᵥ H = q • E := by
  have hd : ∀ (f g : m → ℂ), diagonal f *ᵥ g = fun i => f i * g i := fun f g => funext fun i => mulVec_diagonal f g i
  have hz : c.epzi *ᵥ (fun i => kx i * H (.inr i) - ky i * H (.inl i)) = c.epzi *ᵥ (fun i => kx i * H (.inr i)) - c.epzi *ᵥ (fun i => ky i * H (.inl i)) := by
    rw [← mulVec_sub]
    rfl
  have h1 : -omegaR kx ky c *ᵥ E = Sum.elim
      (fun i => (c.epy *ᵥ fun j => E (.inr j)) i - kx i * (kx i * E (.inr i) - ky i * E (.inl i)))
      (fun i => -(c.epx *ᵥ fun j => E (.inl j)) i - ky i * (kx i * E (.inr i) - ky i * E (.inl i))) := by
    unfold omegaR
    dsimp only
    rw [fromBlocks_neg, fromBlocks_mulVec]
    congr 1
    · funext i
      simp only [Matrix.neg_mul, neg_neg, neg_sub, sub_mulVec, ← mulVec_mulVec, hd, Pi.add_apply, Pi.sub_apply, Function.comp_def]
      ring
    · funext i
      simp only [neg_sub, sub_mulVec, neg_mulVec, ← mulVec_mulVec, hd, Pi.add_apply, Pi.sub_apply, Pi.neg_apply, Function.comp_def]
      ring
  have h2 : fromBlocks (diagonal kx * c.epzi * diagonal ky) (-diagonal kx * c.epzi * diagonal kx + 1) (diagonal ky * c.epzi * diagonal ky - 1)
        (-diagonal ky * c.epzi * diagonal kx) *ᵥ H = Sum.elim
      (fun i => H (.inr i) - kx i * (c.epzi *ᵥ (fun i => kx i * H (.inr i) - ky i * H (.inl i))) i)
      (fun i => -H (.inl i) - ky i * (c.epzi *ᵥ (fun i => kx i * H (.inr i) - ky i * H (.inl i))) i) := by
    rw [fromBlocks_mulVec, hz]
    congr 1
    · funext i
      simp only [Matrix.neg_mul, add_mulVec, neg_mulVec, one_mulVec, ← mulVec_mulVec, hd, Pi.add_apply, Pi.sub_apply, Pi.neg_apply, Function.comp_def]
      ring
    · funext i
      simp only [Matrix.neg_mul, sub_mulVec, neg_mulVec, one_mulVec, ← mulVec_mulVec, hd, Pi.add_apply, Pi.sub_apply, Pi.neg_apply, Function.comp_def]
      ring
  rw [h1, h2]
  constructor
  · rintro ⟨Ez, Hz, rfl, rfl, a1, a2, a3, a4⟩
    refine ⟨?_, ?_⟩
    · funext j
      rcases j with i | i
      · exact (a1 i).symm
      · exact (a2 i).symm
    · funext j
      rcases j with i | i
      · exact (a3 i).symm
      · exact (a4 i).symm
  · rintro ⟨a, b⟩
    exact ⟨_, _, rfl, rfl, fun i => (congrFun a (.inl i)).symm, fun i => (congrFun a (.inr i)).symm, fun i => (congrFun b (.inl i)).symm, fun i => (congrFun b (.inr i)).symm⟩

theorem col_mul (A W : Matrix (m ⊕ m) (m ⊕ m) ℂ) (j : m ⊕ m) : A *ᵥ (fun i => W i j) = fun i => (A * W) i j := rfl

theorem scattering_2d_wv_curl {la : LinAlg} {kx ky : m → ℂ} {c : Conv m} {M : Modes (m ⊕ m)} (h : scattering_2d_wv la kx ky c = .ok M) (j : m ⊕ m) :
    Spec.CurlMode kx ky c (M.q j) (fun i => M.W i j) (fun i => M.V i j) := by
  unfold scattering_2d_wv at h
  simp only [Except.bind_ok, P_Q_kz_ok, npInv_ok, Except.ok.injEq] at h
  obtain ⟨PQ, ⟨hu, rfl⟩, L, ⟨hL, rfl⟩, rfl⟩ := h
  rw [curlMode_iff, col_mul, col_mul]
  simp only at hL ⊢
  have hP := P_mul_Q kx ky c
  generalize fromBlocks (diagonal kx * c.epzi * diagonal ky) (-diagonal kx * c.epzi * diagonal kx + 1) (diagonal ky * c.epzi * diagonal ky - 1)
        (-diagonal ky * c.epzi * diagonal kx) = P at *
  generalize hQ : -omegaR kx ky c = Q at *
  have hl := la.eig_law (P * Q)
  set ew := la.eig (P * Q) with hew
  have hsq : diagonal ew.1 = (diagonal fun i => csqrt (ew.1 i)) * diagonal fun i => csqrt (ew.1 i) := by
    rw [diagonal_mul_diagonal]
    congr 1
    funext i
    rw [csqrt_mul_self]
  set D := (diagonal fun i => csqrt (ew.1 i)) with hD
  have hcol : ∀ (V : Matrix (m ⊕ m) (m ⊕ m) ℂ), (csqrt (ew.1 j) • fun i => V i j) = fun i => (V * D) i j := by
    intro V
    funext i
    rw [hD, mul_diagonal, Pi.smul_apply, smul_eq_mul, mul_comm]
  have e1 : Q * ew.2 * D⁻¹ * D = Q * ew.2 := by rw [Matrix.mul_assoc, nonsing_inv_mul _ hL, mul_one]
  have e2 : P * (Q * ew.2 * D⁻¹) = ew.2 * D := by
    rw [← Matrix.mul_assoc, ← Matrix.mul_assoc, hl, hsq, Matrix.mul_assoc, Matrix.mul_assoc, mul_nonsing_inv _ hL, mul_one]
  rw [hcol, hcol, e1, e2]
  exact ⟨rfl, rfl⟩

theorem omegaR_constant (kx ky : m → ℂ) (e : ℂ) : -omegaR kx ky (Spec.constant m e) = fromBlocks (diagonal fun i => kx i * ky i) (diagonal fun i => e - kx i ^ 2)
    (diagonal fun i => ky i ^ 2 - e) (diagonal fun i => -ky i * kx i) := by
  unfold omegaR Spec.constant
  dsimp only
  rw [fromBlocks_neg, Matrix.neg_mul, neg_neg, diagonal_mul_diagonal, diagonal_mul_diagonal, neg_sub, neg_sub, Matrix.diagonal_sub, Matrix.diagonal_sub, diagonal_neg]
  congr 2
  funext i
  simp

theorem omega2LR_constant (kx ky : m → ℂ) {e : ℂ} (he : e ≠ 0) :
    omega2LR kx ky (Spec.constant m e) = diagonal (Sum.elim (fun i => -(e - kx i ^ 2 - ky i ^ 2)) fun i => -(e - kx i ^ 2 - ky i ^ 2)) := by
  unfold omega2LR Spec.constant
  dsimp only
  simp only [← diagonal_one, diagonal_mul_diagonal, Matrix.diagonal_sub, diagonal_add]
  rw [← fromBlocks_diagonal]
  congr 1
  · congr 1
    funext i
    field_simp
    ring
  · rw [← diagonal_zero]
    congr 1
    funext i
    field_simp
    ring
  · rw [← diagonal_zero]
    congr 1
    funext i
    field_simp
    ring
  · congr 1
    funext i
    field_simp
    ring

/-- The modes of a half space solve the curl equations exactly where nothing was replaced on the diagonal of `Q`. -/
theorem homogeneous_module_curl {kx ky : m → ℂ} {e : ℂ} (he : e ≠ 0) (hk : ∀ i, star (csqrt (e - kx i ^ 2 - ky i ^ 2)) ^ 2 = e - kx i ^ 2 - ky i ^ 2)
    (hz : ∀ i, e - kx i ^ 2 - ky i ^ 2 ≠ 0) {x : Matrix (m ⊕ m) (m ⊕ m) ℂ × (m → ℂ)} (h : homogeneous_module kx ky e = .ok x) (i : m) (j : m ⊕ m)
    (hj : j = .inl i ∨ j = .inr i) :
    Spec.CurlMode kx ky (Spec.constant m e) (Complex.I * x.2 i) (Pi.single j 1) (fun a => x.1 a j) ↔ kx i * ky i ≠ 0 := by
  have hk0 : ∀ i, star (csqrt (e - kx i ^ 2 - ky i ^ 2)) ≠ 0 := fun i h0 => hz i (by rw [← hk, h0]; ring)
  unfold homogeneous_module at h
  dsimp only at h
  rw [smul_smul, mul_inv_cancel₀ he, one_smul] at h
  simp only [if_neg (hk0 _)] at h
  rw [← omegaR_constant] at h
  obtain ⟨D, hD, h⟩ := Except.bind_ok.mp h
  obtain ⟨-, rfl⟩ := npInv_ok.mp hD
  obtain rfl := Except.ok.inj h
  set κ := fun i => star (csqrt (e - kx i ^ 2 - ky i ^ 2)) with hκ
  have hκ0 : ∀ i, Complex.I * κ i ≠ 0 := fun i => mul_ne_zero Complex.I_ne_zero (hk0 i)
  have hP := P_mul_Q kx ky (Spec.constant m e)
  have hQjj : (-omegaR kx ky (Spec.constant m e)) j j = 0 ↔ kx i * ky i = 0 := by
    rw [omegaR_constant]
    rcases hj with rfl | rfl
    · rw [fromBlocks_apply₁₁, diagonal_apply_eq]
    · rw [fromBlocks_apply₂₂, diagonal_apply_eq, neg_mul, neg_eq_zero, mul_comm]
  rw [curlMode_iff]
  generalize fromBlocks (diagonal kx * (Spec.constant m e).epzi * diagonal ky) (-diagonal kx * (Spec.constant m e).epzi * diagonal kx + 1)
    (diagonal ky * (Spec.constant m e).epzi * diagonal ky - 1) (-diagonal ky * (Spec.constant m e).epzi * diagonal kx) = P at *
  generalize -omegaR kx ky (Spec.constant m e) = Q at *
  have hinv : (diagonal (Sum.elim (fun i => Complex.I * κ i) fun i => Complex.I * κ i))⁻¹
      = diagonal (fun a : m ⊕ m => (Sum.elim (fun i => Complex.I * κ i) (fun i => Complex.I * κ i) a)⁻¹) :=
    inv_diagonal' (by rintro (a | a) <;> exact hκ0 a)
  have hsj : Sum.elim (fun i => Complex.I * κ i) (fun i => Complex.I * κ i) j = Complex.I * κ i := by
    rcases hj with rfl | rfl <;> rfl
  rw [hinv]
  simp only [mul_diagonal, of_apply, hsj]
  have hq : (Complex.I * κ i) • (fun a => (if a = j ∧ Q a a = 0 then (1 / 10 ^ 10 : ℂ) else Q a j) * (Complex.I * κ i)⁻¹)
      = fun a => if a = j ∧ Q a a = 0 then (1 / 10 ^ 10 : ℂ) else Q a j := by
    funext a
    rw [Pi.smul_apply, smul_eq_mul, mul_comm (Complex.I * κ i), inv_mul_cancel_right₀ (hκ0 i)]
  rw [hq, mulVec_single_one]
  constructor
  · rintro ⟨h1, -⟩ h0
    have h2 := congrFun h1 j
    have h3 := hQjj.mpr h0
    rw [if_pos ⟨rfl, h3⟩] at h2
    have h4 : Q j j = 1 / 10 ^ 10 := h2
    rw [h3] at h4
    norm_num at h4
  · intro h0
    have h3 : ∀ a, ¬ (a = j ∧ Q a a = 0) := by
      rintro a ⟨rfl, h4⟩
      exact h0 (hQjj.mp h4)
    simp only [h3, if_false]
    refine ⟨rfl, ?_⟩
    have e1 : (fun a => Q a j * (Complex.I * κ i)⁻¹) = (Complex.I * κ i)⁻¹ • (Q *ᵥ Pi.single j 1) := by
      funext a
      rw [mulVec_single_one, Pi.smul_apply, smul_eq_mul, mul_comm]
      rfl
    rw [e1, mulVec_smul, mulVec_mulVec, hP, omega2LR_constant _ _ he]
    funext a
    rw [Pi.smul_apply, Pi.smul_apply, mulVec_diagonal, smul_eq_mul, smul_eq_mul]
    by_cases ha : a = j
    · subst ha
      rw [Pi.single_eq_same, mul_one, mul_one]
      have e2 : Sum.elim (fun i => -(e - kx i ^ 2 - ky i ^ 2)) (fun i => -(e - kx i ^ 2 - ky i ^ 2)) a = (Complex.I * κ i) ^ 2 := by
        rw [mul_pow, Complex.I_sq, hκ]
        dsimp only
        rw [hk]
        rcases hj with rfl | rfl <;> simp
      rw [e2, pow_two, inv_mul_cancel_left₀ (hκ0 i)]
    · rw [Pi.single_eq_of_ne ha, mul_zero, mul_zero, mul_zero]

end Meent
