import Verif.Lemmas.Modes2D

/-!
# Two families of layer modes for the same layer (helper lemmas)
-/

open Matrix

namespace Meent

set_option linter.unusedSectionVars false
set_option linter.unusedSimpArgs false

variable {m : Type} [Fintype m] [DecidableEq m]

/-- Principal branch. -/
def OnBranch {n : Type} (q : n → ℂ) : Prop := ∀ i, csqrt (q i ^ 2) = q i

theorem csqrt_csqrt_sq (z : ℂ) : csqrt (csqrt z ^ 2) = csqrt z := by rw [csqrt_sq]

/-- What a mode pair determines. -/
theorem ModePair.eig {kx ky : m → ℂ} {c : Conv m} {W V : Matrix (m ⊕ m) (m ⊕ m) ℂ} {q : m ⊕ m → ℂ}
    (h : ModePair kx ky c W V q) : omega2LR kx ky c * W = W * diagonal (fun i => q i ^ 2) := by
  rw [← omegaL_mul_omegaR, Matrix.mul_assoc, h.right, ← Matrix.mul_assoc, h.left, Matrix.mul_assoc,
    ← diag_sq]

theorem ModePair.V_eq {kx ky : m → ℂ} {c : Conv m} {W V : Matrix (m ⊕ m) (m ⊕ m) ℂ} {q : m ⊕ m → ℂ}
    (h : ModePair kx ky c W V q) (hq : ∀ i, q i ≠ 0) :
    V = omegaR kx ky c * W * diagonal fun i => (q i)⁻¹ := by
  rw [h.right, Matrix.mul_assoc, diagonal_mul_diagonal]
  have : (diagonal fun i => q i * (q i)⁻¹) = (1 : Matrix (m ⊕ m) (m ⊕ m) ℂ) := by
    rw [← diagonal_one]; congr 1; ext i; exact mul_inv_cancel₀ (hq i)
  rw [this, Matrix.mul_one]

/-- Two mode pairs give the same impedance and the same propagation operator. -/
theorem ModePair.ops {kx ky : m → ℂ} {c : Conv m} {W V W' V' : Matrix (m ⊕ m) (m ⊕ m) ℂ}
    {q q' : m ⊕ m → ℂ} (h : ModePair kx ky c W V q) (h' : ModePair kx ky c W' V' q')
    (hb : OnBranch q) (hb' : OnBranch q') (hq : ∀ i, q i ≠ 0) (hq' : ∀ i, q' i ≠ 0)
    (hW : IsUnit W.det) (hW' : IsUnit W'.det) (k0 d : ℝ) :
    V * W⁻¹ = V' * W'⁻¹ ∧ W * phaseX k0 q d * W⁻¹ = W' * phaseX k0 q' d * W'⁻¹ := by
  have f := fcalc_unique h.eig h'.eig hW hW'
  constructor
  · rw [h.V_eq hq, h'.V_eq hq']
    have := f fun z => (csqrt z)⁻¹
    simp only [hb _, hb' _] at this
    calc _ = omegaR kx ky c * (W * (diagonal fun i => (q i)⁻¹) * W⁻¹) := by simp only [Matrix.mul_assoc]
      _ = omegaR kx ky c * (W' * (diagonal fun i => (q' i)⁻¹) * W'⁻¹) := by rw [this]
      _ = _ := by simp only [Matrix.mul_assoc]
  · have := f fun z => Complex.exp (-(k0 : ℂ) * csqrt z * (d : ℂ))
    simp only [hb _, hb' _] at this
    exact this

theorem rot_ops {E H W V X W' V' X' : Matrix (m ⊕ m) (m ⊕ m) ℂ} (h1 : V * W⁻¹ = V' * W'⁻¹)
    (h2 : W * X * W⁻¹ = W' * X' * W'⁻¹) :
    H * V * (E * W)⁻¹ = H * V' * (E * W')⁻¹ ∧
      E * W * X * (E * W)⁻¹ = E * W' * X' * (E * W')⁻¹ := by
  simp only [Matrix.mul_inv_rev]
  constructor
  · calc _ = H * (V * W⁻¹) * E⁻¹ := by simp only [Matrix.mul_assoc]
      _ = H * (V' * W'⁻¹) * E⁻¹ := by rw [h1]
      _ = _ := by simp only [Matrix.mul_assoc]
  · calc _ = E * (W * X * W⁻¹) * E⁻¹ := by simp only [Matrix.mul_assoc]
      _ = E * (W' * X' * W'⁻¹) * E⁻¹ := by rw [h2]
      _ = _ := by simp only [Matrix.mul_assoc]

/-- A step with one mode pair can be replayed with any other invertible one. -/
theorem ModePair.replay {kx ky varphi : m → ℂ} {c : Conv m} {W V W' V' : Matrix (m ⊕ m) (m ⊕ m) ℂ}
    {q q' : m ⊕ m → ℂ} (h : ModePair kx ky c W V q) (h' : ModePair kx ky c W' V' q')
    (hb : OnBranch q) (hb' : OnBranch q') (hq : ∀ i, q i ≠ 0) (hq' : ∀ i, q' i ≠ 0)
    (hW' : IsUnit W'.det) {k0 d : ℝ} {s s' t : TState (m ⊕ m)} {Ai B : Matrix (m ⊕ m) (m ⊕ m) ℂ}
    (hs : StepData (phaseX k0 q d) (rotE varphi * W) (rotH varphi * V) s t Ai B) (he : SEquiv s s') :
    ∃ t' Ai' B', StepData (phaseX k0 q' d) (rotE varphi * W') (rotH varphi * V') s' t' Ai' B' ∧ SEquiv t t' := by
  have hE := isUnit_det_of_mul_left hs.hW
  have hW := isUnit_det_of_mul_right hs.hW
  obtain ⟨o1, o2⟩ := h.ops h' hb hb' hq hq' hW hW' k0 d
  obtain ⟨p1, p2⟩ := rot_ops (E := rotE varphi) (H := rotH varphi) o1 o2
  obtain ⟨M, hM, rfl⟩ := he
  have cc := hs.canon.rmul hM
  rw [p1, p2] at cc
  have hEW := isUnit_det_mul hE hW'
  refine ⟨_, _, _, cc.uncanon hEW, ?_⟩
  refine ⟨(rotE varphi * W)⁻¹ * (rotE varphi * W'), ?_, ?_⟩
  · exact isUnit_det_mul (isUnit_nonsing_inv_det_iff.mpr hs.hW) hEW
  · rw [TState.rmul_rmul]

theorem conModes_branch {la : LinAlg} {kx ky : m → ℂ} {c : Conv m} {b : Bool} {M : ConModes m}
    (h : transfer_1d_conical_2 la kx ky c b = .ok M) : OnBranch (Sum.elim M.q1 M.q2) := by
  unfold transfer_1d_conical_2 at h
  simp only [Except.bind_ok, Except.ok.injEq] at h
  obtain ⟨_, _, _, _, rfl⟩ := h
  rintro (i | i) <;> exact csqrt_csqrt_sq _

theorem modes2d_branch {la : LinAlg} {kx ky : m → ℂ} {c : Conv m} {b : Bool} {M : Modes (m ⊕ m)}
    (h : transfer_2d_2 la kx ky c b = .ok M) : OnBranch M.q := by
  unfold transfer_2d_2 at h
  simp only [Except.bind_ok, Except.ok.injEq] at h
  obtain ⟨_, _, rfl⟩ := h
  intro i; exact csqrt_csqrt_sq _

theorem modes2d_q_ne {la : LinAlg} {kx ky : m → ℂ} {c : Conv m} {M : Modes (m ⊕ m)}
    (h : transfer_2d_2 la kx ky c false = .ok M) (i) : M.q i ≠ 0 := by
  unfold transfer_2d_2 at h
  simp only [Except.bind_ok, meeinv_false_ok, Except.ok.injEq] at h
  obtain ⟨N, ⟨hu, rfl⟩, rfl⟩ := h
  exact isUnit_diag_ne hu i

theorem conModes_q_ne {la : LinAlg} {kx ky : m → ℂ} {c : Conv m} {M : ConModes m}
    (h : transfer_1d_conical_2 la kx ky c false = .ok M) (hW : IsUnit (conW0 M).det)
    (hV : IsUnit (conV0 M).det) (i) : Sum.elim M.q1 M.q2 i ≠ 0 := by
  have h11 : IsUnit M.V11.det := by
    have e : conW0 M * fromBlocks 0 1 1 0 = fromBlocks M.W2 0 M.V12 M.V11 := by
      unfold conW0
      rw [fromBlocks_multiply]; simp
    have : IsUnit (conW0 M * fromBlocks 0 1 1 0).det := by
      refine isUnit_det_mul hW ?_
      have : (fromBlocks 0 1 1 0 : Matrix (m ⊕ m) (m ⊕ m) ℂ) * fromBlocks 0 1 1 0 = 1 := by
        rw [fromBlocks_multiply]; simp
      exact isUnit_det_of_mul_left (by rw [this]; simp : IsUnit ((fromBlocks 0 1 1 0 : Matrix (m ⊕ m) (m ⊕ m) ℂ) * fromBlocks 0 1 1 0).det)
    rw [e, det_fromBlocks_zero₁₂] at this
    exact isUnit_of_mul_isUnit_right this
  have h22 : IsUnit M.V22.det := by
    unfold conV0 at hV
    rw [det_fromBlocks_zero₁₂] at hV
    exact isUnit_of_mul_isUnit_right hV
  unfold transfer_1d_conical_2 at h
  simp only [Except.bind_ok, Except.ok.injEq] at h
  obtain ⟨_, _, _, _, rfl⟩ := h
  simp only at h11 h22
  rcases i with i | i
  · exact isUnit_diag_ne (isUnit_det_of_mul_right h11) i
  · exact isUnit_diag_ne (isUnit_det_of_mul_right h22) i

/-- The 2D modes of a basis-returning eigensolver are usable as soon as some mode pair is. -/
theorem modes2d_exists {la : LinAlg} {kx ky : m → ℂ} {c : Conv m} {W V : Matrix (m ⊕ m) (m ⊕ m) ℂ}
    {q : m ⊕ m → ℂ} (h : ModePair kx ky c W V q) (hq : ∀ i, q i ≠ 0) (hW : IsUnit W.det)
    (hb : BasisAt la (omega2LR kx ky c)) :
    ∃ M, transfer_2d_2 la kx ky c false = .ok M ∧ IsUnit M.W.det := by
  have hu := hb ⟨W, _, hW, h.eig⟩
  have hd : IsUnit (diagonal fun i => csqrt ((la.eig (omega2LR kx ky c)).1 i)).det := by
    have e1 := la.eig_law (omega2LR kx ky c)
    have d1 : (omega2LR kx ky c).det = ∏ i, (la.eig (omega2LR kx ky c)).1 i := by
      have := congrArg det e1
      rw [det_mul, det_mul, mul_comm, det_diagonal] at this
      exact mul_left_cancel₀ hu.ne_zero this
    have d2 : (omega2LR kx ky c).det = ∏ i, q i ^ 2 := by
      have := congrArg det h.eig
      rw [det_mul, det_mul, mul_comm, det_diagonal] at this
      exact mul_left_cancel₀ hW.ne_zero this
    rw [det_diagonal, isUnit_iff_ne_zero, Finset.prod_ne_zero_iff]
    intro i _ h0
    have : (la.eig (omega2LR kx ky c)).1 i = 0 := by
      rw [← csqrt_sq ((la.eig (omega2LR kx ky c)).1 i), h0]; ring
    rw [d2, Finset.prod_eq_zero (Finset.mem_univ i) this] at d1
    exact Finset.prod_ne_zero_iff.mpr (fun i _ => pow_ne_zero 2 (hq i)) d1
  have h1 : transfer_2d_2 la kx ky c false = .ok ⟨(la.eig (omega2LR kx ky c)).2,
      omegaR kx ky c * (la.eig (omega2LR kx ky c)).2 *
        (diagonal fun i => csqrt ((la.eig (omega2LR kx ky c)).1 i))⁻¹,
      fun i => csqrt ((la.eig (omega2LR kx ky c)).1 i)⟩ := by
    unfold transfer_2d_2
    simp only [Except.bind_ok, meeinv_false_ok, Except.ok.injEq]
    exact ⟨_, ⟨hd, rfl⟩, rfl⟩
  exact ⟨_, h1, hu⟩

end Meent
