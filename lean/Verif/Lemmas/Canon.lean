import Verif.Lemmas.Loop
import Verif.Lemmas.Energy1D

/-!
# Canonical form of a step (helper lemmas)

States that differ by a common right factor are equivalent; a step only depends on
`V W⁻¹` and `W X W⁻¹`.
-/

open Matrix

namespace Meent

set_option linter.unusedSectionVars false
set_option linter.unusedSimpArgs false

variable {n : Type} [Fintype n] [DecidableEq n]

/-- Common right factor of a state. -/
def TState.rmul (s : TState n) (M : Matrix n n ℂ) : TState n := ⟨s.F * M, s.G * M, s.T * M⟩

/-- States equal up to an invertible right factor. -/
def SEquiv (s s' : TState n) : Prop := ∃ M : Matrix n n ℂ, IsUnit M.det ∧ s' = s.rmul M

theorem TState.rmul_rmul (s : TState n) (M N : Matrix n n ℂ) :
    (s.rmul M).rmul N = s.rmul (M * N) := by
  simp [TState.rmul, Matrix.mul_assoc]

theorem TState.rmul_one (s : TState n) : s.rmul 1 = s := by simp [TState.rmul]

theorem SEquiv.refl (s : TState n) : SEquiv s s := ⟨1, by simp, s.rmul_one.symm⟩

theorem SEquiv.symm {s s' : TState n} (h : SEquiv s s') : SEquiv s' s := by
  obtain ⟨M, hM, rfl⟩ := h
  refine ⟨M⁻¹, (isUnit_nonsing_inv_det_iff).mpr hM, ?_⟩
  rw [TState.rmul_rmul, mul_nonsing_inv _ hM, TState.rmul_one]

theorem SEquiv.trans {s s' s'' : TState n} (h : SEquiv s s') (h' : SEquiv s' s'') : SEquiv s s'' := by
  obtain ⟨M, hM, rfl⟩ := h
  obtain ⟨N, hN, rfl⟩ := h'
  exact ⟨M * N, by rw [det_mul]; exact hM.mul hN, TState.rmul_rmul _ _ _⟩

theorem stepA_rmul (W V : Matrix n n ℂ) (s : TState n) (M : Matrix n n ℂ) :
    stepA W V (s.rmul M) = stepA W V s * M := by
  simp only [stepA, TState.rmul, Matrix.smul_mul, Matrix.add_mul, Matrix.mul_assoc]

theorem isUnit_det_mul {A B : Matrix n n ℂ} (h : IsUnit A.det) (h' : IsUnit B.det) :
    IsUnit (A * B).det := by rw [det_mul]; exact h.mul h'

/-- A step does not see a common right factor of the incoming state. -/
theorem StepData.rmul {X W V : Matrix n n ℂ} {s s' : TState n} {Ai B M : Matrix n n ℂ}
    (h : StepData X W V s s' Ai B) (hM : IsUnit M.det) :
    StepData X W V (s.rmul M) s' (M⁻¹ * Ai) (B * M) := by
  refine ⟨h.hW, h.hV, ?_, ?_, ?_, ?_⟩
  · rw [stepA_rmul]; exact isUnit_det_mul h.hA hM
  · rw [stepA_rmul, Matrix.mul_inv_rev, h.Ai_eq]
  · rw [h.B_eq]
    simp only [TState.rmul, Matrix.smul_mul, Matrix.sub_mul, Matrix.mul_assoc]
  · have e : B * M * (M⁻¹ * Ai) = B * Ai := by
      rw [Matrix.mul_assoc, ← Matrix.mul_assoc M, mul_nonsing_inv _ hM, Matrix.one_mul]
    have e2 : s.T * M * (M⁻¹ * Ai) = s.T * Ai := by
      rw [Matrix.mul_assoc, ← Matrix.mul_assoc M, mul_nonsing_inv _ hM, Matrix.one_mul]
    rw [h.s'_eq]
    simp only [TState.rmul, Matrix.mul_assoc X, e2]
    rw [← Matrix.mul_assoc (B * M), Matrix.mul_assoc B M, ]
    simp only [Matrix.mul_assoc] at e ⊢
    rw [← Matrix.mul_assoc M, mul_nonsing_inv _ hM]
    simp

/-- The canonical form of a step: standard basis, operator `Y = V W⁻¹`, phase `Z = W X W⁻¹`. -/
theorem StepData.canon {X W V : Matrix n n ℂ} {s s' : TState n} {Ai B : Matrix n n ℂ}
    (h : StepData X W V s s' Ai B) :
    StepData (W * X * W⁻¹) 1 (V * W⁻¹) s (s'.rmul W⁻¹) (Ai * W⁻¹) (W * B) := by
  have hW := h.hW
  have hV := h.hV
  have hWi : IsUnit (W⁻¹).det := (isUnit_nonsing_inv_det_iff).mpr hW
  have eA : stepA 1 (V * W⁻¹) s = W * stepA W V s := by
    simp only [stepA, inv_one, Matrix.mul_inv_rev, nonsing_inv_nonsing_inv _ hW, Matrix.one_mul,
      Matrix.mul_smul, Matrix.mul_add, Matrix.mul_assoc, mul_nonsing_inv_cancel_left _ _ hW]
  refine ⟨by simp, isUnit_det_mul hV hWi, ?_, ?_, ?_, ?_⟩
  · rw [eA]; exact isUnit_det_mul hW h.hA
  · rw [eA, Matrix.mul_inv_rev, h.Ai_eq]
  · rw [h.B_eq]
    simp only [inv_one, Matrix.mul_inv_rev, nonsing_inv_nonsing_inv _ hW, Matrix.one_mul,
      Matrix.mul_smul, Matrix.mul_sub, Matrix.mul_assoc, mul_nonsing_inv_cancel_left _ _ hW]
  · have e1 : W⁻¹ * W = 1 := nonsing_inv_mul _ hW
    have e2 : W * W⁻¹ = 1 := mul_nonsing_inv _ hW
    have c : ∀ Y : Matrix n n ℂ, W⁻¹ * (W * Y) = Y := fun Y => by
      rw [← Matrix.mul_assoc, e1, Matrix.one_mul]
    rw [h.s'_eq]
    simp only [TState.rmul, Matrix.mul_add, Matrix.add_mul, Matrix.mul_sub, Matrix.sub_mul,
      Matrix.mul_one, Matrix.one_mul, Matrix.mul_assoc, e2, c]

/-- Conversely, a canonical step determines the step in any basis. -/
theorem StepData.uncanon {X W V : Matrix n n ℂ} {s s' : TState n} {Ai B : Matrix n n ℂ}
    (hW : IsUnit W.det)
    (h : StepData (W * X * W⁻¹) 1 (V * W⁻¹) s s' Ai B) :
    StepData X W V s (s'.rmul W) (Ai * W) (W⁻¹ * B) := by
  have e1 : W⁻¹ * W = 1 := nonsing_inv_mul _ hW
  have e2 : W * W⁻¹ = 1 := mul_nonsing_inv _ hW
  have c : ∀ Y : Matrix n n ℂ, W⁻¹ * (W * Y) = Y := fun Y => by
    rw [← Matrix.mul_assoc, e1, Matrix.one_mul]
  have c' : ∀ Y : Matrix n n ℂ, W * (W⁻¹ * Y) = Y := fun Y => by
    rw [← Matrix.mul_assoc, e2, Matrix.one_mul]
  have hV : IsUnit V.det := by
    have := h.hV
    rw [det_mul] at this
    exact isUnit_of_mul_isUnit_left this
  have eA : stepA 1 (V * W⁻¹) s = W * stepA W V s := by
    simp only [stepA, inv_one, Matrix.mul_inv_rev, nonsing_inv_nonsing_inv _ hW, Matrix.one_mul,
      Matrix.mul_smul, Matrix.mul_add, Matrix.mul_assoc, c']
  have hA : IsUnit (stepA W V s).det := by
    have := h.hA
    rw [eA, det_mul] at this
    exact isUnit_of_mul_isUnit_right this
  refine ⟨hW, hV, hA, ?_, ?_, ?_⟩
  · rw [h.Ai_eq, eA, Matrix.mul_inv_rev, Matrix.mul_assoc, e1, Matrix.mul_one]
  · rw [h.B_eq]
    simp only [inv_one, Matrix.mul_inv_rev, nonsing_inv_nonsing_inv _ hW, Matrix.one_mul,
      Matrix.mul_smul, Matrix.mul_sub, Matrix.mul_assoc, c]
  · rw [h.s'_eq]
    simp only [TState.rmul, Matrix.mul_add, Matrix.add_mul, Matrix.mul_sub, Matrix.sub_mul,
      Matrix.mul_one, Matrix.one_mul, Matrix.mul_assoc, e1, c]

/-- Outcome of a canonical step on a given incoming state (unique). -/
theorem StepData.unique {X W V : Matrix n n ℂ} {s s1 s2 : TState n} {A1 B1 A2 B2 : Matrix n n ℂ}
    (h1 : StepData X W V s s1 A1 B1) (h2 : StepData X W V s s2 A2 B2) :
    s1 = s2 ∧ A1 = A2 ∧ B1 = B2 := by
  have eA : A1 = A2 := by rw [h1.Ai_eq, h2.Ai_eq]
  have eB : B1 = B2 := by rw [h1.B_eq, h2.B_eq]
  exact ⟨by rw [h1.s'_eq, h2.s'_eq, eA, eB], eA, eB⟩

/-- Two steps with the same operators from equivalent states end in equivalent states. -/
theorem StepData.equiv {X W V X' W' V' : Matrix n n ℂ} {s s' t t' : TState n}
    {A1 B1 A2 B2 : Matrix n n ℂ}
    (h1 : StepData X W V s s' A1 B1) (h2 : StepData X' W' V' t t' A2 B2)
    (hY : V * W⁻¹ = V' * W'⁻¹) (hZ : W * X * W⁻¹ = W' * X' * W'⁻¹)
    (he : SEquiv s t) : SEquiv s' t' := by
  obtain ⟨M, hM, rfl⟩ := he
  have c1 := (h1.canon).rmul hM
  have c2 := h2.canon
  rw [hY, hZ] at c1
  have := (c1.unique c2).1
  refine ⟨W⁻¹ * W', isUnit_det_mul ((isUnit_nonsing_inv_det_iff).mpr h1.hW) h2.hW, ?_⟩
  rw [← TState.rmul_rmul, this, TState.rmul_rmul, nonsing_inv_mul _ h2.hW, TState.rmul_one]

/-! ### Functions of a diagonalisable matrix -/

/-- `W g(Λ) W⁻¹` does not depend on the diagonalisation. -/
theorem fcalc_unique {A W W' : Matrix n n ℂ} {l l' : n → ℂ} (h : A * W = W * diagonal l)
    (h' : A * W' = W' * diagonal l') (hW : IsUnit W.det) (hW' : IsUnit W'.det) (g : ℂ → ℂ) :
    W * diagonal (fun i => g (l i)) * W⁻¹ = W' * diagonal (fun i => g (l' i)) * W'⁻¹ := by
  set M := W⁻¹ * W' with hM
  have e : diagonal l * M = M * diagonal l' := by
    have : W * (diagonal l * M) = W * (M * diagonal l') := by
      rw [hM, ← Matrix.mul_assoc, ← h, Matrix.mul_assoc, ← Matrix.mul_assoc W, mul_nonsing_inv _ hW,
        Matrix.one_mul, h', ← Matrix.mul_assoc, ← Matrix.mul_assoc, mul_nonsing_inv _ hW, Matrix.one_mul]
    have h3 := congrArg (fun Z => W⁻¹ * Z) this
    simpa only [← Matrix.mul_assoc, nonsing_inv_mul _ hW, Matrix.one_mul] using h3
  have e2 : diagonal (fun i => g (l i)) * M = M * diagonal (fun i => g (l' i)) := by
    ext i j
    have h4 := congrFun (congrFun e i) j
    simp only [diagonal_mul, mul_diagonal] at h4 ⊢
    by_cases hm : M i j = 0
    · simp [hm]
    · have : l i = l' j := by
        apply mul_right_cancel₀ hm
        rw [h4]; ring
      rw [this]; ring
  have hWM : W' = W * M := by
    rw [hM, ← Matrix.mul_assoc, mul_nonsing_inv _ hW, Matrix.one_mul]
  have hM1 : M * W'⁻¹ = W⁻¹ := by
    rw [hM, Matrix.mul_assoc, mul_nonsing_inv _ hW', Matrix.mul_one]
  rw [hWM, Matrix.mul_assoc W M, ← e2]
  rw [← hWM]
  simp only [Matrix.mul_assoc, hM1]

end Meent
