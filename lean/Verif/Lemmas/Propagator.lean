import Verif.Lemmas.Smooth
import Verif.Lemmas.ConTo2D

/-!
# The layer loop without eigenvectors (helper lemmas)

One step multiplies the pair `(F, G)` by the matrix exponential of the layer's coupling matrix, up to a common right factor.
-/

open Matrix

namespace Meent

set_option linter.unusedSectionVars false
set_option linter.unusedSimpArgs false

variable {n : Type} [Fintype n] [DecidableEq n]

/-- Exact propagator of a layer with coupling matrices `P` and `Q`. -/
noncomputable def propagator (k0 d : ℝ) (P Q : Matrix n n ℂ) : Matrix (n ⊕ n) (n ⊕ n) ℂ :=
  NormedSpace.exp ((((k0 * d : ℝ)) : ℂ) • fromBlocks 0 P Q 0)

/-- A state carried through a layer. -/
noncomputable def TState.under (K : Matrix (n ⊕ n) (n ⊕ n) ℂ) (s : TState n) : TState n :=
  ⟨K.toBlocks₁₁ * s.F + K.toBlocks₁₂ * s.G, K.toBlocks₂₁ * s.F + K.toBlocks₂₂ * s.G, s.T⟩

theorem TState.under_rmul (K : Matrix (n ⊕ n) (n ⊕ n) ℂ) (s : TState n) (M : Matrix n n ℂ) :
    (s.rmul M).under K = (s.under K).rmul M := by
  simp only [TState.under, TState.rmul, Matrix.add_mul, Matrix.mul_assoc]

theorem SEquiv.under {s t : TState n} (h : SEquiv s t) (K : Matrix (n ⊕ n) (n ⊕ n) ℂ) :
    SEquiv (s.under K) (t.under K) := by
  obtain ⟨M, hM, rfl⟩ := h
  exact ⟨M, hM, TState.under_rmul _ _ _⟩

theorem exp_diag (v : n → ℂ) : NormedSpace.exp (diagonal v) = diagonal fun i => Complex.exp (v i) := by
  rw [Matrix.exp_diagonal]
  congr 1
  funext i
  rw [Pi.coe_exp, Complex.exp_eq_exp_ℂ]

theorem propagator_eq {k0 d : ℝ} {P Q W V : Matrix n n ℂ} {q : n → ℂ} (hW : IsUnit W.det) (hV : IsUnit V.det)
    (hP : P * V = W * diagonal q) (hQ : Q * W = V * diagonal q) :
    propagator k0 d P Q = fromBlocks W W V (-V) *
      (diagonal (Sum.elim (fun i => Complex.exp (k0 * q i * d)) fun i => Complex.exp (-k0 * q i * d)) *
        ((1 / 2 : ℂ) • fromBlocks W⁻¹ V⁻¹ W⁻¹ (-V⁻¹))) := by
  set U : Matrix (n ⊕ n) (n ⊕ n) ℂ := fromBlocks W W V (-V) with hU
  set Ui : Matrix (n ⊕ n) (n ⊕ n) ℂ := (1 / 2 : ℂ) • fromBlocks W⁻¹ V⁻¹ W⁻¹ (-V⁻¹) with hUi
  have h1 : U * Ui = 1 := by
    rw [hU, hUi, Matrix.mul_smul, fromBlocks_multiply, mul_nonsing_inv _ hW, Matrix.mul_neg, Matrix.neg_mul,
      Matrix.neg_mul, Matrix.mul_neg, mul_nonsing_inv _ hV, neg_neg]
    simp only [add_neg_cancel, fromBlocks_smul]
    rw [← fromBlocks_one]
    have hw : W * V⁻¹ + -(W * V⁻¹) = 0 := add_neg_cancel _
    have hv : V * W⁻¹ + -(V * W⁻¹) = 0 := add_neg_cancel _
    simp only [hw, hv, smul_zero]
    congr 1 <;> (rw [← two_smul ℂ (1 : Matrix n n ℂ), smul_smul]; norm_num)
  have hUu : IsUnit U.det := by
    have := congrArg det h1
    rw [det_mul, det_one] at this
    exact IsUnit.of_mul_eq_one _ this
  have hUi' : Ui = U⁻¹ := (Matrix.inv_eq_right_inv h1).symm
  have h2 : (((k0 * d : ℝ)) : ℂ) • fromBlocks 0 P Q 0
      = U * diagonal (Sum.elim (fun i => (k0 * q i * d : ℂ)) fun i => (-k0 * q i * d : ℂ)) * U⁻¹ := by
    have e : ((((k0 * d : ℝ)) : ℂ) • fromBlocks 0 P Q 0) * U
        = U * diagonal (Sum.elim (fun i => (k0 * q i * d : ℂ)) fun i => (-k0 * q i * d : ℂ)) := by
      have d1 : diagonal (Sum.elim (fun i => (k0 * q i * d : ℂ)) fun i => (-k0 * q i * d : ℂ))
          = (((k0 * d : ℝ)) : ℂ) • fromBlocks (diagonal q) 0 0 (-diagonal q) := by
        have : -diagonal q = diagonal (fun i => -q i) := diagonal_neg q
        rw [this, fromBlocks_diagonal, ← diagonal_smul]
        congr 1
        funext i
        rcases i with i | i <;> simp <;> ring
      rw [d1, Matrix.smul_mul, Matrix.mul_smul, hU, fromBlocks_multiply, fromBlocks_multiply]
      congr 1
      simp only [Matrix.zero_mul, Matrix.mul_zero, zero_add, add_zero, Matrix.mul_neg, Matrix.neg_mul, neg_neg, neg_zero, hP, hQ, add_zero]
    rw [← e, Matrix.mul_assoc, mul_nonsing_inv _ hUu, Matrix.mul_one]
  unfold propagator
  rw [h2, Matrix.exp_conj _ _ ((Matrix.isUnit_iff_isUnit_det _).mpr hUu), exp_diag, hUi', Matrix.mul_assoc]
  congr 3
  funext i
  rcases i with i | i <;> rfl

/-- The propagator in blocks. -/
theorem under_propagator {k0 d : ℝ} {P Q W V : Matrix n n ℂ} {q : n → ℂ} (hW : IsUnit W.det) (hV : IsUnit V.det)
    (hP : P * V = W * diagonal q) (hQ : Q * W = V * diagonal q) (s : TState n) :
    s.under (propagator k0 d P Q) =
      ⟨W * (phaseX k0 q (-d) * stepA W V s + phaseX k0 q d * ((1 / 2 : ℂ) • (W⁻¹ * s.F - V⁻¹ * s.G))),
       V * (phaseX k0 q (-d) * stepA W V s - phaseX k0 q d * ((1 / 2 : ℂ) • (W⁻¹ * s.F - V⁻¹ * s.G))), s.T⟩ := by
  have hd : diagonal (Sum.elim (fun i => Complex.exp (k0 * q i * d)) fun i => Complex.exp (-k0 * q i * d))
      = fromBlocks (phaseX k0 q (-d)) 0 0 (phaseX k0 q d) := by
    unfold phaseX
    rw [fromBlocks_diagonal]
    congr 1
    funext i
    rcases i with i | i
    · simp only [Sum.elim_inl]
      congr 1
      push_cast; ring
    · rfl
  rw [propagator_eq hW hV hP hQ, hd, Matrix.mul_smul, Matrix.mul_smul, fromBlocks_multiply, fromBlocks_multiply]
  unfold TState.under stepA
  simp only [Matrix.zero_mul, Matrix.mul_zero, zero_add, add_zero, fromBlocks_smul, toBlocks_fromBlocks₁₁, toBlocks_fromBlocks₁₂,
    toBlocks_fromBlocks₂₁, toBlocks_fromBlocks₂₂, Matrix.smul_mul, Matrix.mul_smul, Matrix.mul_neg, Matrix.neg_mul, ← smul_add]
  congr 1
  · congr 1; noncomm_ring
  · rw [← smul_sub]; noncomm_ring

theorem phaseX_mul_neg (k0 d : ℝ) (q : n → ℂ) : phaseX k0 q (-d) * phaseX k0 q d = 1 := by
  unfold phaseX
  rw [diagonal_mul_diagonal, ← diagonal_one]
  congr 1
  funext i
  rw [← Complex.exp_add, ← Complex.exp_zero]
  congr 1
  push_cast; ring

/-- One step: the state is carried through the layer, up to a common right factor. -/
theorem StepData.propagate {k0 d : ℝ} {P Q W V : Matrix n n ℂ} {q : n → ℂ} {s s' : TState n} {Ai B : Matrix n n ℂ}
    (h : StepData (phaseX k0 q d) W V s s' Ai B) (hP : P * V = W * diagonal q) (hQ : Q * W = V * diagonal q) :
    s' = (s.under (propagator k0 d P Q)).rmul (Ai * phaseX k0 q d) ∧ IsUnit (Ai * phaseX k0 q d).det := by
  constructor
  · rw [under_propagator h.hW h.hV hP hQ, h.s'_eq, ← h.B_eq]
    have e : phaseX k0 q (-d) * stepA W V s * (Ai * phaseX k0 q d) = 1 := by
      rw [Matrix.mul_assoc, ← Matrix.mul_assoc (stepA W V s), h.A_mul_Ai, Matrix.one_mul, phaseX_mul_neg]
    simp only [TState.rmul, Matrix.mul_assoc W, Matrix.mul_assoc V, Matrix.add_mul, Matrix.sub_mul, e]
    simp only [Matrix.mul_assoc]
  · refine isUnit_det_mul ?_ ?_
    · rw [h.Ai_eq]; exact isUnit_nonsing_inv_det_iff.mpr h.hA
    · have := congrArg det (phaseX_mul_neg k0 d q)
      rw [det_mul, det_one, mul_comm] at this
      exact IsUnit.of_mul_eq_one _ this

/-- Layer steps that carry the state through a layer with given coupling matrices. -/
def Propagates {C L : Type} (k0 : ℝ) (P Q : C → Matrix n n ℂ) (step : C → ℝ → TState n → Res (TState n × L)) (c : C) : Prop :=
  ∀ d s r, step c d s = .ok r → SEquiv (s.under (propagator k0 d (P c) (Q c))) r.1

theorem StepData.propagates {k0 d : ℝ} {P Q W V : Matrix n n ℂ} {q : n → ℂ} {s s' : TState n} {Ai B : Matrix n n ℂ}
    (h : StepData (phaseX k0 q d) W V s s' Ai B) (hP : P * V = W * diagonal q) (hQ : Q * W = V * diagonal q) :
    SEquiv (s.under (propagator k0 d P Q)) s' :=
  ⟨_, (h.propagate hP hQ).2, (h.propagate hP hQ).1⟩

/-- The state at the top of a stack, without eigenvectors. -/
noncomputable def carried {C : Type} (k0 : ℝ) (P Q : C → Matrix n n ℂ) (s : TState n) : List (C × ℝ) → TState n
  | [] => s
  | x :: xs => (carried k0 P Q s xs).under (propagator k0 x.2 (P x.1) (Q x.1))

theorem run_propagates {C L : Type} {k0 : ℝ} {P Q : C → Matrix n n ℂ} {step : C → ℝ → TState n → Res (TState n × L)} :
    ∀ {xs : List (C × ℝ)} {s : TState n} {l : List L} {r : TState n × List L}, (∀ x ∈ xs, Propagates k0 P Q step x.1) →
      runLayers step xs (s, l) = .ok r → SEquiv (carried k0 P Q s xs) r.1
  | [], s, l, r, _, h => by
    simp only [runLayers, Except.ok.injEq] at h
    subst h
    exact SEquiv.refl _
  | x :: xs, s, l, r, hp, h => by
    simp only [runLayers, Except.bind_ok, Except.ok.injEq] at h
    obtain ⟨a, ha, b, hb, rfl⟩ := h
    have h1 := run_propagates (fun y hy => hp y (List.mem_cons_of_mem _ hy)) ha
    exact (h1.under _).trans (hp x List.mem_cons_self _ _ _ hb)

/-! ### The three solvers -/

/-- Coupling matrices of the TE/TM solver. -/
noncomputable def coupP1 (pol : ℝ) (c : Conv n) : Matrix n n ℂ := if pol = 0 then 1 else c.epx

/-- Coupling matrices of the TE/TM solver. -/
noncomputable def coupQ1 (pol : ℝ) (kx : n → ℂ) (c : Conv n) : Matrix n n ℂ :=
  if pol = 0 then diagonal (fun i => kx i ^ 2) - c.epy else diagonal kx * c.epzi * diagonal kx - 1

theorem propagates_1d (la : LinAlg) {p : Params} (hp : p.use_pinv = false) (k0 : ℝ) (kx : n → ℂ) (c : Conv n) :
    Propagates k0 (coupP1 p.pol) (coupQ1 p.pol kx) (step1d la p k0 kx) c := by
  intro d s r h
  unfold step1d transfer_1d_3 at h
  simp only [Except.bind_ok, hp, Except.ok.injEq] at h
  obtain ⟨M, hM, ⟨t, Ai, B⟩, hr, rfl⟩ := h
  have hs := tmmStep_ok.mp hr
  unfold transfer_1d_2 at hM
  by_cases h0 : p.pol = 0
  · simp only [h0, if_true, Except.ok.injEq] at hM
    subst hM
    refine hs.propagates ?_ ?_
    · simp only [coupP1, h0, if_true, Matrix.one_mul]
    · simp only [coupQ1, h0, if_true]
      rw [la.eig_law, Matrix.mul_assoc, diag_csqrt_mul]
  · by_cases h1 : p.pol = 1
    · simp only [h0, h1, one_ne_zero, if_true, if_false, Except.bind_ok, meeinv_false_ok, Except.ok.injEq] at hM
      obtain ⟨E, ⟨hu, rfl⟩, rfl⟩ := hM
      refine hs.propagates ?_ ?_
      · simp only [coupP1, h1, one_ne_zero, if_false, ← Matrix.mul_assoc]
        rw [mul_nonsing_inv _ hu, Matrix.one_mul]
      · simp only [coupQ1, h1, one_ne_zero, if_false]
        have hE := la.eig_law (c.epx * (diagonal kx * c.epzi * diagonal kx - 1))
        rw [Matrix.mul_assoc (c.epx⁻¹ * _), diag_csqrt_mul, Matrix.mul_assoc (c.epx⁻¹), ← hE, ← Matrix.mul_assoc, ← Matrix.mul_assoc,
          nonsing_inv_mul _ hu, Matrix.one_mul]
    · simp only [h0, h1, if_false] at hM
      cases hM

section
variable {m : Type} [Fintype m] [DecidableEq m]

/-- Coupling matrices of the conical and 2D solvers, in the s/p frame. -/
noncomputable def coupP2 (kx ky varphi : m → ℂ) (c : Conv m) : Matrix (m ⊕ m) (m ⊕ m) ℂ :=
  rotE varphi * omegaL kx ky c * (rotH varphi)⁻¹

/-- Coupling matrices of the conical and 2D solvers, in the s/p frame. -/
noncomputable def coupQ2 (kx ky varphi : m → ℂ) (c : Conv m) : Matrix (m ⊕ m) (m ⊕ m) ℂ :=
  rotH varphi * omegaR kx ky c * (rotE varphi)⁻¹

theorem ModePair.propagates {kx ky varphi : m → ℂ} {c : Conv m} {W V : Matrix (m ⊕ m) (m ⊕ m) ℂ} {q : m ⊕ m → ℂ}
    (hm : ModePair kx ky c W V q) {k0 d : ℝ} {s s' : TState (m ⊕ m)} {Ai B : Matrix (m ⊕ m) (m ⊕ m) ℂ}
    (h : StepData (phaseX k0 q d) (rotE varphi * W) (rotH varphi * V) s s' Ai B) :
    SEquiv (s.under (propagator k0 d (coupP2 kx ky varphi c) (coupQ2 kx ky varphi c))) s' := by
  have hE := isUnit_det_of_mul_left h.hW
  have hH := isUnit_det_of_mul_left h.hV
  refine h.propagates ?_ ?_
  · unfold coupP2
    rw [Matrix.mul_assoc, ← Matrix.mul_assoc (rotH varphi)⁻¹, nonsing_inv_mul _ hH, Matrix.one_mul, Matrix.mul_assoc, hm.left,
      Matrix.mul_assoc]
  · unfold coupQ2
    rw [Matrix.mul_assoc, ← Matrix.mul_assoc (rotE varphi)⁻¹, nonsing_inv_mul _ hE, Matrix.one_mul, Matrix.mul_assoc, hm.right,
      Matrix.mul_assoc]

theorem propagates_2d (la : LinAlg) (k0 : ℝ) (kx ky varphi : m → ℂ) (c : Conv m) :
    Propagates k0 (coupP2 kx ky varphi) (coupQ2 kx ky varphi) (step2d la false k0 kx ky varphi) c := by
  intro d s r h
  unfold step2d at h
  simp only [Except.bind_ok, transfer_2d_3_eq, Except.ok.injEq, bigW2d_eq, bigV2d_eq] at h
  obtain ⟨M, hM, ⟨t, Ai, B⟩, hr, rfl⟩ := h
  exact (modePair_2d hM).propagates (tmmStep_ok.mp hr)

theorem propagates_con (la : LinAlg) (k0 : ℝ) (kx : m → ℂ) (ky : ℂ) (varphi : m → ℂ) (c : Conv m) (hz : c.epzi * c.epy = 1) :
    Propagates k0 (coupP2 kx (fun _ => ky) varphi) (coupQ2 kx (fun _ => ky) varphi)
      (stepCon la false k0 kx (fun _ => ky) varphi) c := by
  intro d s r h
  unfold stepCon at h
  simp only [Except.bind_ok, transfer_1d_conical_3_eq, Except.ok.injEq, conW_eq, conV_eq] at h
  obtain ⟨M, hM, ⟨t, Ai, B⟩, hr, rfl⟩ := h
  exact (modePair_con hz hM).propagates (tmmStep_ok.mp hr)

end

end Meent
