import Verif.Lemmas.ConTo2D
import Verif.Lemmas.Energy1DSolve
import Verif.Lemmas.Energy2D
import Verif.Lemmas.Flat
import Verif.Lemmas.Orders

/-!
# The conical solver at azimuth zero splits into the TE and TM solvers (helper lemmas)
-/

open Matrix

namespace Meent

set_option linter.unusedSectionVars false
set_option linter.unusedSimpArgs false

section
variable {n m : Type} [Fintype n] [DecidableEq n] [Fintype m] [DecidableEq m]

/-- A state read through a renaming of the indices. -/
def TState.sub (e : n ≃ m) (s : TState m) : TState n :=
  ⟨s.F.submatrix e e, s.G.submatrix e e, s.T.submatrix e e⟩

/-- Electric and magnetic parts exchanged. -/
def TState.swap (s : TState n) : TState n := ⟨s.G, s.F, s.T⟩

/-- Two independent states side by side. -/
def blockS (a b : TState m) : TState (m ⊕ m) :=
  ⟨fromBlocks a.F 0 0 b.F, fromBlocks a.G 0 0 b.G, fromBlocks a.T 0 0 b.T⟩

theorem inv_sub (e : n ≃ m) (A : Matrix m m ℂ) : (A.submatrix e e)⁻¹ = A⁻¹.submatrix e e :=
  inv_submatrix_equiv A e e

theorem mul_sub' (e : n ≃ m) (A B : Matrix m m ℂ) :
    (A * B).submatrix e e = A.submatrix e e * B.submatrix e e :=
  (submatrix_mul_equiv A B e e e).symm

theorem det_sub (e : n ≃ m) (A : Matrix m m ℂ) : (A.submatrix e e).det = A.det :=
  det_submatrix_equiv_self e A

theorem StepData.sub (e : n ≃ m) {X W V : Matrix m m ℂ} {s s' : TState m} {Ai B : Matrix m m ℂ}
    (h : StepData X W V s s' Ai B) :
    StepData (X.submatrix e e) (W.submatrix e e) (V.submatrix e e) (s.sub e) (s'.sub e)
      (Ai.submatrix e e) (B.submatrix e e) := by
  have hA : stepA (W.submatrix e e) (V.submatrix e e) (s.sub e) = (stepA W V s).submatrix e e := by
    simp only [stepA, TState.sub, inv_sub, ← mul_sub']
    rfl
  refine ⟨by rw [det_sub]; exact h.hW, by rw [det_sub]; exact h.hV, by rw [hA, det_sub]; exact h.hA,
    by rw [hA, inv_sub, h.Ai_eq], ?_, ?_⟩
  · rw [h.B_eq]
    simp only [TState.sub, inv_sub, ← mul_sub']
    rfl
  · rw [h.s'_eq]
    simp only [TState.sub, mul_sub', submatrix_sub, submatrix_add, Pi.sub_apply, Pi.add_apply]
    rw [submatrix_one_equiv]

theorem StepData.swap {X W V : Matrix n n ℂ} {s s' : TState n} {Ai B : Matrix n n ℂ}
    (h : StepData X W V s s' Ai B) : StepData X V W s.swap s'.swap Ai (-B) := by
  have hA : stepA V W s.swap = stepA W V s := by
    simp only [stepA, TState.swap]; rw [add_comm]
  refine ⟨h.hV, h.hW, hA ▸ h.hA, by rw [hA, h.Ai_eq], ?_, ?_⟩
  · rw [h.B_eq, ← smul_neg, neg_sub]; rfl
  · rw [h.s'_eq]
    simp only [TState.swap, Matrix.mul_neg, Matrix.neg_mul, sub_neg_eq_add, sub_eq_add_neg, neg_neg]

theorem fromBlocks_sub' (A B C D A' B' C' D' : Matrix m m ℂ) :
    fromBlocks A B C D - fromBlocks A' B' C' D' = fromBlocks (A - A') (B - B') (C - C') (D - D') := by
  ext i j
  cases i <;> cases j <;> rfl

theorem StepData.blocks {x y : m → ℂ} {W1 W2 V1 V2 : Matrix m m ℂ} {a b : TState m}
    {t : TState (m ⊕ m)} {Ai B : Matrix (m ⊕ m) (m ⊕ m) ℂ}
    (h : StepData (diagonal (Sum.elim x y)) (fromBlocks W1 0 0 W2) (fromBlocks V1 0 0 V2) (blockS a b) t Ai B) :
    ∃ a' b' A1 A2 B1 B2, t = blockS a' b' ∧ StepData (diagonal x) W1 V1 a a' A1 B1 ∧
      StepData (diagonal y) W2 V2 b b' A2 B2 := by
  have hW := h.hW
  have hV := h.hV
  rw [det_fromBlocks_zero₂₁] at hW hV
  have hW1 := isUnit_of_mul_isUnit_left hW
  have hW2 := isUnit_of_mul_isUnit_right hW
  have hV1 := isUnit_of_mul_isUnit_left hV
  have hV2 := isUnit_of_mul_isUnit_right hV
  have hA : stepA (fromBlocks W1 0 0 W2) (fromBlocks V1 0 0 V2) (blockS a b)
      = fromBlocks (stepA W1 V1 a) 0 0 (stepA W2 V2 b) := by
    simp only [stepA, blockS, blockDiag_inv hW1 hW2, blockDiag_inv hV1 hV2, fromBlocks_multiply,
      Matrix.mul_zero, Matrix.zero_mul, add_zero, zero_add, fromBlocks_add, fromBlocks_smul, smul_zero]
  have hAu := h.hA
  rw [hA, det_fromBlocks_zero₂₁] at hAu
  have hA1 := isUnit_of_mul_isUnit_left hAu
  have hA2 := isUnit_of_mul_isUnit_right hAu
  have hB : B = fromBlocks ((1 / 2 : ℂ) • (W1⁻¹ * a.F - V1⁻¹ * a.G)) 0 0
      ((1 / 2 : ℂ) • (W2⁻¹ * b.F - V2⁻¹ * b.G)) := by
    rw [h.B_eq]
    simp only [blockS, blockDiag_inv hW1 hW2, blockDiag_inv hV1 hV2, fromBlocks_multiply,
      Matrix.mul_zero, Matrix.zero_mul, add_zero, zero_add, fromBlocks_sub', fromBlocks_smul, smul_zero, sub_zero]
  refine ⟨_, _, _, _, _, _, ?_, ⟨hW1, hV1, hA1, rfl, rfl, rfl⟩, ⟨hW2, hV2, hA2, rfl, rfl, rfl⟩⟩
  rw [h.s'_eq, h.Ai_eq, hB, hA, blockDiag_inv hA1 hA2, ← fromBlocks_diagonal, ← fromBlocks_one]
  simp only [blockS, fromBlocks_multiply, Matrix.mul_zero, Matrix.zero_mul, add_zero, zero_add,
    fromBlocks_add, fromBlocks_sub', sub_zero]

/-- One step of the recursion through a layer whose modes diagonalise `A`, with admittance operator
`P √A`. -/
def ModeStep (A P : Matrix n n ℂ) (k0 d : ℝ) (s s' : TState n) : Prop :=
  ∃ (E : Matrix n n ℂ) (l : n → ℂ) (W V X Ai B : Matrix n n ℂ), IsUnit E.det ∧ A * E = E * diagonal l ∧
    StepData X W V s s' Ai B ∧ V * W⁻¹ = P * (E * diagonal (fun i => csqrt (l i)) * E⁻¹) ∧
    W * X * W⁻¹ = E * phaseX k0 (fun i => csqrt (l i)) d * E⁻¹

theorem ModeStep.equiv {A P : Matrix n n ℂ} {k0 d : ℝ} {s s' t t' : TState n}
    (h : ModeStep A P k0 d s s') (h' : ModeStep A P k0 d t t') (he : SEquiv s t) : SEquiv s' t' := by
  obtain ⟨E, l, W, V, X, Ai, B, hE, hl, hs, h1, h2⟩ := h
  obtain ⟨E', l', W', V', X', Ai', B', hE', hl', hs', h1', h2'⟩ := h'
  refine hs.equiv hs' ?_ ?_ he
  · rw [h1, h1', fcalc_unique hl hl' hE hE' csqrt]
  · rw [h2, h2']
    exact fcalc_unique hl hl' hE hE' (fun z => Complex.exp (-(k0 : ℂ) * csqrt z * (d : ℂ)))

theorem diagonal_sub (e : n ≃ m) (q : m → ℂ) : (diagonal q).submatrix e e = diagonal (fun i => q (e i)) :=
  submatrix_diagonal_equiv q e

theorem ModeStep.sub (e : n ≃ m) {A P : Matrix m m ℂ} {k0 d : ℝ} {s s' : TState m}
    (h : ModeStep A P k0 d s s') :
    ModeStep (A.submatrix e e) (P.submatrix e e) k0 d (s.sub e) (s'.sub e) := by
  obtain ⟨E, l, W, V, X, Ai, B, hE, hl, hs, h1, h2⟩ := h
  refine ⟨E.submatrix e e, fun i => l (e i), _, _, _, _, _, by rw [det_sub]; exact hE, ?_, hs.sub e, ?_, ?_⟩
  · rw [← diagonal_sub e l, ← mul_sub', hl, mul_sub']
  · rw [inv_sub, inv_sub, ← diagonal_sub e (fun i => csqrt (l i)), ← mul_sub', ← mul_sub', ← mul_sub', ← mul_sub', h1]
  · have : phaseX k0 (fun i => csqrt (l (e i))) d = (phaseX k0 (fun i => csqrt (l i)) d).submatrix e e :=
      (diagonal_sub e (fun i => Complex.exp (-(k0 : ℂ) * csqrt (l i) * (d : ℂ)))).symm
    rw [inv_sub, inv_sub, this, ← mul_sub', ← mul_sub', ← mul_sub', ← mul_sub', h2]

theorem step1d_mode {la : LinAlg} {p : Params} (hp : p.use_pinv = false) {k0 : ℝ} {kx : n → ℂ}
    {c : Conv n} {d : ℝ} {s : TState n} {r : TState n × LayerInfo n n}
    (h : step1d la p k0 kx c d s = .ok r) :
    ModeStep (eigMat1d p.pol kx c) (if p.pol = 0 then 1 else c.epx⁻¹) k0 d s r.1 := by
  unfold step1d transfer_1d_3 at h
  simp only [Except.bind_ok, hp, Except.ok.injEq] at h
  obtain ⟨M, hm, t, ht, rfl⟩ := h
  have hd := tmmStep_ok.mp ht
  by_cases h0 : p.pol = 0
  · rw [eigMat1d, if_pos h0, if_pos h0]
    simp only [transfer_1d_2, h0, if_true, Except.ok.injEq] at hm
    subst hm
    refine ⟨_, _, _, _, _, _, _, hd.hW, la.eig_law _, hd, ?_, rfl⟩
    rw [Matrix.one_mul]
  · by_cases h1 : p.pol = 1
    · rw [eigMat1d, if_neg h0, if_neg h0]
      simp only [transfer_1d_2, h1, one_ne_zero, if_true, if_false, Except.bind_ok, meeinv_false_ok,
        Except.ok.injEq] at hm
      obtain ⟨_, ⟨hx, rfl⟩, rfl⟩ := hm
      refine ⟨_, _, _, _, _, _, _, hd.hW, la.eig_law _, hd, ?_, rfl⟩
      simp only [Matrix.mul_assoc]
    · simp only [transfer_1d_2, h0, h1, if_false] at hm
      cases hm

theorem stepCon_mode {la : LinAlg} {k0 d : ℝ} {kx : m → ℂ} {c : Conv m} {a b : TState m}
    {r : TState (m ⊕ m) × LayerInfoCon m}
    (h : stepCon la false k0 kx (fun _ => 0) (fun _ => 0) c d (blockS a b) = .ok r) :
    ∃ a' b', r.1 = blockS a' b' ∧ ModeStep (eigMat1d 0 kx c) 1 k0 d a a' ∧
      ModeStep (eigMat1d 1 kx c) c.epx⁻¹ k0 d b.swap b'.swap := by
  unfold stepCon at h
  simp only [transfer_1d_conical_3_eq, Except.bind_ok, Except.ok.injEq] at h
  obtain ⟨M, hM, t, ht, rfl⟩ := h
  have hd := tmmStep_ok.mp ht
  simp only [transfer_1d_conical_2, Except.bind_ok, meeinv_false_ok, Except.ok.injEq] at hM
  obtain ⟨A_i, ⟨hAi, rfl⟩, B_i, ⟨hBi, rfl⟩, rfl⟩ := hM
  have z0 : (diagonal fun _ : m => (0 : ℂ)) = 0 := diagonal_zero
  have z2 : (diagonal fun _ : m => (0 : ℂ) ^ 2) = 0 := by simp
  have c1 : (diagonal fun _ : m => Complex.cos 0) = 1 := by simp
  have s1 : (diagonal fun _ : m => Complex.sin 0) = 0 := by simp
  simp only [conW, conV, c1, s1, z0, z2, Matrix.zero_mul, Matrix.one_mul, add_zero, zero_add, sub_zero] at hd
  set A := diagonal (fun i => kx i ^ 2) - c.epy with hA
  set Bm := diagonal kx * c.epzi * diagonal kx - 1 with hB
  have ex : ∀ q1 q2 : m → ℂ, phaseX k0 (Sum.elim q1 q2) d
      = diagonal (Sum.elim (fun i => Complex.exp (-(k0 : ℂ) * q1 i * (d : ℂ)))
          (fun i => Complex.exp (-(k0 : ℂ) * q2 i * (d : ℂ)))) := by
    intro q1 q2
    unfold phaseX
    congr 1
    ext i
    cases i <;> rfl
  rw [ex] at hd
  obtain ⟨a', b', A1, A2, B1, B2, e, hs, hp⟩ := hd.blocks
  refine ⟨a', b', e, ?_, ?_⟩
  · have hV := hs.hV
    have hl := la.eig_law A
    set E := (la.eig A).2
    set l := (la.eig A).1
    have hQ : IsUnit (diagonal fun i => csqrt (l i)).det := isUnit_det_of_mul_right hs.hW
    have hq := isUnit_diag_ne hQ
    rw [eigMat1d, if_pos rfl]
    refine ⟨E, l, _, _, _, _, _, hV, hl, hs, ?_, ?_⟩
    · rw [Matrix.one_mul, Matrix.mul_inv_rev, Matrix.mul_inv_rev, nonsing_inv_nonsing_inv _ hAi]
      have : E⁻¹ * A = diagonal l * E⁻¹ := by
        have h2 := congrArg (fun Z => E⁻¹ * Z * E⁻¹) hl
        simp only [Matrix.mul_assoc, mul_nonsing_inv _ hV, Matrix.mul_one] at h2
        rw [h2, ← Matrix.mul_assoc, nonsing_inv_mul _ hV, Matrix.one_mul]
      rw [this, diag_inv_of_isUnit hQ, ← Matrix.mul_assoc (diagonal _) (diagonal _), diagonal_mul_diagonal, ← Matrix.mul_assoc]
      congr 2
      ext i
      congr 1
      funext i
      rw [inv_mul_eq_div, div_eq_iff (hq i), csqrt_mul_self]
    · set D := diagonal fun i => csqrt (l i) with hD
      have hAW : A⁻¹ * E = E * diagonal (fun i => (l i)⁻¹) := by
        have hl0 : ∀ i, l i ≠ 0 := fun i hi => hq i (by rw [hi]; simp [csqrt])
        have : A * (E * diagonal (fun i => (l i)⁻¹)) = E := by
          rw [← Matrix.mul_assoc, hl, Matrix.mul_assoc, diagonal_mul_diagonal]
          have : (diagonal fun i => l i * (l i)⁻¹) = (1 : Matrix m m ℂ) := by
            rw [← diagonal_one]; congr 1; funext i; exact mul_inv_cancel₀ (hl0 i)
          rw [this, Matrix.mul_one]
        rw [← this, ← Matrix.mul_assoc, ← Matrix.mul_assoc, nonsing_inv_mul _ hAi, Matrix.one_mul, this]
      have hl0 : ∀ i, l i ≠ 0 := fun i hi => hq i (by rw [hi]; simp [csqrt])
      have hW : A⁻¹ * E * D = E * diagonal (fun i => (csqrt (l i))⁻¹) := by
        rw [hAW, Matrix.mul_assoc, hD, diagonal_mul_diagonal]
        congr 2
        funext i
        rw [inv_mul_eq_div, div_eq_iff (hl0 i), eq_inv_mul_iff_mul_eq₀ (hq i), csqrt_mul_self]
      rw [hW]
      have hDi : (diagonal fun i => (csqrt (l i))⁻¹)⁻¹ = D := by
        refine inv_eq_right_inv ?_
        rw [hD, diagonal_mul_diagonal, ← diagonal_one]
        congr 1; funext i; exact inv_mul_cancel₀ (hq i)
      rw [Matrix.mul_inv_rev, hDi, Matrix.mul_assoc E, diagonal_mul_diagonal, Matrix.mul_assoc E,
        ← Matrix.mul_assoc (diagonal _) D, hD, diagonal_mul_diagonal, ← Matrix.mul_assoc]
      congr 2
      unfold phaseX
      congr 1
      funext i
      field_simp [hq i]
  · have hp' := hp.swap
    have hE2 := hp.hW
    have hl := la.eig_law (Bm * c.epx)
    set E2 := (la.eig (Bm * c.epx)).2
    set l := (la.eig (Bm * c.epx)).1
    have hQ : IsUnit (diagonal fun i => csqrt (l i)).det := isUnit_det_of_mul_right hp.hV
    have hq := isUnit_diag_ne hQ
    have hl2 : Bm * c.epx = E2 * diagonal l * E2⁻¹ := by
      rw [← hl, Matrix.mul_assoc, mul_nonsing_inv _ hE2, Matrix.mul_one]
    have hx : IsUnit c.epx.det := by
      have hl0 : IsUnit (diagonal l).det := by
        rw [det_diagonal, isUnit_iff_ne_zero, Finset.prod_ne_zero_iff]
        intro i _ hi
        exact hq i (by rw [hi]; simp [csqrt])
      refine isUnit_det_of_mul_right (A := Bm) ?_
      rw [hl2]
      exact isUnit_det_mul (isUnit_det_mul hE2 hl0) (isUnit_nonsing_inv_det_iff.mpr hE2)
    have hBx : Bm = E2 * diagonal l * E2⁻¹ * c.epx⁻¹ := by
      rw [← hl2, Matrix.mul_assoc, mul_nonsing_inv _ hx, Matrix.mul_one]
    rw [eigMat1d, if_neg one_ne_zero]
    refine ⟨c.epx * E2, l, _, _, _, _, _, isUnit_det_mul hx hE2, ?_, hp', ?_, ?_⟩
    · rw [Matrix.mul_assoc c.epx, ← Matrix.mul_assoc _ c.epx, hl, Matrix.mul_assoc]
    · rw [Matrix.mul_inv_rev, Matrix.mul_inv_rev, nonsing_inv_nonsing_inv _ hBi, Matrix.mul_inv_rev, diag_inv_of_isUnit hQ]
      have : E2⁻¹ * Bm = diagonal l * E2⁻¹ * c.epx⁻¹ := by
        rw [hBx, Matrix.mul_assoc E2, Matrix.mul_assoc E2, ← Matrix.mul_assoc E2⁻¹, nonsing_inv_mul _ hE2, Matrix.one_mul]
      rw [this]
      have h2 : (diagonal fun i => (csqrt (l i))⁻¹) * diagonal l = diagonal fun i => csqrt (l i) := by
        rw [diagonal_mul_diagonal]
        congr 1; funext i
        rw [inv_mul_eq_div, div_eq_iff (hq i), csqrt_mul_self]
      calc _ = E2 * ((diagonal fun i => (csqrt (l i))⁻¹) * diagonal l) * E2⁻¹ * c.epx⁻¹ := by
            simp only [Matrix.mul_assoc]
        _ = _ := by
            rw [h2]
            simp only [Matrix.mul_assoc]
            rw [← Matrix.mul_assoc c.epx⁻¹, nonsing_inv_mul _ hx, Matrix.one_mul]
    · have hl0 : ∀ i, l i ≠ 0 := fun i hi => hq i (by rw [hi]; simp [csqrt])
      have hBi2 : Bm⁻¹ * E2 = c.epx * E2 * diagonal (fun i => (l i)⁻¹) := by
        have : Bm * (c.epx * E2 * diagonal (fun i => (l i)⁻¹)) = E2 := by
          rw [← Matrix.mul_assoc, ← Matrix.mul_assoc, hl, Matrix.mul_assoc, diagonal_mul_diagonal]
          have : (diagonal fun i => l i * (l i)⁻¹) = (1 : Matrix m m ℂ) := by
            rw [← diagonal_one]; congr 1; funext i; exact mul_inv_cancel₀ (hl0 i)
          rw [this, Matrix.mul_one]
        conv_lhs => rw [← this]
        rw [← Matrix.mul_assoc, nonsing_inv_mul _ hBi, Matrix.one_mul]
      set D := diagonal fun i => csqrt (l i) with hD
      have hW : Bm⁻¹ * E2 * D = c.epx * E2 * diagonal (fun i => (csqrt (l i))⁻¹) := by
        rw [hBi2, Matrix.mul_assoc, hD, diagonal_mul_diagonal]
        congr 2
        funext i
        rw [inv_mul_eq_div, div_eq_iff (hl0 i), eq_inv_mul_iff_mul_eq₀ (hq i), csqrt_mul_self]
      rw [hW]
      have hDi : (diagonal fun i => (csqrt (l i))⁻¹)⁻¹ = D := by
        refine inv_eq_right_inv ?_
        rw [hD, diagonal_mul_diagonal, ← diagonal_one]
        congr 1; funext i; exact inv_mul_cancel₀ (hq i)
      rw [Matrix.mul_inv_rev, hDi, Matrix.mul_assoc (c.epx * E2), diagonal_mul_diagonal, Matrix.mul_assoc (c.epx * E2),
        ← Matrix.mul_assoc (diagonal _) D, hD, diagonal_mul_diagonal, ← Matrix.mul_assoc]
      congr 2
      unfold phaseX
      congr 1
      funext i
      field_simp [hq i]

end

/-- With `fto[1] = 0` the flat indices are the x orders. -/
noncomputable def rowEquiv {fx fy : ℕ} (hf : fy = 0) : Fin (2 * fx + 1) ≃ FlatIdx fx fy :=
  Equiv.ofBijective rowIdx ⟨rowIdx_inj, by
    subst hf
    intro i
    obtain ⟨⟨a, b⟩, rfl⟩ := finProdFinEquiv.surjective i
    refine ⟨b, ?_⟩
    have : a = 0 := Subsingleton.elim _ _
    rw [this]
    rfl⟩

theorem rowEquiv_apply {fx fy : ℕ} (hf : fy = 0) (i : Fin (2 * fx + 1)) :
    rowEquiv hf i = (rowIdx i : FlatIdx fx fy) := rfl

theorem tileX_row {fx fy : ℕ} (kx : Fin (2 * fx + 1) → ℂ) (i : Fin (2 * fx + 1)) :
    tileX kx (rowIdx i : FlatIdx fx fy) = kx i := by
  unfold tileX rowIdx
  congr 1
  have := congrArg Prod.snd (finProdFinEquiv.symm_apply_apply ((0 : Fin (2 * fy + 1)), i))
  exact this

theorem eigMat_row {fx fy : ℕ} (hf : fy = 0) (pol : ℝ) (kx : Fin (2 * fx + 1) → ℂ) (c : Conv (FlatIdx fx fy)) :
    (eigMat1d pol (tileX kx) c).submatrix (rowEquiv hf) (rowEquiv hf) = eigMat1d pol kx c.row := by
  have hx : ∀ i, tileX kx (rowEquiv hf i : FlatIdx fx fy) = kx i := fun i => tileX_row kx i
  unfold eigMat1d
  split
  · have : (diagonal fun i : FlatIdx fx fy => tileX kx i ^ 2).submatrix (rowEquiv hf) (rowEquiv hf)
        = diagonal fun i => kx i ^ 2 := by
      rw [diagonal_sub]; simp only [hx]
    rw [← this]; rfl
  · have hd : (diagonal (tileX kx : FlatIdx fx fy → ℂ)).submatrix (rowEquiv hf) (rowEquiv hf) = diagonal kx := by
      rw [diagonal_sub]; simp only [hx]
    have h1 : (diagonal (tileX kx : FlatIdx fx fy → ℂ) * c.epzi * diagonal (tileX kx) - 1).submatrix (rowEquiv hf) (rowEquiv hf)
        = diagonal kx * c.row.epzi * diagonal kx - 1 := by
      rw [← hd]
      have h2 : (diagonal (tileX kx : FlatIdx fx fy → ℂ) * c.epzi * diagonal (tileX kx) - 1).submatrix (rowEquiv hf) (rowEquiv hf)
        = (diagonal (tileX kx : FlatIdx fx fy → ℂ) * c.epzi * diagonal (tileX kx)).submatrix (rowEquiv hf) (rowEquiv hf)
          - (1 : Matrix (FlatIdx fx fy) (FlatIdx fx fy) ℂ).submatrix (rowEquiv hf) (rowEquiv hf) := rfl
      refine h2.trans ?_
      simp only [Pi.sub_apply, mul_sub', submatrix_one_equiv]
      rfl
    rw [mul_sub', h1]
    rfl

/-- The converse of `final_eqs`. -/
theorem final_of_eqs {m : Type} [Fintype m] [DecidableEq m] {nt th ps : ℂ} {kzt δ : m → ℂ} {s : TState (m ⊕ m)}
    {rt : (m ⊕ m) ⊕ (m ⊕ m) → ℂ}
    (h1 : ∀ i, (s.F *ᵥ fun j => rt (.inr j)) (.inl i) = rt (.inl (.inl i)) + Complex.sin ps * δ i)
    (h2 : ∀ i, (s.F *ᵥ fun j => rt (.inr j)) (.inr i)
      = -(Complex.I * (kzt i / nt ^ 2) * rt (.inl (.inr i))) - Complex.cos ps * Complex.cos th * δ i)
    (h3 : ∀ i, (s.G *ᵥ fun j => rt (.inr j)) (.inl i)
      = -(Complex.I * kzt i * rt (.inl (.inl i))) + Complex.I * Complex.sin ps * nt * Complex.cos th * δ i)
    (h4 : ∀ i, (s.G *ᵥ fun j => rt (.inr j)) (.inr i)
      = rt (.inl (.inr i)) + Complex.I * nt * Complex.cos ps * δ i) :
    finalA nt kzt s *ᵥ rt = finalB δ ps th nt := by
  unfold finalA
  rw [fromBlocks_mulVec, fromBlocks_mulVec, fromBlocks_mulVec]
  have c1 : (rt ∘ Sum.inr : m ⊕ m → ℂ) = fun j => rt (.inr j) := rfl
  funext k
  rcases k with (i | i) | (i | i)
  · simp only [Sum.elim_inl, Sum.elim_inr, Pi.add_apply, one_mulVec, zero_mulVec, add_zero, zero_add,
      neg_mulVec, Pi.neg_apply, Function.comp_apply, finalB, c1]
    linear_combination -h1 i
  · simp only [Sum.elim_inl, Sum.elim_inr, Pi.add_apply, one_mulVec, zero_mulVec, add_zero, zero_add,
      neg_mulVec, Pi.neg_apply, Function.comp_apply, finalB, c1, smul_mulVec, Pi.smul_apply,
      mulVec_diagonal, smul_eq_mul]
    linear_combination -h2 i
  · simp only [Sum.elim_inl, Sum.elim_inr, Pi.add_apply, one_mulVec, zero_mulVec, add_zero, zero_add,
      neg_mulVec, Pi.neg_apply, Function.comp_apply, finalB, c1, smul_mulVec, Pi.smul_apply,
      mulVec_diagonal, smul_eq_mul]
    linear_combination -h3 i
  · simp only [Sum.elim_inl, Sum.elim_inr, Pi.add_apply, one_mulVec, zero_mulVec, add_zero, zero_add,
      neg_mulVec, Pi.neg_apply, Function.comp_apply, finalB, c1]
    linear_combination -h4 i

theorem blockS_mulVec {m : Type} [Fintype m] [DecidableEq m] (A D : Matrix m m ℂ) (v : m ⊕ m → ℂ) :
    fromBlocks A 0 0 D *ᵥ v = Sum.elim (A *ᵥ fun i => v (.inl i)) (D *ᵥ fun i => v (.inr i)) := by
  rw [fromBlocks_mulVec]
  simp only [zero_mulVec, add_zero, zero_add]
  rfl

theorem sub_mulVec' {n m : Type} [Fintype n] [Fintype m] (e : n ≃ m) (A : Matrix m m ℂ) (v : n → ℂ) (i : n) :
    (A *ᵥ fun j => v (e.symm j)) (e i) = (A.submatrix e e *ᵥ v) i := by
  simp only [mulVec, dotProduct, submatrix_apply]
  rw [← Equiv.sum_comp e]
  simp

/-- Final step, TE: the amplitudes of the conical solver are those of the 1D solver. -/
theorem final_te {fx fy : ℕ} (hf : fy = 0) {la la' : LinAlg} {a b : TState (FlatIdx fx fy)}
    {kzt kzb : FlatIdx fx fy → ℂ} {kzt' kzb' : Fin (2 * fx + 1) → ℂ} {theta nt nb psi : ℂ} {t : TState (Fin (2 * fx + 1))}
    (hkt : ∀ i, kzt (rowIdx i) = kzt' i)
    (hs : Complex.sin psi = 1) (hc : Complex.cos psi = 0)
    {o : Out4 fx fy} {x : SubRes 1 (2 * fx + 1) × (Fin (2 * fx + 1) → ℂ)} (he : SEquiv (a.sub (rowEquiv hf)) t)
    (h : transfer_2d_4 la (blockS a b) kzt kzb psi theta nt nb false = .ok o)
    (h' : transfer_1d_4 la' 0 t kzt' kzb' theta nt nb false = .ok x) :
    ∃ rt, o.res = subResOf (blockS a b) kzt kzb theta nt nb rt ∧
      (∀ i, rt (.inl (.inl (rowIdx i))) = x.1.R_s 0 i) ∧ (∀ i, rt (.inl (.inr i)) = 0) ∧
      (∀ i, ((blockS a b).T *ᵥ fun j => rt (.inr j)) (.inl (rowIdx i)) = x.1.T_s 0 i) ∧
      (∀ i, ((blockS a b).T *ᵥ fun j => rt (.inr j)) (.inr i) = 0) := by
  obtain ⟨x', hx', ex⟩ := transfer_1d_4_equiv he h'
  obtain ⟨R, T, e1, e2, -, ⟨-, e3, -, r1, r2, -⟩ | ⟨hb, -⟩⟩ := transfer_1d_4_ok hx'
  swap
  · exact absurd hb.symm one_ne_zero
  rw [ex] at r1 r2
  set e := rowEquiv (fx := fx) hf with hedef
  unfold transfer_2d_4 at h
  simp only [Except.bind_ok, meeinv_false_ok, Except.ok.injEq] at h
  obtain ⟨N, ⟨hu, rfl⟩, rfl⟩ := h
  let rt : (FlatIdx fx fy ⊕ FlatIdx fx fy) ⊕ (FlatIdx fx fy ⊕ FlatIdx fx fy) → ℂ :=
    Sum.elim (Sum.elim (fun j => R (e.symm j)) (fun _ => 0)) (Sum.elim (fun j => x'.2 (e.symm j)) (fun _ => 0))
  have hv : (fun j => rt (.inr j)) = Sum.elim (fun j => x'.2 (e.symm j)) (fun _ => 0) := rfl
  have hz : ∀ A : Matrix (FlatIdx fx fy) (FlatIdx fx fy) ℂ, (A *ᵥ fun _ => (0 : ℂ)) = 0 := fun A => mulVec_zero A
  have hA : finalA nt kzt (blockS a b) *ᵥ rt = finalB deltaI0 psi theta nt := by
    have E1 : ∀ i, (a.F *ᵥ fun j => x'.2 (e.symm j)) i = R (e.symm i) + deltaI0 i := by
      intro i
      obtain ⟨k, rfl⟩ := e.surjective i
      rw [sub_mulVec', e.symm_apply_apply]
      refine (congrFun e1 k).trans ?_
      rw [Pi.add_apply, hedef, rowEquiv_apply, deltaI0_rowIdx hf]
    have E2 : ∀ i, (a.G *ᵥ fun j => x'.2 (e.symm j)) i
        = Complex.I * ((nt * Complex.cos theta) * deltaI0 i) - Complex.I * (kzt i * R (e.symm i)) := by
      intro i
      obtain ⟨k, rfl⟩ := e.surjective i
      rw [sub_mulVec', e.symm_apply_apply]
      refine (congrFun e3 k).trans ?_
      rw [hedef, rowEquiv_apply, deltaI0_rowIdx hf, hkt]
    apply final_of_eqs
    · intro i
      rw [hv]
      simp only [blockS, blockS_mulVec, Sum.elim_inl, Sum.elim_inr, hz, E1, rt, hs, one_mul]
    · intro i
      rw [hv]
      simp only [blockS, blockS_mulVec, Sum.elim_inl, Sum.elim_inr, hz, rt, hc, Pi.zero_apply]
      ring
    · intro i
      rw [hv]
      simp only [blockS, blockS_mulVec, Sum.elim_inl, Sum.elim_inr, hz, E2, rt, hs, one_mul]
      ring
    · intro i
      rw [hv]
      simp only [blockS, blockS_mulVec, Sum.elim_inl, Sum.elim_inr, hz, rt, hc, Pi.zero_apply]
      ring
  have hrt : (finalA nt kzt (blockS a b))⁻¹ *ᵥ finalB deltaI0 psi theta nt = rt := by
    rw [← hA, mulVec_mulVec, nonsing_inv_mul _ hu, one_mulVec]
  refine ⟨rt, by simp only [hrt], ?_, fun _ => rfl, ?_, ?_⟩
  · intro i
    have : e.symm (rowIdx i) = i := by rw [← rowEquiv_apply hf, hedef, Equiv.symm_apply_apply]
    simp only [rt, Sum.elim_inl, this, r1]
  · intro i
    rw [hv]
    simp only [blockS, blockS_mulVec, Sum.elim_inl]
    rw [← rowEquiv_apply hf, ← hedef, sub_mulVec', r2, e2]
    rfl
  · intro i
    rw [hv]
    simp only [blockS, blockS_mulVec, Sum.elim_inr, hz, Pi.zero_apply]

/-- Final step, TM: the amplitudes of the conical solver are those of the 1D solver times `i n_top`. -/
theorem final_tm {fx fy : ℕ} (hf : fy = 0) {la la' : LinAlg} {a b : TState (FlatIdx fx fy)}
    {kzt kzb : FlatIdx fx fy → ℂ} {kzt' kzb' : Fin (2 * fx + 1) → ℂ} {theta nt nb psi : ℂ} {t : TState (Fin (2 * fx + 1))}
    (hkt : ∀ i, kzt (rowIdx i) = kzt' i) (hnt : nt ≠ 0)
    (hs : Complex.sin psi = 0) (hc : Complex.cos psi = 1)
    {o : Out4 fx fy} {x : SubRes 1 (2 * fx + 1) × (Fin (2 * fx + 1) → ℂ)} (he : SEquiv (b.swap.sub (rowEquiv hf)) t)
    (h : transfer_2d_4 la (blockS a b) kzt kzb psi theta nt nb false = .ok o)
    (h' : transfer_1d_4 la' 1 t kzt' kzb' theta nt nb false = .ok x) :
    ∃ rt, o.res = subResOf (blockS a b) kzt kzb theta nt nb rt ∧
      (∀ i, rt (.inl (.inr (rowIdx i))) = Complex.I * nt * x.1.R_p 0 i) ∧ (∀ i, rt (.inl (.inl i)) = 0) ∧
      (∀ i, ((blockS a b).T *ᵥ fun j => rt (.inr j)) (.inr (rowIdx i)) = Complex.I * nt * x.1.T_p 0 i) ∧
      (∀ i, ((blockS a b).T *ᵥ fun j => rt (.inr j)) (.inl i) = 0) := by
  obtain ⟨x', hx', ex⟩ := transfer_1d_4_equiv he h'
  obtain ⟨R, T, e1, e2, -, ⟨hb, -⟩ | ⟨-, e3, -, r1, r2, -⟩⟩ := transfer_1d_4_ok hx'
  · exact absurd hb one_ne_zero
  rw [ex] at r1 r2
  set e := rowEquiv (fx := fx) hf with hedef
  unfold transfer_2d_4 at h
  simp only [Except.bind_ok, meeinv_false_ok, Except.ok.injEq] at h
  obtain ⟨N, ⟨hu, rfl⟩, rfl⟩ := h
  let u : FlatIdx fx fy → ℂ := (Complex.I * nt) • fun j => x'.2 (e.symm j)
  let rt : (FlatIdx fx fy ⊕ FlatIdx fx fy) ⊕ (FlatIdx fx fy ⊕ FlatIdx fx fy) → ℂ :=
    Sum.elim (Sum.elim (fun _ => 0) (fun j => Complex.I * nt * R (e.symm j))) (Sum.elim (fun _ => 0) u)
  have hv : (fun j => rt (.inr j)) = Sum.elim (fun _ => 0) u := rfl
  have hz : ∀ A : Matrix (FlatIdx fx fy) (FlatIdx fx fy) ℂ, (A *ᵥ fun _ => (0 : ℂ)) = 0 := fun A => mulVec_zero A
  have hA : finalA nt kzt (blockS a b) *ᵥ rt = finalB deltaI0 psi theta nt := by
    have E1 : ∀ i, (b.G *ᵥ u) i = Complex.I * nt * (R (e.symm i) + deltaI0 i) := by
      intro i
      obtain ⟨k, rfl⟩ := e.surjective i
      simp only [u]
      rw [mulVec_smul, Pi.smul_apply, sub_mulVec', e.symm_apply_apply, smul_eq_mul]
      congr 1
      refine (congrFun e1 k).trans ?_
      rw [Pi.add_apply, hedef, rowEquiv_apply, deltaI0_rowIdx hf]
    have E2 : ∀ i, (b.F *ᵥ u) i = Complex.I * nt *
        (Complex.I * ((Complex.cos theta / nt) * deltaI0 i) - Complex.I * (kzt i / nt ^ 2 * R (e.symm i))) := by
      intro i
      obtain ⟨k, rfl⟩ := e.surjective i
      simp only [u]
      rw [mulVec_smul, Pi.smul_apply, sub_mulVec', e.symm_apply_apply, smul_eq_mul]
      congr 1
      refine (congrFun e3 k).trans ?_
      rw [hedef, rowEquiv_apply, deltaI0_rowIdx hf, hkt]
    apply final_of_eqs
    · intro i
      rw [hv]
      simp only [blockS, blockS_mulVec, Sum.elim_inl, Sum.elim_inr, hz, rt, hs, Pi.zero_apply]
      ring
    · intro i
      rw [hv]
      simp only [blockS, blockS_mulVec, Sum.elim_inl, Sum.elim_inr, E2, rt, hc, one_mul]
      field_simp
      linear_combination (Complex.cos theta * nt * deltaI0 i) * Complex.I_sq
    · intro i
      rw [hv]
      simp only [blockS, blockS_mulVec, Sum.elim_inl, Sum.elim_inr, hz, rt, hs, Pi.zero_apply]
      ring
    · intro i
      rw [hv]
      simp only [blockS, blockS_mulVec, Sum.elim_inl, Sum.elim_inr, E1, rt, hc]
      ring
  have hrt : (finalA nt kzt (blockS a b))⁻¹ *ᵥ finalB deltaI0 psi theta nt = rt := by
    rw [← hA, mulVec_mulVec, nonsing_inv_mul _ hu, one_mulVec]
  refine ⟨rt, by simp only [hrt], ?_, fun _ => rfl, ?_, ?_⟩
  · intro i
    have : e.symm (rowIdx i) = i := by rw [← rowEquiv_apply hf, hedef, Equiv.symm_apply_apply]
    simp only [rt, Sum.elim_inl, Sum.elim_inr, this, r1]
  · intro i
    rw [hv]
    simp only [blockS, blockS_mulVec, Sum.elim_inr, u]
    rw [← rowEquiv_apply hf, ← hedef, mulVec_smul, Pi.smul_apply, sub_mulVec', r2, e2]
    rfl
  · intro i
    rw [hv]
    simp only [blockS, blockS_mulVec, Sum.elim_inl, hz, Pi.zero_apply]

/-- Same illumination, azimuth stated explicitly. -/
abbrev Params.withPhi (p : Params) (phi : Option ℂ) : Params := { p with phi := phi }

theorem kxVec_zero {p : Params} (hphi : p.phi = none) (wl : ℝ) : kxVec (p.withPhi (some 0)) wl = kxVec p wl := by
  funext i
  simp only [kxVec, hphi, Option.getD_some, Option.getD_none]

theorem kyF_zero {p : Params} (hf : p.fto.2 = 0) (wl : ℝ) : kyF (p.withPhi (some 0)) wl = fun _ => 0 := by
  funext i
  simp only [tileY, kyVec, Option.getD_some, Complex.sin_zero, mul_zero, zero_add]
  have h1 := (i.divNat (m := 2 * p.fto.2 + 1) (n := 2 * p.fto.1 + 1)).isLt
  have h2 : (((i.divNat (m := 2 * p.fto.2 + 1) (n := 2 * p.fto.1 + 1) : ℕ) : ℤ) - (p.fto.2 : ℤ)) = 0 := by omega
  rw [h2]
  simp

theorem varphi_zero {m : Type} {kx v : m → ℂ} (h : varphiAll kx (fun _ => 0) = .ok v) : v = fun _ => 0 := by
  unfold varphiAll at h
  split at h
  · rename_i hs
    cases h
    funext i
    have hi := hs i
    unfold varphi1 at hi
    by_cases h0 : kx i = 0
    · simp [h0] at hi
    · have : varphi1 (kx i) 0 = some 0 := by
        unfold varphi1
        rw [if_neg h0]
        simp [Complex.arctan]
      simp [this]
  · cases h

/-- The state of the conical solver at azimuth zero next to the state of the 1D solver. -/
def PhiRel {fx fy : ℕ} (hf : fy = 0) (pol : ℝ) (s : TState (FlatIdx fx fy ⊕ FlatIdx fx fy))
    (t : TState (Fin (2 * fx + 1))) : Prop :=
  ∃ a b, s = blockS a b ∧ SEquiv ((if pol = 0 then a else b.swap).sub (rowEquiv hf)) t

theorem phiRel_step {la la' : LinAlg} {p : Params} (hf : p.fto.2 = 0) (hp : p.use_pinv = false)
    (hpol : p.pol = 0 ∨ p.pol = 1) {k0 : ℝ} {kx : Fin (2 * p.fto.1 + 1) → ℂ}
    {x : Conv (FlatIdx p.fto.1 p.fto.2) × ℝ} {s t r r'} (hP : PhiRel hf p.pol s t)
    (h : stepCon la false k0 (tileX kx) (fun _ => 0) (fun _ => 0) x.1 x.2 s = .ok r)
    (h' : step1d la' p k0 kx x.1.row x.2 t = .ok r') : PhiRel hf p.pol r.1 r'.1 := by
  obtain ⟨a, b, rfl, he⟩ := hP
  obtain ⟨a', b', e, ha, hb⟩ := stepCon_mode h
  have h1 := step1d_mode hp h'
  refine ⟨a', b', e, ?_⟩
  rcases hpol with h0 | h0
  · rw [h0] at he h1 ⊢
    rw [if_pos rfl] at he h1 ⊢
    have h2 := ha.sub (rowEquiv hf)
    rw [eigMat_row, submatrix_one_equiv] at h2
    exact h2.equiv h1 he
  · rw [h0] at he h1 ⊢
    rw [if_neg one_ne_zero] at he h1 ⊢
    have h2 := hb.sub (rowEquiv hf)
    rw [eigMat_row, ← inv_sub] at h2
    exact h2.equiv h1 he

theorem phi_zero_solve {la la' : LinAlg} {p : Params} {wl : ℝ} (hf : p.fto.2 = 0) (hp : p.use_pinv = false)
    (hphi : p.phi = none) (hpol : p.pol = 0 ∨ p.pol = 1)
    {convs : List (Conv (FlatIdx p.fto.1 p.fto.2))} {o : OutCon p.fto.1 p.fto.2} {o' : Out1D (2 * p.fto.1 + 1)}
    (h : solve_1d_conical la (p.withPhi (some 0)) wl convs = .ok o)
    (h' : solve_1d la' p wl (convs.map Conv.row) = .ok o') :
    ∃ (a b : TState (FlatIdx p.fto.1 p.fto.2)) (t : TState (Fin (2 * p.fto.1 + 1)))
      (kzt kzb : FlatIdx p.fto.1 p.fto.2 → ℂ) (kzt' kzb' : Fin (2 * p.fto.1 + 1) → ℂ) (x : _ × _),
      (∀ i, kzt (rowIdx i) = kzt' i) ∧ (∀ i, kzb (rowIdx i) = kzb' i) ∧
      SEquiv ((if p.pol = 0 then a else b.swap).sub (rowEquiv hf)) t ∧
      transfer_2d_4 la (blockS a b) kzt kzb p.psi p.theta p.n_top p.n_bot false = .ok o.out ∧
      transfer_1d_4 la' p.pol t kzt' kzb' p.theta p.n_top p.n_bot false = .ok x ∧ o'.res = x.1 := by
  obtain ⟨-, -, init, r, x, h1, h2, h3, rfl⟩ := (solve_con_iff (p := p.withPhi (some 0)) hp).mp h
  obtain ⟨-, init', r', x', h1', h2', h3', rfl⟩ := (solve_1d_iff hp).mp h'
  have hkx : kxF (p.withPhi (some 0)) wl = (tileX (kxVec p wl) : FlatIdx p.fto.1 p.fto.2 → ℂ) := by
    show tileX (kxVec (p.withPhi (some 0)) wl) = _
    rw [kxVec_zero hphi]
  have hky := kyF_zero hf wl
  rw [hkx, hky] at h1 h2
  unfold transfer_2d_1 at h1
  simp only [Except.bind_ok, Except.ok.injEq] at h1
  obtain ⟨v, hv, rfl⟩ := h1
  obtain rfl := varphi_zero hv
  have hkz : ∀ nn i, kz2d nn (tileX (kxVec p wl) : FlatIdx p.fto.1 p.fto.2 → ℂ) (fun _ => 0) (rowIdx i)
      = kz1d nn (kxVec p wl) i := by
    intro nn i
    simp only [kz2d, kz1d, tileX_row]
    congr 2
    ring
  have hkz1 := transfer_1d_1_kz h1'
  have hP0 : PhiRel hf p.pol
      { F := fromBlocks 1 0 0 (((1 : ℂ) / p.n_bot ^ 2) • (Complex.I • diagonal
          (kz2d p.n_bot (tileX (kxVec p wl) : FlatIdx p.fto.1 p.fto.2 → ℂ) (fun _ => 0)))),
        G := fromBlocks (Complex.I • diagonal
          (kz2d p.n_bot (tileX (kxVec p wl) : FlatIdx p.fto.1 p.fto.2 → ℂ) (fun _ => 0))) 0 0 1,
        T := 1 } init'.2.2 := by
    refine ⟨⟨1, Complex.I • diagonal (kz2d p.n_bot (tileX (kxVec p wl)) (fun _ => 0)), 1⟩,
      ⟨((1 : ℂ) / p.n_bot ^ 2) • (Complex.I • diagonal (kz2d p.n_bot (tileX (kxVec p wl)) (fun _ => 0))), 1, 1⟩,
      by simp only [blockS, fromBlocks_one], ?_⟩
    have hd : (diagonal (kz2d p.n_bot (tileX (kxVec p wl) : FlatIdx p.fto.1 p.fto.2 → ℂ) (fun _ => 0))).submatrix
        (rowEquiv hf) (rowEquiv hf) = diagonal (kz1d p.n_bot (kxVec p wl)) := by
      rw [diagonal_sub]
      congr 1
      funext i
      exact hkz _ i
    unfold transfer_1d_1 at h1'
    rcases hpol with h0 | h0
    · rw [if_pos h0] at h1' ⊢
      cases h1'
      have : TState.sub (rowEquiv hf) (⟨1, Complex.I • diagonal (kz2d p.n_bot (tileX (kxVec p wl)) (fun _ => 0)), 1⟩
          : TState (FlatIdx p.fto.1 p.fto.2)) = ⟨1, Complex.I • diagonal (kz1d p.n_bot (kxVec p wl)), 1⟩ := by
        simp only [TState.sub, submatrix_one_equiv, ← hd]
        rfl
      rw [this]
      exact SEquiv.refl _
    · have h00 : p.pol ≠ 0 := by rw [h0]; exact one_ne_zero
      rw [if_neg h00, if_pos h0] at h1'
      rw [if_neg h00]
      cases h1'
      have : TState.sub (rowEquiv hf) (TState.swap (⟨((1 : ℂ) / p.n_bot ^ 2) • (Complex.I • diagonal
            (kz2d p.n_bot (tileX (kxVec p wl)) (fun _ => 0))), 1, 1⟩
          : TState (FlatIdx p.fto.1 p.fto.2)))
          = ⟨1, Complex.I • diagonal (fun i => kz1d p.n_bot (kxVec p wl) i / p.n_bot ^ 2), 1⟩ := by
        simp only [TState.sub, TState.swap, submatrix_one_equiv]
        congr 1
        have e1 : ((((1 : ℂ) / p.n_bot ^ 2) • (Complex.I • diagonal (kz2d p.n_bot (tileX (kxVec p wl)
            : FlatIdx p.fto.1 p.fto.2 → ℂ) (fun _ => 0)))).submatrix (rowEquiv hf) (rowEquiv hf))
            = ((1 : ℂ) / p.n_bot ^ 2) • (Complex.I • diagonal (kz1d p.n_bot (kxVec p wl))) := by
          rw [← hd]; rfl
        refine e1.trans ?_
        ext i j
        simp only [Matrix.smul_apply, diagonal_apply, smul_eq_mul]
        split
        · ring
        · ring
      rw [this]
      exact SEquiv.refl _
  have hQ : List.Forall₂ (fun (x : Conv (FlatIdx p.fto.1 p.fto.2) × ℝ) x' => x' = (x.1.row, x.2))
      (convs.zip p.thickness) ((convs.map Conv.row).zip p.thickness) := by
    rw [List.zip_map_left, List.forall₂_map_right_iff]
    exact List.forall₂_same.mpr fun _ _ => rfl
  have hR := runLayers_rel (PhiRel hf p.pol) _
    (fun y y' s t r r' hy hst e1 e2 => by subst hy; exact phiRel_step hf hp hpol hst e1 e2) hQ hP0 h2 h2'
  obtain ⟨a, b, e, he⟩ := hR
  rw [e] at h3
  exact ⟨a, b, r'.1, _, _, init'.1, init'.2.1, x', fun i => by rw [hkz1.1]; exact hkz _ i,
    fun i => by rw [hkz1.2]; exact hkz _ i, he, h3, h3', rfl⟩

theorem transfer_te_eff {f : ℕ} {la : LinAlg} {s : TState (Fin f)} {kzt kzb : Fin f → ℂ} {theta nt nb : ℂ}
    {x : SubRes 1 f × (Fin f → ℂ)} (h : transfer_1d_4 la 0 s kzt kzb theta nt nb false = .ok x) :
    x.1 = { R_s := x.1.R_s, R_p := fun _ _ => 0, T_s := x.1.T_s, T_p := fun _ _ => 0,
            de_ri_s := fun _ i => effOf (x.1.R_s 0 i) (kzt i / (nt * Complex.cos theta)), de_ri_p := fun _ _ => 0,
            de_ri := fun _ i => effOf (x.1.R_s 0 i) (kzt i / (nt * Complex.cos theta)),
            de_ti_s := fun _ i => effOf (x.1.T_s 0 i) (kzb i / (nt * Complex.cos theta)), de_ti_p := fun _ _ => 0,
            de_ti := fun _ i => effOf (x.1.T_s 0 i) (kzb i / (nt * Complex.cos theta)) } := by
  unfold transfer_1d_4 at h
  simp only [if_true, Except.bind_ok, meeinv_false_ok] at h
  obtain ⟨M, ⟨hu, rfl⟩, T1, e1, e2⟩ := h
  simp only [Except.ok.injEq] at e1 e2
  subst e2
  rfl

theorem transfer_tm_eff {f : ℕ} {la : LinAlg} {s : TState (Fin f)} {kzt kzb : Fin f → ℂ} {theta nt nb : ℂ}
    {x : SubRes 1 f × (Fin f → ℂ)} (h : transfer_1d_4 la 1 s kzt kzb theta nt nb false = .ok x) :
    x.1 = { R_s := fun _ _ => 0, R_p := x.1.R_p, T_s := fun _ _ => 0, T_p := x.1.T_p,
            de_ri_s := fun _ _ => 0, de_ri_p := fun _ i => effOf (x.1.R_p 0 i) (kzt i / (nt * Complex.cos theta)),
            de_ri := fun _ i => effOf (x.1.R_p 0 i) (kzt i / (nt * Complex.cos theta)),
            de_ti_s := fun _ _ => 0,
            de_ti_p := fun _ i => effOf (x.1.T_p 0 i) (kzb i / nb ^ 2 / (Complex.cos theta / nt)),
            de_ti := fun _ i => effOf (x.1.T_p 0 i) (kzb i / nb ^ 2 / (Complex.cos theta / nt)) } := by
  unfold transfer_1d_4 at h
  simp only [if_true, if_false, one_ne_zero, Except.bind_ok, meeinv_false_ok] at h
  obtain ⟨M, ⟨hu, rfl⟩, T1, e1, e2⟩ := h
  simp only [Except.ok.injEq] at e1 e2
  subst e2
  rfl

theorem effOf_I_mul {nt r w w' : ℂ} (hre : nt.im = 0) (hw : w' = nt ^ 2 * w) :
    effOf (Complex.I * nt * r) w = effOf r w' := by
  obtain ⟨c, rfl⟩ : ∃ c : ℝ, nt = c := ⟨nt.re, by apply Complex.ext <;> simp [hre]⟩
  subst hw
  have h1 : (((c : ℂ) ^ 2 * w)).re = c ^ 2 * w.re := by
    have : ((c : ℂ) ^ 2) = ((c ^ 2 : ℝ) : ℂ) := by push_cast; rfl
    rw [this, Complex.re_ofReal_mul]
  unfold effOf
  rw [h1]
  have : Complex.I * ↑c * r * star (Complex.I * ↑c * r) * ((w.re : ℝ) : ℂ)
      = r * star r * ((c ^ 2 * w.re : ℝ) : ℂ) := by
    simp only [star_mul', Complex.star_def, Complex.conj_I, Complex.conj_ofReal]
    push_cast
    linear_combination (-(c : ℂ) ^ 2 * r * (starRingEnd ℂ) r * w.re) * Complex.I_sq
  rw [this]

end Meent
