import Verif.Lemmas.AbsorbSpec
import Verif.Lemmas.PhiZero

/-!
# When the conical solver at azimuth zero succeeds (helper lemmas)
-/

open Matrix

namespace Meent

set_option linter.unusedSectionVars false
set_option linter.unusedSimpArgs false

section
variable {n m : Type} [Fintype n] [DecidableEq n] [Fintype m] [DecidableEq m]

/-- A step can be taken with every other choice of modes for the same layer. -/
theorem StepData.transport {X W V X' W' V' : Matrix n n ℂ} {s s' t : TState n} {Ai B : Matrix n n ℂ} (h : StepData X W V s t Ai B)
    (hW' : IsUnit W'.det) (hY : V * W⁻¹ = V' * W'⁻¹) (hZ : W * X * W⁻¹ = W' * X' * W'⁻¹) (he : SEquiv s s') :
    ∃ t' Ai' B', StepData X' W' V' s' t' Ai' B' ∧ SEquiv t t' := by
  have hV' : V' = V * (W⁻¹ * W') := by
    rw [← Matrix.mul_assoc, hY, Matrix.mul_assoc, nonsing_inv_mul _ hW', Matrix.mul_one]
  have hWi : IsUnit (W⁻¹).det := isUnit_nonsing_inv_det_iff.mpr h.hW
  have hC : IsUnit (W⁻¹ * W').det := isUnit_det_mul hWi hW'
  have hVu : IsUnit V'.det := by rw [hV']; exact isUnit_det_mul h.hV hC
  obtain ⟨M, hM, e⟩ := id he
  have hA : stepA W' V' s' = (W⁻¹ * W')⁻¹ * stepA W V s * M := by
    have e1 : W'⁻¹ = (W⁻¹ * W')⁻¹ * W⁻¹ := by
      rw [Matrix.mul_inv_rev, nonsing_inv_nonsing_inv _ h.hW, Matrix.mul_assoc, mul_nonsing_inv _ h.hW, Matrix.mul_one]
    have e2 : V'⁻¹ = (W⁻¹ * W')⁻¹ * V⁻¹ := by rw [hV', Matrix.mul_inv_rev]
    rw [stepA, stepA, e, e2]
    conv_lhs => rw [e1]
    simp only [TState.rmul, Matrix.mul_smul, Matrix.smul_mul, Matrix.mul_add, Matrix.add_mul, Matrix.mul_assoc]
  have hAu : IsUnit (stepA W' V' s').det := by
    rw [hA]
    exact isUnit_det_mul (isUnit_det_mul (isUnit_nonsing_inv_det_iff.mpr hC) h.hA) hM
  have hs : StepData X' W' V' s' _ _ _ := ⟨hW', hVu, hAu, rfl, rfl, rfl⟩
  exact ⟨_, _, _, hs, h.equiv hs hY hZ he⟩

theorem ModeStep.run {A P : Matrix n n ℂ} {k0 d : ℝ} {s s' t : TState n} (h : ModeStep A P k0 d s s') {E : Matrix n n ℂ} {l : n → ℂ}
    (hE : IsUnit E.det) (hl : A * E = E * diagonal l) {W V X : Matrix n n ℂ} (hW : IsUnit W.det)
    (hY : V * W⁻¹ = P * (E * diagonal (fun i => csqrt (l i)) * E⁻¹))
    (hZ : W * X * W⁻¹ = E * phaseX k0 (fun i => csqrt (l i)) d * E⁻¹) (he : SEquiv s t) :
    ∃ t' Ai B, StepData X W V t t' Ai B ∧ SEquiv s' t' := by
  obtain ⟨E', l', W', V', X', Ai', B', hE', hl', hs', h1', h2'⟩ := h
  refine hs'.transport hW ?_ ?_ he
  · rw [h1', hY, fcalc_unique hl' hl hE' hE csqrt]
  · rw [h2', hZ]
    exact fcalc_unique hl' hl hE' hE (fun z => Complex.exp (-(k0 : ℂ) * csqrt z * (d : ℂ)))

/-- The modes of such a layer are not at cut-off. -/
theorem ModeStep.away {A P : Matrix n n ℂ} {k0 d : ℝ} {s s' : TState n} (h : ModeStep A P k0 d s s') :
    IsUnit P.det ∧ IsUnit A.det ∧ (∃ E l, IsUnit E.det ∧ A * E = E * diagonal l) := by
  obtain ⟨E, l, W, V, X, Ai, B, hE, hl, hs, h1, -⟩ := h
  have hu : IsUnit (V * W⁻¹).det := isUnit_det_mul hs.hV (isUnit_nonsing_inv_det_iff.mpr hs.hW)
  rw [h1] at hu
  have hD : IsUnit (diagonal fun i => csqrt (l i)).det :=
    isUnit_det_of_mul_right (isUnit_det_of_mul_left (isUnit_det_of_mul_right hu))
  have hq := isUnit_diag_ne hD
  refine ⟨isUnit_det_of_mul_left hu, ?_, E, l, hE, hl⟩
  have hl0 : IsUnit (diagonal l).det := by
    rw [det_diagonal, isUnit_iff_ne_zero, Finset.prod_ne_zero_iff]
    intro i _ hi
    exact hq i (by rw [hi]; simp [csqrt])
  refine isUnit_det_of_mul_left (B := E) ?_
  rw [hl]
  exact isUnit_det_mul hE hl0

/-- Every eigenvalue of an invertible matrix has a root different from zero. -/
theorem root_ne {A E : Matrix n n ℂ} {l : n → ℂ} (hA : IsUnit A.det) (hE : IsUnit E.det) (hl : A * E = E * diagonal l) (i : n) :
    csqrt (l i) ≠ 0 := by
  have hd : IsUnit (diagonal l).det := isUnit_det_of_mul_right (A := E) (by rw [← hl]; exact isUnit_det_mul hA hE)
  intro h0
  have := csqrt_mul_self (l i)
  rw [h0, mul_zero] at this
  exact isUnit_diag_ne hd i this.symm

theorem step1d_of_mode {la : LinAlg} {p : Params} (hp : p.use_pinv = false) (hpol : p.pol = 0 ∨ p.pol = 1) {k0 : ℝ} {kx : n → ℂ}
    {c : Conv n} {d : ℝ} {s s' t : TState n} (hb : BasisAt la (eigMat1d p.pol kx c))
    (h : ModeStep (eigMat1d p.pol kx c) (if p.pol = 0 then 1 else c.epx⁻¹) k0 d s s') (he : SEquiv s t) :
    ∃ r, step1d la p k0 kx c d t = .ok r ∧ SEquiv s' r.1 := by
  obtain ⟨hP, hA, hd⟩ := h.away
  have hE := hb hd
  suffices hs : ∃ m' t' l', transfer_1d_2 la p.pol kx c false = .ok m' ∧
      tmmStep la false (phaseX k0 m'.q d) m'.W m'.V t = .ok (t', l') ∧ SEquiv s' t' by
    obtain ⟨m', t', l', h1, h2, h3⟩ := hs
    refine ⟨⟨t', ⟨c.epzi, m', d, l'.1, l'.2⟩⟩, ?_, h3⟩
    unfold step1d transfer_1d_3
    simp only [hp, h1, h2, bind, Except.bind]
  rcases hpol with h0 | h0
  · simp only [h0, eigMat1d, if_true] at h hE
    set A := diagonal (fun i => kx i ^ 2) - c.epy with hA
    obtain ⟨t', Ai, B, h1, h2⟩ := h.run hE (la.eig_law A) (W := (la.eig A).2) (V := (la.eig A).2 * diagonal fun i => csqrt ((la.eig A).1 i))
      (X := phaseX k0 (fun i => csqrt ((la.eig A).1 i)) d) hE (by rw [Matrix.one_mul]) rfl he
    refine ⟨⟨(la.eig A).2, (la.eig A).2 * diagonal (fun i => csqrt ((la.eig A).1 i)),
      fun i => csqrt ((la.eig A).1 i)⟩, t', (Ai, B), ?_, tmmStep_ok.mpr h1, h2⟩
    simp only [transfer_1d_2, h0, if_true]
    rfl
  · rw [h0, if_neg one_ne_zero] at hP
    simp only [h0, eigMat1d, one_ne_zero, if_false] at h hE
    set A := c.epx * (diagonal kx * c.epzi * diagonal kx - 1) with hA
    obtain ⟨t', Ai, B, h1, h2⟩ := h.run hE (la.eig_law A) (W := (la.eig A).2)
      (V := c.epx⁻¹ * (la.eig A).2 * diagonal fun i => csqrt ((la.eig A).1 i))
      (X := phaseX k0 (fun i => csqrt ((la.eig A).1 i)) d) hE (by simp only [Matrix.mul_assoc]) rfl he
    refine ⟨⟨(la.eig A).2, c.epx⁻¹ * (la.eig A).2 * diagonal (fun i => csqrt ((la.eig A).1 i)),
      fun i => csqrt ((la.eig A).1 i)⟩, t', (Ai, B), ?_, tmmStep_ok.mpr h1, h2⟩
    simp only [transfer_1d_2, h0, one_ne_zero, if_true, if_false, Except.bind_ok, meeinv_false_ok]
    exact ⟨_, ⟨isUnit_nonsing_inv_det_iff.mp hP, rfl⟩, rfl⟩

theorem StepData.join {x y : m → ℂ} {W1 W2 V1 V2 : Matrix m m ℂ} {a b a' b' : TState m} {A1 A2 B1 B2 : Matrix m m ℂ}
    (h1 : StepData (diagonal x) W1 V1 a a' A1 B1) (h2 : StepData (diagonal y) W2 V2 b b' A2 B2) :
    ∃ Ai B, StepData (diagonal (Sum.elim x y)) (fromBlocks W1 0 0 W2) (fromBlocks V1 0 0 V2) (blockS a b) (blockS a' b') Ai B := by
  have hA : stepA (fromBlocks W1 0 0 W2) (fromBlocks V1 0 0 V2) (blockS a b)
      = fromBlocks (stepA W1 V1 a) 0 0 (stepA W2 V2 b) := by
    simp only [stepA, blockS, blockDiag_inv h1.hW h2.hW, blockDiag_inv h1.hV h2.hV, fromBlocks_multiply,
      Matrix.mul_zero, Matrix.zero_mul, add_zero, zero_add, fromBlocks_add, fromBlocks_smul, smul_zero]
  have hs : StepData (diagonal (Sum.elim x y)) (fromBlocks W1 0 0 W2) (fromBlocks V1 0 0 V2) (blockS a b) _ _ _ :=
    ⟨by rw [det_fromBlocks_zero₂₁]; exact h1.hW.mul h2.hW, by rw [det_fromBlocks_zero₂₁]; exact h1.hV.mul h2.hV,
      by rw [hA, det_fromBlocks_zero₂₁]; exact h1.hA.mul h2.hA, rfl, rfl, rfl⟩
  refine ⟨_, _, hs.hW, hs.hV, hs.hA, rfl, rfl, ?_⟩
  rw [h1.s'_eq, h2.s'_eq, h1.Ai_eq, h2.Ai_eq, h1.B_eq, h2.B_eq, hA, blockDiag_inv h1.hA h2.hA, ← fromBlocks_diagonal, ← fromBlocks_one]
  simp only [blockS, blockDiag_inv h1.hW h2.hW, blockDiag_inv h1.hV h2.hV, fromBlocks_multiply, Matrix.mul_zero, Matrix.zero_mul, add_zero,
    zero_add, fromBlocks_add, fromBlocks_sub', fromBlocks_smul, smul_zero, sub_zero]

end

section
variable {m : Type} [Fintype m] [DecidableEq m]

/-- The TE half of a conical layer at azimuth zero. -/
theorem con_te_modes {A E : Matrix m m ℂ} {l : m → ℂ} (hA : IsUnit A.det) (hE : IsUnit E.det) (hl : A * E = E * diagonal l) (k0 d : ℝ) :
    IsUnit (A⁻¹ * E * diagonal fun i => csqrt (l i)).det ∧
    E * (A⁻¹ * E * diagonal fun i => csqrt (l i))⁻¹ = 1 * (E * diagonal (fun i => csqrt (l i)) * E⁻¹) ∧
    (A⁻¹ * E * diagonal fun i => csqrt (l i)) * phaseX k0 (fun i => csqrt (l i)) d * (A⁻¹ * E * diagonal fun i => csqrt (l i))⁻¹ =
      E * phaseX k0 (fun i => csqrt (l i)) d * E⁻¹ := by
  have hq := root_ne hA hE hl
  have hl0 : ∀ i, l i ≠ 0 := fun i hi => hq i (by rw [hi]; simp [csqrt])
  have hW : (A⁻¹ * E * diagonal fun i => csqrt (l i)) = E * diagonal (fun i => (csqrt (l i))⁻¹) := by
    have h1 : A * (E * diagonal (fun i => (csqrt (l i))⁻¹)) = E * diagonal fun i => csqrt (l i) := by
      rw [← Matrix.mul_assoc, hl, Matrix.mul_assoc, diagonal_mul_diagonal]
      congr 2
      funext i
      rw [← div_eq_mul_inv, div_eq_iff (hq i), csqrt_mul_self]
    rw [Matrix.mul_assoc, ← h1, ← Matrix.mul_assoc, nonsing_inv_mul _ hA, Matrix.one_mul]
  have hDu : IsUnit (diagonal fun i => (csqrt (l i))⁻¹).det := by
    rw [det_diagonal, isUnit_iff_ne_zero, Finset.prod_ne_zero_iff]
    exact fun i _ => inv_ne_zero (hq i)
  have hDi : (diagonal fun i => (csqrt (l i))⁻¹)⁻¹ = diagonal fun i => csqrt (l i) := by
    rw [diag_inv_of_isUnit hDu]
    congr 1
    funext i
    rw [inv_inv]
  rw [hW]
  refine ⟨isUnit_det_mul hE hDu, ?_, ?_⟩
  · rw [Matrix.mul_inv_rev, hDi, Matrix.one_mul, Matrix.mul_assoc]
  · rw [Matrix.mul_inv_rev, hDi, Matrix.mul_assoc E, phaseX, diagonal_mul_diagonal, Matrix.mul_assoc E, ← Matrix.mul_assoc (diagonal _) (diagonal _),
      diagonal_mul_diagonal, ← Matrix.mul_assoc]
    congr 3
    funext i
    field_simp [hq i]

/-- The TM half of a conical layer at azimuth zero. -/
theorem con_tm_modes {X Bm E : Matrix m m ℂ} {l : m → ℂ} (hX : IsUnit X.det) (hB : IsUnit Bm.det) (hE : IsUnit E.det)
    (hl : Bm * X * E = E * diagonal l) (k0 d : ℝ) :
    IsUnit (Bm⁻¹ * E * diagonal fun i => csqrt (l i)).det ∧
    E * (Bm⁻¹ * E * diagonal fun i => csqrt (l i))⁻¹ = X⁻¹ * ((X * E) * diagonal (fun i => csqrt (l i)) * (X * E)⁻¹) ∧
    (Bm⁻¹ * E * diagonal fun i => csqrt (l i)) * phaseX k0 (fun i => csqrt (l i)) d * (Bm⁻¹ * E * diagonal fun i => csqrt (l i))⁻¹ =
      (X * E) * phaseX k0 (fun i => csqrt (l i)) d * (X * E)⁻¹ := by
  obtain ⟨h1, h2, h3⟩ := con_te_modes (isUnit_det_mul hB hX) hE hl k0 d
  have hi : (Bm * X)⁻¹ = X⁻¹ * Bm⁻¹ := Matrix.mul_inv_rev _ _
  have e : (Bm⁻¹ * E * diagonal fun i => csqrt (l i)) = X * ((Bm * X)⁻¹ * E * diagonal fun i => csqrt (l i)) := by
    rw [hi]
    simp only [← Matrix.mul_assoc]
    rw [mul_nonsing_inv _ hX, Matrix.one_mul]
  rw [Matrix.one_mul] at h2
  rw [e]
  generalize ((Bm * X)⁻¹ * E * diagonal fun i => csqrt (l i)) = Z at *
  generalize (diagonal fun i => csqrt (l i)) = D at *
  generalize phaseX k0 (fun i => csqrt (l i)) d = Ph at *
  refine ⟨isUnit_det_mul hX h1, ?_, ?_⟩
  · rw [Matrix.mul_inv_rev, ← Matrix.mul_assoc, h2, Matrix.mul_inv_rev]
    simp only [← Matrix.mul_assoc]
    rw [nonsing_inv_mul _ hX, Matrix.one_mul]
  · rw [Matrix.mul_inv_rev, Matrix.mul_inv_rev]
    have h4 : X * (Z * Ph * Z⁻¹) * X⁻¹ = X * (E * Ph * E⁻¹) * X⁻¹ := by rw [h3]
    simp only [Matrix.mul_assoc] at h4 ⊢
    exact h4

theorem stepCon_of_modes {la : LinAlg} {k0 d : ℝ} {kx : m → ℂ} {c : Conv m} {a₀ a₁ b₀ b₁ a b : TState m}
    (hb1 : BasisAt la (diagonal (fun i => kx i ^ 2) - c.epy)) (hb2 : BasisAt la ((diagonal kx * c.epzi * diagonal kx - 1) * c.epx))
    (h1 : ModeStep (eigMat1d 0 kx c) 1 k0 d a₀ a₁) (h2 : ModeStep (eigMat1d 1 kx c) c.epx⁻¹ k0 d b₀ b₁)
    (e1 : SEquiv a₀ a) (e2 : SEquiv b₀ b.swap) :
    ∃ r a' b', stepCon la false k0 kx (fun _ => 0) (fun _ => 0) c d (blockS a b) = .ok r ∧ r.1 = blockS a' b' ∧
      SEquiv a₁ a' ∧ SEquiv b₁ b'.swap := by
  obtain ⟨-, hA, hd1⟩ := h1.away
  obtain ⟨hP, hXB, E₀, l₀, hE₀, hl₀⟩ := h2.away
  have hX := isUnit_nonsing_inv_det_iff.mp hP
  rw [eigMat1d, if_pos rfl] at h1 hA hd1
  rw [eigMat1d, if_neg one_ne_zero] at h2 hXB hl₀
  set A := diagonal (fun i => kx i ^ 2) - c.epy with hAd
  set Bm := diagonal kx * c.epzi * diagonal kx - 1 with hBd
  have hB := isUnit_det_of_mul_right hXB
  have hE1 := hb1 hd1
  have hE2 : IsUnit (la.eig (Bm * c.epx)).2.det := by
    refine hb2 ⟨c.epx⁻¹ * E₀, l₀, isUnit_det_mul hP hE₀, ?_⟩
    rw [Matrix.mul_assoc, ← Matrix.mul_assoc c.epx, mul_nonsing_inv _ hX, Matrix.one_mul, Matrix.mul_assoc c.epx⁻¹, ← hl₀]
    simp only [← Matrix.mul_assoc]
    rw [nonsing_inv_mul _ hX, Matrix.one_mul]
  have hl1 := la.eig_law A
  have hl2 := la.eig_law (Bm * c.epx)
  obtain ⟨w1, y1, z1⟩ := con_te_modes hA hE1 hl1 k0 d
  obtain ⟨w2, y2, z2⟩ := con_tm_modes hX hB hE2 hl2 k0 d
  obtain ⟨a', A1, B1, s1, q1⟩ := h1.run hE1 hl1 w1 y1 z1 e1
  obtain ⟨b', A2, B2, s2, q2⟩ := h2.run (isUnit_det_mul hX hE2) (by
    rw [Matrix.mul_assoc c.epx, ← Matrix.mul_assoc _ c.epx, hl2, Matrix.mul_assoc]) w2 y2 z2 e2
  have s2' := s2.swap
  obtain ⟨Ai, B, hs⟩ := s1.join s2'
  set E1 := (la.eig A).2 with hE1d
  set E2 := (la.eig (Bm * c.epx)).2 with hE2d
  set r1 : m → ℂ := fun i => csqrt ((la.eig A).1 i) with hr1
  set r2 : m → ℂ := fun i => csqrt ((la.eig (Bm * c.epx)).1 i) with hr2
  let M : ConModes m := ⟨E1, E2, A⁻¹ * E1 * diagonal r1, 0, 0, Bm⁻¹ * E2 * diagonal r2, r1, r2⟩
  have hM : transfer_1d_conical_2 la kx (fun _ => 0) c false = .ok M := by
    have z0 : (diagonal fun _ : m => (0 : ℂ)) = 0 := diagonal_zero
    have z2 : (diagonal fun _ : m => (0 : ℂ) ^ 2) = 0 := by simp
    simp only [transfer_1d_conical_2, z0, z2, Matrix.zero_mul, zero_add, Except.bind_ok, meeinv_false_ok]
    exact ⟨_, ⟨hA, rfl⟩, _, ⟨hB, rfl⟩, rfl⟩
  have ht : transfer_1d_conical_3 la k0 M d (fun _ => 0) (blockS a b) false = .ok (blockS a' b'.swap, Ai, B) := by
    rw [transfer_1d_conical_3_eq]
    refine tmmStep_ok.mpr ?_
    have c1 : (diagonal fun _ : m => Complex.cos 0) = 1 := by simp
    have s1 : (diagonal fun _ : m => Complex.sin 0) = 0 := by simp
    have ex : phaseX k0 (Sum.elim r1 r2) d
        = diagonal (Sum.elim (fun i => Complex.exp (-(k0 : ℂ) * r1 i * (d : ℂ)))
            (fun i => Complex.exp (-(k0 : ℂ) * r2 i * (d : ℂ)))) := by
      unfold phaseX
      congr 1
      ext i
      cases i <;> rfl
    simp only [M, conW, conV, c1, s1, Matrix.zero_mul, Matrix.mul_zero, Matrix.one_mul, add_zero, zero_add, sub_zero, ex]
    exact hs
  refine ⟨⟨blockS a' b'.swap, ⟨c.epzi, M, d, Ai, B⟩⟩, a', b'.swap, ?_, rfl, q1, q2⟩
  unfold stepCon
  rw [hM]
  show (transfer_1d_conical_3 la k0 M d (fun _ => 0) (blockS a b) false).bind _ = _
  rw [ht]
  rfl

end

end Meent
