import Verif.Lemmas.Stacks
import Verif.Spec.Eigen

/-!
# Independence of the eigenbasis (helper lemmas)
-/

open Matrix

namespace Meent

set_option linter.unusedSectionVars false
set_option linter.unusedSimpArgs false

section
variable {n : Type} [Fintype n] [DecidableEq n]

theorem isUnit_det_of_mul_left {A B : Matrix n n ℂ} (h : IsUnit (A * B).det) : IsUnit A.det := by
  rw [det_mul] at h; exact isUnit_of_mul_isUnit_left h

theorem isUnit_det_of_mul_right {A B : Matrix n n ℂ} (h : IsUnit (A * B).det) : IsUnit B.det := by
  rw [det_mul] at h; exact isUnit_of_mul_isUnit_right h

theorem det_conj_eq {E D : Matrix n n ℂ} (hE : IsUnit E.det) : (E * D * E⁻¹).det = D.det := by
  rw [det_mul, det_mul, mul_comm, ← mul_assoc, ← det_mul, nonsing_inv_mul _ hE, det_one, one_mul]

/-- A layer whose modes are `W = P E D₁`, `V = Q E D₂` gives equivalent steps for every two eigenbases. -/
theorem StepData.transfer {P Q E E' : Matrix n n ℂ} {d1 d2 x d1' d2' x' : n → ℂ} {s s' t : TState n}
    {Ai B : Matrix n n ℂ} (hE' : IsUnit E'.det)
    (h1 : IsUnit E.det → E * diagonal d1 * E⁻¹ = E' * diagonal d1' * E'⁻¹)
    (h21 : IsUnit E.det → E * diagonal (fun i => d2 i / d1 i) * E⁻¹ = E' * diagonal (fun i => d2' i / d1' i) * E'⁻¹)
    (hx : IsUnit E.det → E * diagonal x * E⁻¹ = E' * diagonal x' * E'⁻¹)
    (h : StepData (diagonal x) (P * E * diagonal d1) (Q * E * diagonal d2) s t Ai B) (he : SEquiv s s') :
    ∃ t' Ai' B', StepData (diagonal x') (P * E' * diagonal d1') (Q * E' * diagonal d2') s' t' Ai' B' ∧ SEquiv t t' := by
  have hW := h.hW
  have hD1 : IsUnit (diagonal d1).det := isUnit_det_of_mul_right hW
  have hPE := isUnit_det_of_mul_left hW
  have hP := isUnit_det_of_mul_left hPE
  have hE := isUnit_det_of_mul_right hPE
  have hD1' : IsUnit (diagonal d1').det := by
    have := congrArg det (h1 hE)
    rw [det_conj_eq hE, det_conj_eq hE'] at this
    rw [← this]; exact hD1
  have hW' : IsUnit (P * E' * diagonal d1').det := isUnit_det_mul (isUnit_det_mul hP hE') hD1'
  have key : ∀ {E : Matrix n n ℂ} {d1 d2 x : n → ℂ}, IsUnit E.det → IsUnit (diagonal d1).det →
      Q * E * diagonal d2 * (P * E * diagonal d1)⁻¹
        = Q * (E * diagonal (fun i => d2 i / d1 i) * E⁻¹) * P⁻¹ ∧
      P * E * diagonal d1 * diagonal x * (P * E * diagonal d1)⁻¹ = P * (E * diagonal x * E⁻¹) * P⁻¹ := by
    intro E d1 d2 x hE hD1
    have hd : ∀ i, d1 i ≠ 0 := by
      rw [det_diagonal, isUnit_iff_ne_zero, Finset.prod_ne_zero_iff] at hD1
      exact fun i => hD1 i (Finset.mem_univ i)
    have hi : (diagonal d1)⁻¹ = diagonal fun i => (d1 i)⁻¹ := by
      refine inv_eq_right_inv ?_
      rw [diagonal_mul_diagonal, ← diagonal_one]
      congr 1; ext i; exact mul_inv_cancel₀ (hd i)
    constructor
    · rw [Matrix.mul_inv_rev, Matrix.mul_inv_rev, hi]
      have : diagonal d2 * diagonal (fun i => (d1 i)⁻¹) = diagonal (fun i => d2 i / d1 i) := by
        rw [diagonal_mul_diagonal]; rfl
      rw [← this]
      simp only [Matrix.mul_assoc]
    · rw [Matrix.mul_inv_rev, Matrix.mul_inv_rev]
      have : diagonal d1 * diagonal x * (diagonal d1)⁻¹ = diagonal x := by
        rw [diagonal_mul_diagonal, hi, diagonal_mul_diagonal]
        congr 1; ext i; field_simp [hd i]
      calc _ = P * (E * (diagonal d1 * diagonal x * (diagonal d1)⁻¹) * E⁻¹) * P⁻¹ := by
            simp only [Matrix.mul_assoc]
        _ = _ := by rw [this]
  obtain ⟨k1, k2⟩ := key (d2 := d2) (x := x) hE hD1
  obtain ⟨k1', k2'⟩ := key (d2 := d2') (x := x') hE' hD1'
  obtain ⟨M, hM, rfl⟩ := he
  have c := h.canon.rmul hM
  rw [k1, k2, h21 hE, hx hE, ← k1', ← k2'] at c
  refine ⟨_, _, _, c.uncanon hW', ?_⟩
  refine ⟨(P * E * diagonal d1)⁻¹ * (P * E' * diagonal d1'), ?_, ?_⟩
  · exact isUnit_det_mul (isUnit_nonsing_inv_det_iff.mpr hW) hW'
  · rw [TState.rmul_rmul]

end

/-! ### The solvers' steps -/

section
variable {n : Type} [Fintype n] [DecidableEq n]

/-- `la'` has an eigenbasis of `A` whenever there is one. -/
def BasisAt (la' : LinAlg) (A : Matrix n n ℂ) : Prop :=
  (∃ (W : Matrix n n ℂ) (l : n → ℂ), IsUnit W.det ∧ A * W = W * diagonal l) → IsUnit (la'.eig A).2.det

theorem calc_eig (la la' : LinAlg) (A : Matrix n n ℂ) (h : IsUnit (la.eig A).2.det) (h' : IsUnit (la'.eig A).2.det)
    (g : ℂ → ℂ) :
    (la.eig A).2 * diagonal (fun i => g ((la.eig A).1 i)) * (la.eig A).2⁻¹
      = (la'.eig A).2 * diagonal (fun i => g ((la'.eig A).1 i)) * (la'.eig A).2⁻¹ :=
  fcalc_unique (la.eig_law A) (la'.eig_law A) h h' g

theorem diagonal_one' : (diagonal fun _ => (1 : ℂ) : Matrix n n ℂ) = 1 := diagonal_one

/-- Matrix whose eigenmodes the 1D solver uses. -/
noncomputable def eigMat1d (pol : ℝ) (kx : n → ℂ) (c : Conv n) : Matrix n n ℂ :=
  if pol = 0 then diagonal (fun i => kx i ^ 2) - c.epy else c.epx * (diagonal kx * c.epzi * diagonal kx - 1)

theorem step1d_transfer {la la' : LinAlg} {p : Params} (hp : p.use_pinv = false) {k0 : ℝ} {kx : n → ℂ}
    {c : Conv n} {d : ℝ} {s s' : TState n} {r : TState n × LayerInfo n n}
    (hb : BasisAt la' (eigMat1d p.pol kx c))
    (h : step1d la p k0 kx c d s = .ok r) (he : SEquiv s s') :
    ∃ r', step1d la' p k0 kx c d s' = .ok r' ∧ SEquiv r.1 r'.1 := by
  unfold step1d transfer_1d_3 at h
  simp only [Except.bind_ok, hp, Except.ok.injEq] at h
  obtain ⟨m, hm, t, ht, rfl⟩ := h
  have hd := tmmStep_ok.mp ht
  suffices hs : ∃ m' t' l', transfer_1d_2 la' p.pol kx c false = .ok m' ∧
      tmmStep la' false (phaseX k0 m'.q d) m'.W m'.V s' = .ok (t', l') ∧ SEquiv t.1 t' by
    obtain ⟨m', t', l', h1, h2, h3⟩ := hs
    refine ⟨⟨t', ⟨c.epzi, m', d, l'.1, l'.2⟩⟩, ?_, h3⟩
    unfold step1d transfer_1d_3
    simp only [hp, h1, h2, bind, Except.bind]
  by_cases h0 : p.pol = 0
  · rw [eigMat1d, if_pos h0] at hb
    simp only [transfer_1d_2, h0, if_true, Except.ok.injEq] at hm
    subst hm
    simp only at hd
    set A := diagonal (fun i => kx i ^ 2) - c.epy with hA
    have hW := hd.hW
    have hE' := hb ⟨_, _, hW, la.eig_law A⟩
    have hc := calc_eig la la' A hW hE'
    have hd' : StepData (diagonal (fun i => Complex.exp (-(k0 : ℂ) * csqrt ((la.eig A).1 i) * (d : ℂ))))
        (1 * (la.eig A).2 * diagonal (fun _ => 1)) (1 * (la.eig A).2 * diagonal (fun i => csqrt ((la.eig A).1 i)))
        s t.1 t.2.1 t.2.2 := by
      rw [diagonal_one', Matrix.mul_one, Matrix.one_mul]; exact hd
    obtain ⟨t', Ai', B', h1, h2⟩ := hd'.transfer (E' := (la'.eig A).2) (d1' := fun _ => 1)
      (d2' := fun i => csqrt ((la'.eig A).1 i))
      (x' := fun i => Complex.exp (-(k0 : ℂ) * csqrt ((la'.eig A).1 i) * (d : ℂ))) hE'
      (fun _ => hc fun _ => 1) (fun _ => hc fun z => csqrt z / 1)
      (fun _ => hc fun z => Complex.exp (-(k0 : ℂ) * csqrt z * (d : ℂ))) he
    rw [diagonal_one', Matrix.mul_one, Matrix.one_mul] at h1
    refine ⟨⟨(la'.eig A).2, (la'.eig A).2 * diagonal (fun i => csqrt ((la'.eig A).1 i)),
      fun i => csqrt ((la'.eig A).1 i)⟩, t', (Ai', B'), ?_, tmmStep_ok.mpr h1, h2⟩
    simp only [transfer_1d_2, h0, if_true]
    rfl
  · by_cases hp1 : p.pol = 1
    · rw [eigMat1d, if_neg h0] at hb
      simp only [transfer_1d_2, hp1, one_ne_zero, if_true, if_false, Except.bind_ok, meeinv_false_ok,
        Except.ok.injEq] at hm
      obtain ⟨epxi, ⟨hx, rfl⟩, rfl⟩ := hm
      simp only at hd
      set A := c.epx * (diagonal kx * c.epzi * diagonal kx - 1) with hA
      have hW := hd.hW
      have hE' := hb ⟨_, _, hW, la.eig_law A⟩
      have hc := calc_eig la la' A hW hE'
      have hd' : StepData (diagonal (fun i => Complex.exp (-(k0 : ℂ) * csqrt ((la.eig A).1 i) * (d : ℂ))))
          (1 * (la.eig A).2 * diagonal (fun _ => 1)) (c.epx⁻¹ * (la.eig A).2 * diagonal (fun i => csqrt ((la.eig A).1 i)))
          s t.1 t.2.1 t.2.2 := by
        rw [diagonal_one', Matrix.mul_one, Matrix.one_mul]; exact hd
      obtain ⟨t', Ai', B', h1, h2⟩ := hd'.transfer (E' := (la'.eig A).2) (d1' := fun _ => 1)
        (d2' := fun i => csqrt ((la'.eig A).1 i))
        (x' := fun i => Complex.exp (-(k0 : ℂ) * csqrt ((la'.eig A).1 i) * (d : ℂ))) hE'
        (fun _ => hc fun _ => 1) (fun _ => hc fun z => csqrt z / 1)
        (fun _ => hc fun z => Complex.exp (-(k0 : ℂ) * csqrt z * (d : ℂ))) he
      rw [diagonal_one', Matrix.mul_one, Matrix.one_mul] at h1
      refine ⟨⟨(la'.eig A).2, c.epx⁻¹ * (la'.eig A).2 * diagonal (fun i => csqrt ((la'.eig A).1 i)),
        fun i => csqrt ((la'.eig A).1 i)⟩, t', (Ai', B'), ?_, tmmStep_ok.mpr h1, h2⟩
      simp only [transfer_1d_2, hp1, one_ne_zero, if_true, if_false, Except.bind_ok, meeinv_false_ok]
      exact ⟨_, ⟨hx, rfl⟩, rfl⟩
    · simp [transfer_1d_2, h0, hp1] at hm

end

section
variable {m : Type} [Fintype m] [DecidableEq m]

/-- Rotation of the electric amplitudes to the s/p frame. -/
noncomputable def rotE (varphi : m → ℂ) : Matrix (m ⊕ m) (m ⊕ m) ℂ :=
  fromBlocks (-diagonal (fun i => Complex.sin (varphi i))) (diagonal (fun i => Complex.cos (varphi i)))
    (diagonal (fun i => Complex.cos (varphi i))) (diagonal (fun i => Complex.sin (varphi i)))

/-- Rotation of the magnetic amplitudes to the s/p frame. -/
noncomputable def rotH (varphi : m → ℂ) : Matrix (m ⊕ m) (m ⊕ m) ℂ :=
  fromBlocks (diagonal (fun i => Complex.cos (varphi i))) (diagonal (fun i => Complex.sin (varphi i)))
    (-diagonal (fun i => Complex.sin (varphi i))) (diagonal (fun i => Complex.cos (varphi i)))

theorem bigW2d_eq (varphi : m → ℂ) (W : Matrix (m ⊕ m) (m ⊕ m) ℂ) : bigW2d varphi W = rotE varphi * W := by
  conv_rhs => rw [← fromBlocks_toBlocks W]
  unfold bigW2d rotE
  rw [fromBlocks_multiply]
  simp only [Matrix.neg_mul]
  congr 1 <;> abel

theorem bigV2d_eq (varphi : m → ℂ) (V : Matrix (m ⊕ m) (m ⊕ m) ℂ) : bigV2d varphi V = rotH varphi * V := by
  conv_rhs => rw [← fromBlocks_toBlocks V]
  unfold bigV2d rotH
  rw [fromBlocks_multiply]
  simp only [Matrix.neg_mul]
  congr 1 <;> abel

/-- Transverse electric modes of the conical solver in the x/y frame. -/
noncomputable def conW0 (M : ConModes m) : Matrix (m ⊕ m) (m ⊕ m) ℂ := fromBlocks 0 M.W2 M.V11 M.V12
/-- Transverse magnetic modes of the conical solver in the x/y frame. -/
noncomputable def conV0 (M : ConModes m) : Matrix (m ⊕ m) (m ⊕ m) ℂ := fromBlocks M.W1 0 M.V21 M.V22

theorem conW_eq (varphi : m → ℂ) (M : ConModes m) : conW varphi M = rotE varphi * conW0 M := by
  unfold conW rotE conW0
  rw [fromBlocks_multiply]
  simp only [Matrix.neg_mul, Matrix.mul_zero, zero_add, add_zero, neg_zero]
  congr 1
  abel

theorem conV_eq (varphi : m → ℂ) (M : ConModes m) : conV varphi M = rotH varphi * conV0 M := by
  unfold conV rotH conV0
  rw [fromBlocks_multiply]
  simp only [Matrix.neg_mul, Matrix.mul_zero, zero_add, add_zero, neg_zero]
  congr 1
  abel

theorem isUnit_diag_ne {q : m → ℂ} (h : IsUnit (diagonal q).det) (i : m) : q i ≠ 0 := by
  rw [det_diagonal, isUnit_iff_ne_zero, Finset.prod_ne_zero_iff] at h
  exact h i (Finset.mem_univ i)

theorem diag_inv_of_isUnit {q : m → ℂ} (h : IsUnit (diagonal q).det) :
    (diagonal q)⁻¹ = diagonal fun i => (q i)⁻¹ := by
  refine inv_eq_right_inv ?_
  rw [diagonal_mul_diagonal, ← diagonal_one]
  congr 1; ext i; exact mul_inv_cancel₀ (isUnit_diag_ne h i)

theorem step2d_transfer {la la' : LinAlg} {k0 : ℝ} {kx ky varphi : m → ℂ}
    {c : Conv m} {d : ℝ} {s s' : TState (m ⊕ m)} {r : TState (m ⊕ m) × LayerInfo m (m ⊕ m)}
    (hb : BasisAt la' (omega2LR kx ky c))
    (h : step2d la false k0 kx ky varphi c d s = .ok r) (he : SEquiv s s') :
    ∃ r', step2d la' false k0 kx ky varphi c d s' = .ok r' ∧ SEquiv r.1 r'.1 := by
  unfold step2d at h
  simp only [transfer_2d_3_eq, Except.bind_ok, Except.ok.injEq] at h
  obtain ⟨M, hM, t, ht, rfl⟩ := h
  have hd := tmmStep_ok.mp ht
  simp only [transfer_2d_2, Except.bind_ok, meeinv_false_ok, Except.ok.injEq] at hM
  obtain ⟨Qi, ⟨hq, rfl⟩, rfl⟩ := hM
  simp only at hd
  set A := omega2LR kx ky c with hA
  have hW : IsUnit (la.eig A).2.det := by
    have := hd.hW; rw [bigW2d_eq] at this; exact isUnit_det_of_mul_right this
  have hE' := hb ⟨_, _, hW, la.eig_law A⟩
  have hc := calc_eig la la' A hW hE'
  have hq' : IsUnit (diagonal fun i => csqrt ((la'.eig A).1 i)).det := by
    have := congrArg det (hc csqrt)
    rw [det_conj_eq hW, det_conj_eq hE'] at this
    rw [← this]; exact hq
  have hd' : StepData (diagonal (fun i => Complex.exp (-(k0 : ℂ) * csqrt ((la.eig A).1 i) * (d : ℂ))))
      (rotE varphi * (la.eig A).2 * diagonal (fun _ => 1))
      ((rotH varphi * omegaR kx ky c) * (la.eig A).2 * diagonal (fun i => (csqrt ((la.eig A).1 i))⁻¹))
      s t.1 t.2.1 t.2.2 := by
    rw [diagonal_one', Matrix.mul_one, ← diag_inv_of_isUnit hq]
    rw [bigW2d_eq, bigV2d_eq] at hd
    simp only [Matrix.mul_assoc] at hd ⊢
    exact hd
  obtain ⟨t', Ai', B', h1, h2⟩ := hd'.transfer (E' := (la'.eig A).2) (d1' := fun _ => 1)
    (d2' := fun i => (csqrt ((la'.eig A).1 i))⁻¹)
    (x' := fun i => Complex.exp (-(k0 : ℂ) * csqrt ((la'.eig A).1 i) * (d : ℂ))) hE'
    (fun _ => hc fun _ => 1) (fun _ => hc fun z => (csqrt z)⁻¹ / 1)
    (fun _ => hc fun z => Complex.exp (-(k0 : ℂ) * csqrt z * (d : ℂ))) he
  rw [diagonal_one', Matrix.mul_one, ← diag_inv_of_isUnit hq'] at h1
  refine ⟨⟨t', ⟨c.epzi, ⟨(la'.eig A).2, omegaR kx ky c * (la'.eig A).2 * (diagonal fun i => csqrt ((la'.eig A).1 i))⁻¹,
    fun i => csqrt ((la'.eig A).1 i)⟩, d, Ai', B'⟩⟩, ?_, h2⟩
  unfold step2d
  simp only [transfer_2d_3_eq, transfer_2d_2, Except.bind_ok, meeinv_false_ok, Except.ok.injEq]
  refine ⟨_, ⟨_, ⟨hq', rfl⟩, rfl⟩, (t', Ai', B'), tmmStep_ok.mpr ?_, rfl⟩
  simp only [bigW2d_eq, bigV2d_eq]
  simp only [Matrix.mul_assoc] at h1 ⊢
  exact h1

theorem blockDiag_inv {A D : Matrix m m ℂ} (hA : IsUnit A.det) (hD : IsUnit D.det) :
    (fromBlocks A 0 0 D)⁻¹ = fromBlocks A⁻¹ 0 0 D⁻¹ := by
  refine inv_eq_right_inv ?_
  rw [fromBlocks_multiply]
  simp [mul_nonsing_inv _ hA, mul_nonsing_inv _ hD]

theorem blockDiag_conj {A D : Matrix m m ℂ} (hA : IsUnit A.det) (hD : IsUnit D.det) (x y : m → ℂ) :
    fromBlocks A 0 0 D * diagonal (Sum.elim x y) * (fromBlocks A 0 0 D)⁻¹
      = fromBlocks (A * diagonal x * A⁻¹) 0 0 (D * diagonal y * D⁻¹) := by
  rw [blockDiag_inv hA hD, ← fromBlocks_diagonal, fromBlocks_multiply, fromBlocks_multiply]
  simp

theorem stepCon_transfer {la la' : LinAlg} {k0 : ℝ} {kx ky varphi : m → ℂ}
    {c : Conv m} {d : ℝ} {s s' : TState (m ⊕ m)} {r : TState (m ⊕ m) × LayerInfoCon m}
    (hb1 : BasisAt la' (diagonal (fun i => ky i ^ 2) + (diagonal (fun i => kx i ^ 2) - c.epy)))
    (hb2 : BasisAt la' (diagonal (fun i => ky i ^ 2) + (diagonal kx * c.epzi * diagonal kx - 1) * c.epx))
    (h : stepCon la false k0 kx ky varphi c d s = .ok r) (he : SEquiv s s') :
    ∃ r', stepCon la' false k0 kx ky varphi c d s' = .ok r' ∧ SEquiv r.1 r'.1 := by
  unfold stepCon at h
  simp only [transfer_1d_conical_3_eq, Except.bind_ok, Except.ok.injEq] at h
  obtain ⟨M, hM, t, ht, rfl⟩ := h
  have hd := tmmStep_ok.mp ht
  simp only [transfer_1d_conical_2, Except.bind_ok, meeinv_false_ok, Except.ok.injEq] at hM
  obtain ⟨A_i, ⟨hAi, rfl⟩, B_i, ⟨hBi, rfl⟩, rfl⟩ := hM
  simp only at hd
  set A1 := diagonal (fun i => ky i ^ 2) + (diagonal (fun i => kx i ^ 2) - c.epy) with hA1
  set A2 := diagonal (fun i => ky i ^ 2) + (diagonal kx * c.epzi * diagonal kx - 1) * c.epx with hA2
  set Ai := (diagonal (fun i => kx i ^ 2) - c.epy)⁻¹ with hAidef
  set Bi := (diagonal kx * c.epzi * diagonal kx - 1)⁻¹ with hBidef
  set Mw : Matrix (m ⊕ m) (m ⊕ m) ℂ := fromBlocks 0 1 Ai (diagonal ky * Ai * diagonal kx) with hMw
  set Mv : Matrix (m ⊕ m) (m ⊕ m) ℂ := fromBlocks 1 0 (diagonal ky * Bi * diagonal kx * c.epzi) Bi with hMv
  let MM : LinAlg → ConModes m := fun la =>
    { W1 := (la.eig A1).2, W2 := (la.eig A2).2,
      V11 := Ai * (la.eig A1).2 * diagonal fun i => csqrt ((la.eig A1).1 i),
      V12 := diagonal ky * Ai * diagonal kx * (la.eig A2).2,
      V21 := diagonal ky * Bi * diagonal kx * c.epzi * (la.eig A1).2,
      V22 := Bi * (la.eig A2).2 * diagonal fun i => csqrt ((la.eig A2).1 i),
      q1 := fun i => csqrt ((la.eig A1).1 i), q2 := fun i => csqrt ((la.eig A2).1 i) }
  have eW : ∀ la : LinAlg, conW0 (MM la)
      = Mw * fromBlocks (la.eig A1).2 0 0 (la.eig A2).2 * diagonal (Sum.elim (fun i => csqrt ((la.eig A1).1 i)) fun _ => 1) := by
    intro la
    simp only [conW0, MM, hMw, ← fromBlocks_diagonal, fromBlocks_multiply, diagonal_one', Matrix.mul_zero, Matrix.zero_mul,
      zero_add, add_zero, Matrix.mul_one, Matrix.one_mul]
  have eV : ∀ la : LinAlg, conV0 (MM la)
      = Mv * fromBlocks (la.eig A1).2 0 0 (la.eig A2).2 * diagonal (Sum.elim (fun _ => 1) fun i => csqrt ((la.eig A2).1 i)) := by
    intro la
    simp only [conV0, MM, hMv, ← fromBlocks_diagonal, fromBlocks_multiply, diagonal_one', Matrix.mul_zero, Matrix.zero_mul,
      zero_add, add_zero, Matrix.mul_one, Matrix.one_mul]
  have eX : ∀ la : LinAlg, phaseX k0 (Sum.elim (MM la).q1 (MM la).q2) d
      = diagonal (Sum.elim (fun i => Complex.exp (-(k0 : ℂ) * csqrt ((la.eig A1).1 i) * (d : ℂ)))
          fun i => Complex.exp (-(k0 : ℂ) * csqrt ((la.eig A2).1 i) * (d : ℂ))) := by
    intro la
    unfold phaseX
    congr 1
    ext i
    cases i <;> rfl
  have hd0 : StepData (phaseX k0 (Sum.elim (MM la).q1 (MM la).q2) d) (conW varphi (MM la)) (conV varphi (MM la))
      s t.1 t.2.1 t.2.2 := hd
  rw [conW_eq, conV_eq, eW, eV, eX] at hd0
  rw [← Matrix.mul_assoc, ← Matrix.mul_assoc, ← Matrix.mul_assoc, ← Matrix.mul_assoc] at hd0
  have hEE := isUnit_det_of_mul_right (isUnit_det_of_mul_left hd0.hW)
  rw [det_fromBlocks_zero₂₁] at hEE
  have hW1 : IsUnit (la.eig A1).2.det := isUnit_of_mul_isUnit_left hEE
  have hW2 : IsUnit (la.eig A2).2.det := isUnit_of_mul_isUnit_right hEE
  have hW1' := hb1 ⟨_, _, hW1, la.eig_law A1⟩
  have hW2' := hb2 ⟨_, _, hW2, la.eig_law A2⟩
  have hc1 := calc_eig la la' A1 hW1 hW1'
  have hc2 := calc_eig la la' A2 hW2 hW2'
  have hdiv : ∀ la : LinAlg, (fun i => Sum.elim (fun _ : m => (1 : ℂ)) (fun i => csqrt ((la.eig A2).1 i)) i /
      Sum.elim (fun i => csqrt ((la.eig A1).1 i)) (fun _ => (1 : ℂ)) i)
      = Sum.elim (fun i => 1 / csqrt ((la.eig A1).1 i)) (fun i => csqrt ((la.eig A2).1 i) / 1) := by
    intro la; ext i; cases i <;> rfl
  obtain ⟨t', Ai', B', h1, h2⟩ := hd0.transfer (E' := fromBlocks (la'.eig A1).2 0 0 (la'.eig A2).2)
    (d1' := Sum.elim (fun i => csqrt ((la'.eig A1).1 i)) fun _ => 1)
    (d2' := Sum.elim (fun _ => 1) fun i => csqrt ((la'.eig A2).1 i))
    (x' := Sum.elim (fun i => Complex.exp (-(k0 : ℂ) * csqrt ((la'.eig A1).1 i) * (d : ℂ)))
          fun i => Complex.exp (-(k0 : ℂ) * csqrt ((la'.eig A2).1 i) * (d : ℂ)))
    (by rw [det_fromBlocks_zero₂₁]; exact hW1'.mul hW2')
    (fun _ => by
      rw [blockDiag_conj hW1 hW2, blockDiag_conj hW1' hW2', hc1 csqrt, hc2 fun _ => 1])
    (fun _ => by
      rw [hdiv, hdiv, blockDiag_conj hW1 hW2, blockDiag_conj hW1' hW2', hc1 fun z => 1 / csqrt z, hc2 fun z => csqrt z / 1])
    (fun _ => by
      rw [blockDiag_conj hW1 hW2, blockDiag_conj hW1' hW2', hc1 fun z => Complex.exp (-(k0 : ℂ) * csqrt z * (d : ℂ)),
        hc2 fun z => Complex.exp (-(k0 : ℂ) * csqrt z * (d : ℂ))]) he
  rw [Matrix.mul_assoc (rotE varphi), Matrix.mul_assoc (rotE varphi), Matrix.mul_assoc (rotH varphi),
    Matrix.mul_assoc (rotH varphi), ← eW, ← eV, ← eX, ← conW_eq, ← conV_eq] at h1
  refine ⟨⟨t', ⟨c.epzi, MM la', d, Ai', B'⟩⟩, ?_, h2⟩
  unfold stepCon
  simp only [transfer_1d_conical_3_eq, transfer_1d_conical_2, Except.bind_ok, meeinv_false_ok, Except.ok.injEq]
  exact ⟨_, ⟨_, ⟨hAi, rfl⟩, _, ⟨hBi, rfl⟩, rfl⟩, (t', Ai', B'), tmmStep_ok.mpr h1, rfl⟩

end

/-! ### Whole solves -/

theorem convMats_la (la la' : LinAlg) {s : Settings} (hp : s.p.use_pinv = false) : convMats la s = convMats la' s := by
  have hm : ∀ {n : Type} [Fintype n] [DecidableEq n] (A : Matrix n n ℂ), meeinv la A false = meeinv la' A false :=
    fun A => rfl
  unfold convMats to_conv_mat_raster_discrete to_conv_mat_raster_continuous to_conv_mat_vector convRasterContinuous
    convDiscrete convContinuous
  simp only [hp, hm]

theorem run_transfer {S C L L' : Type} {step : C → ℝ → S → Res (S × L)} {step' : C → ℝ → S → Res (S × L')} (P : S → S → Prop)
    (h : ∀ c d s s' r, step c d s = .ok r → P s s' → ∃ r', step' c d s' = .ok r' ∧ P r.1 r'.1) (xs : List (C × ℝ)) :
    ∀ {s s' : S} {r : S × List L}, P s s' → runLayers step xs (s, []) = .ok r →
      ∃ r', runLayers step' xs (s', []) = .ok r' ∧ P r.1 r'.1 := by
  induction xs with
  | nil =>
    intro s s' r he hr
    simp only [runLayers, Except.ok.injEq] at hr
    subst hr
    exact ⟨_, rfl, he⟩
  | cons x xs ih =>
    intro s s' r he hr
    obtain ⟨a, ha, b, hb, rfl⟩ := runLayers_cons.mp hr
    obtain ⟨a', ha', hea⟩ := ih he ha
    obtain ⟨b', hb', heb⟩ := h _ _ _ _ _ hb hea
    exact ⟨_, runLayers_cons.mpr ⟨a', ha', b', hb', rfl⟩, heb⟩

theorem basis1d {la : LinAlg} {n : Type} [Fintype n] [DecidableEq n] {p : Params} (hp : p.use_pinv = false) {k0 : ℝ} {kx : n → ℂ}
    {c : Conv n} {d : ℝ} {s : TState n} {r : TState n × LayerInfo n n} (h : step1d la p k0 kx c d s = .ok r) :
    BasisAt la (eigMat1d p.pol kx c) := by
  intro _
  unfold step1d transfer_1d_3 at h
  simp only [Except.bind_ok, hp, Except.ok.injEq] at h
  obtain ⟨m, hm, t, ht, rfl⟩ := h
  have hW := (tmmStep_ok.mp ht).hW
  unfold eigMat1d
  by_cases h0 : p.pol = 0
  · simp only [transfer_1d_2, h0, if_true, Except.ok.injEq] at hm ⊢
    subst hm; exact hW
  · by_cases hp1 : p.pol = 1
    · simp only [transfer_1d_2, hp1, one_ne_zero, if_true, if_false, Except.bind_ok, meeinv_false_ok,
        Except.ok.injEq] at hm ⊢
      obtain ⟨epxi, ⟨hx, rfl⟩, rfl⟩ := hm
      exact hW
    · simp [transfer_1d_2, h0, hp1] at hm

theorem basis2d {la : LinAlg} {m : Type} [Fintype m] [DecidableEq m] {k0 : ℝ} {kx ky varphi : m → ℂ}
    {c : Conv m} {d : ℝ} {s : TState (m ⊕ m)} {r : TState (m ⊕ m) × LayerInfo m (m ⊕ m)}
    (h : step2d la false k0 kx ky varphi c d s = .ok r) : BasisAt la (omega2LR kx ky c) := by
  intro _
  unfold step2d at h
  simp only [transfer_2d_3_eq, Except.bind_ok, Except.ok.injEq] at h
  obtain ⟨M, hM, t, ht, rfl⟩ := h
  have hd := (tmmStep_ok.mp ht).hW
  simp only [transfer_2d_2, Except.bind_ok, meeinv_false_ok, Except.ok.injEq] at hM
  obtain ⟨Qi, ⟨hq, rfl⟩, rfl⟩ := hM
  rw [bigW2d_eq] at hd
  exact isUnit_det_of_mul_right hd

theorem basisCon {la : LinAlg} {m : Type} [Fintype m] [DecidableEq m] {k0 : ℝ} {kx ky varphi : m → ℂ}
    {c : Conv m} {d : ℝ} {s : TState (m ⊕ m)} {r : TState (m ⊕ m) × LayerInfoCon m}
    (h : stepCon la false k0 kx ky varphi c d s = .ok r) :
    BasisAt la (diagonal (fun i => ky i ^ 2) + (diagonal (fun i => kx i ^ 2) - c.epy)) ∧
    BasisAt la (diagonal (fun i => ky i ^ 2) + (diagonal kx * c.epzi * diagonal kx - 1) * c.epx) := by
  unfold stepCon at h
  simp only [transfer_1d_conical_3_eq, Except.bind_ok, Except.ok.injEq] at h
  obtain ⟨M, hM, t, ht, rfl⟩ := h
  have hd := (tmmStep_ok.mp ht).hV
  have hd2 := (tmmStep_ok.mp ht).hW
  simp only [transfer_1d_conical_2, Except.bind_ok, meeinv_false_ok, Except.ok.injEq] at hM
  obtain ⟨A_i, ⟨hAi, rfl⟩, B_i, ⟨hBi, rfl⟩, rfl⟩ := hM
  rw [conV_eq] at hd
  have hd := isUnit_det_of_mul_right hd
  simp only [conV0, det_fromBlocks_zero₁₂] at hd
  have h1 := isUnit_of_mul_isUnit_left hd
  have h2 := isUnit_det_of_mul_right (isUnit_det_of_mul_left (isUnit_of_mul_isUnit_right hd))
  exact ⟨fun _ => h1, fun _ => h2⟩

theorem transfer_1d_4_la (la la' : LinAlg) {ff : ℕ} (pol : ℝ) (s : TState (Fin ff))
    (kzt kzb : Fin ff → ℂ) (theta nt nb : ℂ) :
    transfer_1d_4 la pol s kzt kzb theta nt nb false = transfer_1d_4 la' pol s kzt kzb theta nt nb false := rfl

theorem transfer_2d_4_la (la la' : LinAlg) {fx fy : ℕ} (s : TState (FlatIdx fx fy ⊕ FlatIdx fx fy))
    (kzt kzb : FlatIdx fx fy → ℂ) (psi theta nt nb : ℂ) :
    transfer_2d_4 la s kzt kzb psi theta nt nb false = transfer_2d_4 la' s kzt kzb psi theta nt nb false := rfl

/-- Success and results carry over to an eigensolver whose bases are good wherever needed. -/
theorem conv_solve_basis {la la' : LinAlg} {s : Settings} (hp : s.p.use_pinv = false)
    (hb : Spec.ReturnsBasis la') {sol : Solved s.p.fto.1 s.p.fto.2} (h : conv_solve la s = .ok sol) :
    ∃ sol', conv_solve la' s = .ok sol' ∧ sol'.result = sol.result := by
  cases sol with
  | tetm o =>
    obtain ⟨cs, h1, h2, h3, h4⟩ := conv_solve_tetm.mp h
    obtain ⟨hl, init, r, x, hi, hr, hx, rfl⟩ := (solve_1d_iff hp).mp h4
    obtain ⟨r', hr', he⟩ := run_transfer SEquiv (step' := step1d la' s.p (2 * Real.pi / s.p.wavelength) (kxVec s.p s.p.wavelength))
      (fun c d s s' r h he => step1d_transfer hp (hb _) h he) _ (SEquiv.refl _) hr
    obtain ⟨x', hx', e⟩ := transfer_1d_4_equiv he.symm hx
    refine ⟨.tetm ⟨x'.1, x'.2, r'.2⟩, ?_, ?_⟩
    · refine conv_solve_tetm.mpr ⟨cs, by rw [← convMats_la la la' hp]; exact h1, h2, h3, ?_⟩
      exact (solve_1d_iff hp).mpr ⟨hl, init, r', x', hi, hr', hx', rfl⟩
    · simp only [Solved.result, e]
  | conical o =>
    obtain ⟨cs, h1, h2, h3, h4⟩ := conv_solve_conical.mp h
    obtain ⟨hl, h0, init, r, x, hi, hr, hx, rfl⟩ := (solve_con_iff hp).mp h4
    obtain ⟨r', hr', he⟩ := run_transfer SEquiv (step' := stepCon la' false (2 * Real.pi / s.p.wavelength)
      (kxF s.p s.p.wavelength) (kyF s.p s.p.wavelength) init.2.2.1)
      (fun c d s s' r h he => stepCon_transfer (hb _) (hb _) h he) _ (SEquiv.refl _) hr
    obtain ⟨x', hx', e⟩ := transfer_2d_4_equiv he.symm hx
    refine ⟨.conical ⟨x', r'.2⟩, ?_, ?_⟩
    · refine conv_solve_conical.mpr ⟨cs, by rw [← convMats_la la la' hp]; exact h1, h2, h3, ?_⟩
      exact (solve_con_iff hp).mpr ⟨hl, h0, init, r', x', hi, hr', hx', rfl⟩
    · simp only [Out4.results, Prod.mk.injEq] at e
      simp only [Solved.result, e]
  | conicalSmm =>
    obtain ⟨cs, h1, h2⟩ := conv_solve_ok.mp h
    obtain ⟨h2, h3⟩ := solve_for_conv_smm.mp h2
    exact ⟨.conicalSmm, conv_solve_ok.mpr ⟨cs, by rw [← convMats_la la la' hp]; exact h1,
      solve_for_conv_smm.mpr ⟨h2, h3⟩⟩, rfl⟩
  | twoD o =>
    obtain ⟨cs, h1, h2, h3, h4⟩ := conv_solve_twoD.mp h
    obtain ⟨hl, init, r, x, hi, hr, hx, rfl⟩ := (solve_2d_iff hp).mp h4
    obtain ⟨r', hr', he⟩ := run_transfer SEquiv (step' := step2d la' false (2 * Real.pi / s.p.wavelength)
      (kxF s.p s.p.wavelength) (kyF s.p s.p.wavelength) init.2.2.1)
      (fun c d s s' r h he => step2d_transfer (hb _) h he) _ (SEquiv.refl _) hr
    obtain ⟨x', hx', e⟩ := transfer_2d_4_equiv he.symm hx
    refine ⟨.twoD ⟨x', r'.2⟩, ?_, ?_⟩
    · refine conv_solve_twoD.mpr ⟨cs, by rw [← convMats_la la la' hp]; exact h1, h2, h3, ?_⟩
      exact (solve_2d_iff hp).mpr ⟨hl, init, r', x', hi, hr', hx', rfl⟩
    · simp only [Out4.results, Prod.mk.injEq] at e
      simp only [Solved.result, e]

theorem forall2_refl {α : Type} (l : List α) : List.Forall₂ (· = ·) l l := by
  induction l with
  | nil => exact .nil
  | cons a l ih => exact .cons rfl ih

/-- Two successful solves with different eigensolvers agree. -/
theorem conv_solve_agree {la la' : LinAlg} {s : Settings} (hp : s.p.use_pinv = false)
    {sol sol' : Solved s.p.fto.1 s.p.fto.2} (h : conv_solve la s = .ok sol) (h' : conv_solve la' s = .ok sol') :
    sol'.result = sol.result := by
  have hcm := convMats_la la la' hp
  rcases conv_solve_cases h with ⟨hg, o, rfl⟩ | ⟨hg, ⟨o, rfl⟩ | rfl⟩ | ⟨hg, o, rfl⟩ <;>
  rcases conv_solve_cases h' with ⟨hg', o', rfl⟩ | ⟨hg', ⟨o', rfl⟩ | rfl⟩ | ⟨hg', o', rfl⟩ <;>
  try (rw [hg] at hg'; omega)
  · obtain ⟨cs, h1, h2, h3, h4⟩ := conv_solve_tetm.mp h
    obtain ⟨cs', h1', h2', h3', h4'⟩ := conv_solve_tetm.mp h'
    rw [hcm, h1'] at h1
    obtain rfl := Except.ok.inj h1
    obtain ⟨hl, init, r, x, hi, hr, hx, rfl⟩ := (solve_1d_iff hp).mp h4
    obtain ⟨hl', init', r', x', hi', hr', hx', rfl⟩ := (solve_1d_iff hp).mp h4'
    obtain rfl := Except.ok.inj (hi.symm.trans hi')
    have he : SEquiv r.1 r'.1 := by
      refine runLayers_rel SEquiv (· = ·) ?_ (forall2_refl _) (SEquiv.refl _) hr hr'
      rintro y y' a a' b b' rfl hP hb hb'
      obtain ⟨b'', hb'', he⟩ := step1d_transfer hp (basis1d hp hb') hb hP
      obtain rfl := Except.ok.inj (hb'.symm.trans hb'')
      exact he
    obtain ⟨x'', hx'', e⟩ := transfer_1d_4_equiv he hx'
    rw [transfer_1d_4_la la' la, hx] at hx''
    obtain rfl := Except.ok.inj hx''
    simp only [Solved.result, e]
  · obtain ⟨cs, h1, h2, h3, h4⟩ := conv_solve_conical.mp h
    obtain ⟨cs', h1', h2', h3', h4'⟩ := conv_solve_conical.mp h'
    rw [hcm, h1'] at h1
    obtain rfl := Except.ok.inj h1
    obtain ⟨hl, h0, init, r, x, hi, hr, hx, rfl⟩ := (solve_con_iff hp).mp h4
    obtain ⟨hl', h0', init', r', x', hi', hr', hx', rfl⟩ := (solve_con_iff hp).mp h4'
    obtain rfl := Except.ok.inj (hi.symm.trans hi')
    have he : SEquiv r.1 r'.1 := by
      refine runLayers_rel SEquiv (· = ·) ?_ (forall2_refl _) (SEquiv.refl _) hr hr'
      rintro y y' a a' b b' rfl hP hb hb'
      obtain ⟨b'', hb'', he⟩ := stepCon_transfer (basisCon hb').1 (basisCon hb').2 hb hP
      obtain rfl := Except.ok.inj (hb'.symm.trans hb'')
      exact he
    obtain ⟨x'', hx'', e⟩ := transfer_2d_4_equiv he hx'
    rw [transfer_2d_4_la la' la, hx] at hx''
    obtain rfl := Except.ok.inj hx''
    simp only [Out4.results, Prod.mk.injEq] at e
    simp only [Solved.result, e]
  · have h3 := (solve_for_conv_smm.mp (conv_solve_ok.mp h').choose_spec.2).2
    obtain ⟨_, _, _, h4, _⟩ := conv_solve_conical.mp h
    rw [h3] at h4; cases h4
  · have h3 := (solve_for_conv_smm.mp (conv_solve_ok.mp h).choose_spec.2).2
    obtain ⟨_, _, _, h4, _⟩ := conv_solve_conical.mp h'
    rw [h3] at h4; cases h4
  · rfl
  · obtain ⟨cs, h1, h2, h3, h4⟩ := conv_solve_twoD.mp h
    obtain ⟨cs', h1', h2', h3', h4'⟩ := conv_solve_twoD.mp h'
    rw [hcm, h1'] at h1
    obtain rfl := Except.ok.inj h1
    obtain ⟨hl, init, r, x, hi, hr, hx, rfl⟩ := (solve_2d_iff hp).mp h4
    obtain ⟨hl', init', r', x', hi', hr', hx', rfl⟩ := (solve_2d_iff hp).mp h4'
    obtain rfl := Except.ok.inj (hi.symm.trans hi')
    have he : SEquiv r.1 r'.1 := by
      refine runLayers_rel SEquiv (· = ·) ?_ (forall2_refl _) (SEquiv.refl _) hr hr'
      rintro y y' a a' b b' rfl hP hb hb'
      obtain ⟨b'', hb'', he⟩ := step2d_transfer (basis2d hb') hb hP
      obtain rfl := Except.ok.inj (hb'.symm.trans hb'')
      exact he
    obtain ⟨x'', hx'', e⟩ := transfer_2d_4_equiv he hx'
    rw [transfer_2d_4_la la' la, hx] at hx''
    obtain rfl := Except.ok.inj hx''
    simp only [Out4.results, Prod.mk.injEq] at e
    simp only [Solved.result, e]

end Meent
