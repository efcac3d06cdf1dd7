import Verif.Lemmas.EigBasis

/-!
# Change of amplitudes order by order (helper lemmas)

Conjugating every convolution matrix of a stack with a diagonal matrix multiplies the amplitude of each
order by the corresponding entry.  This is what a lateral translation does, and it is what separates
the orders of a homogeneous stack.
-/

open Matrix

namespace Meent

set_option linter.unusedSectionVars false
set_option linter.unusedSimpArgs false

section
variable {n : Type} [Fintype n] [DecidableEq n]

/-- `diag(D) A diag(D)⁻¹`. -/
noncomputable def gConj (D : n → ℂ) (A : Matrix n n ℂ) : Matrix n n ℂ :=
  diagonal D * A * diagonal (fun i => (D i)⁻¹)

theorem diag_inv_mul {D : n → ℂ} (hD : ∀ i, D i ≠ 0) : diagonal (fun i => (D i)⁻¹) * diagonal D = 1 := by
  rw [diagonal_mul_diagonal, ← diagonal_one]; congr 1; ext i; exact inv_mul_cancel₀ (hD i)

theorem diag_mul_inv {D : n → ℂ} (hD : ∀ i, D i ≠ 0) : diagonal D * diagonal (fun i => (D i)⁻¹) = 1 := by
  rw [diagonal_mul_diagonal, ← diagonal_one]; congr 1; ext i; exact mul_inv_cancel₀ (hD i)

theorem isUnit_diag_det {D : n → ℂ} (hD : ∀ i, D i ≠ 0) : IsUnit (diagonal D).det := by
  rw [det_diagonal]
  exact (Finset.prod_ne_zero_iff.mpr fun i _ => hD i).isUnit

theorem gConj_mul_diag {D : n → ℂ} (hD : ∀ i, D i ≠ 0) (A B : Matrix n n ℂ) :
    gConj D A * (diagonal D * B) = diagonal D * (A * B) := by
  unfold gConj
  rw [Matrix.mul_assoc, ← Matrix.mul_assoc _ (diagonal D), diag_inv_mul hD, Matrix.one_mul, Matrix.mul_assoc]

theorem gConj_mul {D : n → ℂ} (hD : ∀ i, D i ≠ 0) (A B : Matrix n n ℂ) :
    gConj D (A * B) = gConj D A * gConj D B := by
  conv_rhs => rw [gConj.eq_1 D B, Matrix.mul_assoc (diagonal D) B, gConj_mul_diag hD, ← Matrix.mul_assoc, ← Matrix.mul_assoc]
  rw [gConj, ← Matrix.mul_assoc]

theorem gConj_add (D : n → ℂ) (A B : Matrix n n ℂ) : gConj D (A + B) = gConj D A + gConj D B := by
  simp [gConj, Matrix.mul_add, Matrix.add_mul]

theorem gConj_sub (D : n → ℂ) (A B : Matrix n n ℂ) : gConj D (A - B) = gConj D A - gConj D B := by
  simp [gConj, Matrix.mul_sub, Matrix.sub_mul]

theorem gConj_diag {D : n → ℂ} (hD : ∀ i, D i ≠ 0) (v : n → ℂ) : gConj D (diagonal v) = diagonal v := by
  rw [gConj, diagonal_mul_diagonal, diagonal_mul_diagonal]
  congr 1; ext i; field_simp [hD i]

theorem gConj_one {D : n → ℂ} (hD : ∀ i, D i ≠ 0) : gConj D (1 : Matrix n n ℂ) = 1 := by
  rw [← diagonal_one]; exact gConj_diag hD _

theorem gConj_smul_one {D : n → ℂ} (hD : ∀ i, D i ≠ 0) (a : ℂ) : gConj D (a • (1 : Matrix n n ℂ)) = a • 1 := by
  rw [show a • (1 : Matrix n n ℂ) = diagonal (fun _ => a) by
    rw [← diagonal_one, ← diagonal_smul]; congr 1; ext i; simp]
  exact gConj_diag hD _

theorem gConj_apply (D : n → ℂ) (A : Matrix n n ℂ) (i j : n) : gConj D A i j = D i * A i j * (D j)⁻¹ := by
  simp [gConj, mul_diagonal, diagonal_mul]

theorem gConj_det {D : n → ℂ} (hD : ∀ i, D i ≠ 0) (A : Matrix n n ℂ) : (gConj D A).det = A.det := by
  have : diagonal (fun i => (D i)⁻¹) = (diagonal D)⁻¹ := (inv_eq_right_inv (diag_mul_inv hD)).symm
  rw [gConj, this, det_conj_eq (isUnit_diag_det hD)]

theorem gConj_inv {D : n → ℂ} (hD : ∀ i, D i ≠ 0) {A : Matrix n n ℂ} (hA : IsUnit A.det) :
    (gConj D A)⁻¹ = gConj D A⁻¹ := by
  refine inv_eq_right_inv ?_
  rw [← gConj_mul hD, mul_nonsing_inv _ hA, gConj_one hD]

theorem gConj_gConj_inv {D : n → ℂ} (hD : ∀ i, D i ≠ 0) (A : Matrix n n ℂ) :
    gConj (fun i => (D i)⁻¹) (gConj D A) = A := by
  ext i j
  rw [gConj_apply, gConj_apply]
  field_simp [hD i, hD j]

/-- Order-wise change of the three matrices of a layer. -/
noncomputable def Conv.gauge (D : n → ℂ) (c : Conv n) : Conv n := ⟨gConj D c.epx, gConj D c.epy, gConj D c.epzi⟩

/-- Left factor of a state. -/
noncomputable def TState.lmul (D : n → ℂ) (s : TState n) : TState n :=
  ⟨diagonal D * s.F, diagonal D * s.G, diagonal D * s.T⟩

theorem StepData.lmul {X W V : Matrix n n ℂ} {s s' : TState n} {Ai B : Matrix n n ℂ} {D : n → ℂ} (hD : ∀ i, D i ≠ 0)
    (h : StepData X W V s s' Ai B) :
    StepData X (diagonal D * W) (diagonal D * V) (s.lmul D) (s'.lmul D) Ai B := by
  have hu := isUnit_diag_det hD
  have c : ∀ Y Z : Matrix n n ℂ, (diagonal D * Y)⁻¹ * (diagonal D * Z) = Y⁻¹ * Z := fun Y Z => by
    rw [Matrix.mul_inv_rev, Matrix.mul_assoc, ← Matrix.mul_assoc _ (diagonal D), nonsing_inv_mul _ hu, Matrix.one_mul]
  have eA : stepA (diagonal D * W) (diagonal D * V) (s.lmul D) = stepA W V s := by
    simp only [stepA, TState.lmul, c]
  refine ⟨isUnit_det_mul hu h.hW, isUnit_det_mul hu h.hV, ?_, ?_, ?_, ?_⟩
  · rw [eA]; exact h.hA
  · rw [eA]; exact h.Ai_eq
  · simp only [TState.lmul, c]; exact h.B_eq
  · rw [h.s'_eq]; simp only [TState.lmul, Matrix.mul_assoc]

end

/-- `D` at the type `t`, one at all other types. -/
noncomputable def famAt (t : Type) (D : t → ℂ) (n : Type) : n → ℂ :=
  open Classical in fun i => if h : n = t then D (cast h i) else 1

theorem famAt_self (t : Type) (D : t → ℂ) : famAt t D t = D := by
  funext i
  unfold famAt
  rw [dif_pos rfl]; rfl

/-- The eigensolver that works on the changed matrix and changes its eigenvectors back. -/
noncomputable def gLA (la : LinAlg) (t : Type) (D : t → ℂ) (hD : ∀ i, D i ≠ 0) : LinAlg where
  eig := fun {n} _ _ A =>
    ((la.eig (gConj (fun i => (famAt t D n i)⁻¹) A)).1,
      diagonal (famAt t D n) * (la.eig (gConj (fun i => (famAt t D n i)⁻¹) A)).2)
  eig_law := by
    intro n _ _ A
    have hF : ∀ i, famAt t D n i ≠ 0 := by
      intro i; unfold famAt
      split
      · exact hD _
      · exact one_ne_zero
    have e : A = gConj (famAt t D n) (gConj (fun i => (famAt t D n i)⁻¹) A) := by
      ext i j
      rw [gConj_apply, gConj_apply]
      field_simp [hF i, hF j]
    set B := gConj (fun i => (famAt t D n i)⁻¹) A with hB
    simp only
    conv_lhs => rw [e]
    rw [gConj_mul_diag hF, la.eig_law, Matrix.mul_assoc]
  pinv := la.pinv
  pinv_law := la.pinv_law

theorem gLA_eig (la : LinAlg) {t : Type} [Fintype t] [DecidableEq t] {D : t → ℂ} (hD : ∀ i, D i ≠ 0) (A : Matrix t t ℂ) :
    (gLA la t D hD).eig (gConj D A) = ((la.eig A).1, diagonal D * (la.eig A).2) := by
  simp only [gLA, famAt_self, gConj_gConj_inv hD]

section
variable {n : Type} [Fintype n] [DecidableEq n]

theorem step1d_gauge {la : LinAlg} {p : Params} (hp : p.use_pinv = false) {k0 : ℝ} {kx : n → ℂ} {c : Conv n} {d : ℝ}
    {s : TState n} {r : TState n × LayerInfo n n} {D : n → ℂ} (hD : ∀ i, D i ≠ 0)
    (h : step1d la p k0 kx c d s = .ok r) :
    ∃ r', step1d (gLA la n D hD) p k0 kx (c.gauge D) d (s.lmul D) = .ok r' ∧ r'.1 = r.1.lmul D := by
  unfold step1d transfer_1d_3 at h
  simp only [Except.bind_ok, hp, Except.ok.injEq] at h
  obtain ⟨m, hm, t, ht, rfl⟩ := h
  have hd := (tmmStep_ok.mp ht).lmul hD
  suffices hs : transfer_1d_2 (gLA la n D hD) p.pol kx (c.gauge D) false = .ok ⟨diagonal D * m.W, diagonal D * m.V, m.q⟩ by
    refine ⟨⟨t.1.lmul D, ⟨(c.gauge D).epzi, ⟨diagonal D * m.W, diagonal D * m.V, m.q⟩, d, t.2.1, t.2.2⟩⟩, ?_, rfl⟩
    unfold step1d transfer_1d_3
    have ht' := (tmmStep_ok (la := gLA la n D hD)).mpr hd
    simp only [hp, hs, bind, Except.bind, ht']
  by_cases h0 : p.pol = 0
  · simp only [transfer_1d_2, h0, if_true, Except.ok.injEq] at hm ⊢
    subst hm
    have e : diagonal (fun i => kx i ^ 2) - (c.gauge D).epy = gConj D (diagonal (fun i => kx i ^ 2) - c.epy) := by
      rw [gConj_sub, gConj_diag hD]; rfl
    rw [e, gLA_eig]
    simp only [Matrix.mul_assoc]
  · by_cases h1 : p.pol = 1
    · simp only [transfer_1d_2, h1, one_ne_zero, if_true, if_false, Except.bind_ok, meeinv_false_ok,
        Except.ok.injEq] at hm ⊢
      obtain ⟨epxi, ⟨hx, rfl⟩, rfl⟩ := hm
      have e : (c.gauge D).epx * (diagonal kx * (c.gauge D).epzi * diagonal kx - 1)
          = gConj D (c.epx * (diagonal kx * c.epzi * diagonal kx - 1)) := by
        rw [gConj_mul hD, gConj_sub, gConj_one hD, gConj_mul hD, gConj_mul hD, gConj_diag hD]; rfl
      refine ⟨_, ⟨?_, rfl⟩, ?_⟩
      · show IsUnit (gConj D c.epx).det
        rw [gConj_det hD]; exact hx
      · rw [e, gLA_eig]
        simp only [Conv.gauge, gConj_inv hD hx, gConj_mul_diag hD, Matrix.mul_assoc]
    · simp [transfer_1d_2, h0, h1] at hm

end

section
variable {m : Type} [Fintype m] [DecidableEq m]

theorem diag_elim_commute_blocks (D : m → ℂ) (A B C E : Matrix m m ℂ) :
    diagonal (Sum.elim D D) * fromBlocks A B C E
      = fromBlocks (diagonal D * A) (diagonal D * B) (diagonal D * C) (diagonal D * E) := by
  rw [← fromBlocks_diagonal, fromBlocks_multiply]; simp

theorem blocks_mul_diag_elim (D : m → ℂ) (A B C E : Matrix m m ℂ) :
    fromBlocks A B C E * diagonal (Sum.elim D D)
      = fromBlocks (A * diagonal D) (B * diagonal D) (C * diagonal D) (E * diagonal D) := by
  rw [← fromBlocks_diagonal, fromBlocks_multiply]; simp

theorem rotE_comm (D varphi : m → ℂ) (W : Matrix (m ⊕ m) (m ⊕ m) ℂ) :
    rotE varphi * (diagonal (Sum.elim D D) * W) = diagonal (Sum.elim D D) * (rotE varphi * W) := by
  rw [← Matrix.mul_assoc, ← Matrix.mul_assoc]
  congr 1
  rw [rotE, diag_elim_commute_blocks, blocks_mul_diag_elim]
  simp only [Matrix.neg_mul, Matrix.mul_neg, diagonal_mul_diagonal, mul_comm]

theorem rotH_comm (D varphi : m → ℂ) (W : Matrix (m ⊕ m) (m ⊕ m) ℂ) :
    rotH varphi * (diagonal (Sum.elim D D) * W) = diagonal (Sum.elim D D) * (rotH varphi * W) := by
  rw [← Matrix.mul_assoc, ← Matrix.mul_assoc]
  congr 1
  rw [rotH, diag_elim_commute_blocks, blocks_mul_diag_elim]
  simp only [Matrix.neg_mul, Matrix.mul_neg, diagonal_mul_diagonal, mul_comm]

theorem elim_ne {D : m → ℂ} (hD : ∀ i, D i ≠ 0) : ∀ i, Sum.elim D D i ≠ 0 := by
  rintro (i | i) <;> exact hD i

theorem gConj_blocks (D : m → ℂ) (A B C E : Matrix m m ℂ) :
    gConj (Sum.elim D D) (fromBlocks A B C E) = fromBlocks (gConj D A) (gConj D B) (gConj D C) (gConj D E) := by
  have : (fun i => (Sum.elim D D i)⁻¹) = Sum.elim (fun i => (D i)⁻¹) fun i => (D i)⁻¹ := by
    ext i; cases i <;> rfl
  rw [gConj, this, diag_elim_commute_blocks, blocks_mul_diag_elim]; rfl

theorem omega2LR_gauge {D : m → ℂ} (hD : ∀ i, D i ≠ 0) (kx ky : m → ℂ) (c : Conv m) :
    omega2LR kx ky (c.gauge D) = gConj (Sum.elim D D) (omega2LR kx ky c) := by
  unfold omega2LR
  simp only [gConj_blocks, gConj_add, gConj_sub, gConj_mul hD, gConj_diag hD, gConj_one hD, Conv.gauge]

theorem omegaR_gauge {D : m → ℂ} (hD : ∀ i, D i ≠ 0) (kx ky : m → ℂ) (c : Conv m) :
    omegaR kx ky (c.gauge D) = gConj (Sum.elim D D) (omegaR kx ky c) := by
  unfold omegaR
  simp only [gConj_blocks, gConj_sub, gConj_mul hD, gConj_diag hD, Conv.gauge]
  congr 1
  rw [diagonal_neg, gConj_diag hD]

theorem step2d_gauge {la : LinAlg} {k0 : ℝ} {kx ky varphi : m → ℂ} {c : Conv m} {d : ℝ}
    {s : TState (m ⊕ m)} {r : TState (m ⊕ m) × LayerInfo m (m ⊕ m)} {D : m → ℂ} (hD : ∀ i, D i ≠ 0)
    (h : step2d la false k0 kx ky varphi c d s = .ok r) :
    ∃ r', step2d (gLA la (m ⊕ m) (Sum.elim D D) (elim_ne hD)) false k0 kx ky varphi (c.gauge D) d
      (s.lmul (Sum.elim D D)) = .ok r' ∧ r'.1 = r.1.lmul (Sum.elim D D) := by
  unfold step2d at h
  simp only [transfer_2d_3_eq, Except.bind_ok, Except.ok.injEq] at h
  obtain ⟨M, hM, t, ht, rfl⟩ := h
  have hd := (tmmStep_ok.mp ht).lmul (elim_ne hD)
  simp only [transfer_2d_2, Except.bind_ok, meeinv_false_ok, Except.ok.injEq] at hM
  obtain ⟨Qi, ⟨hq, rfl⟩, rfl⟩ := hM
  simp only [bigW2d_eq, bigV2d_eq, ← rotE_comm, ← rotH_comm] at hd
  have ht' := (tmmStep_ok (la := gLA la (m ⊕ m) (Sum.elim D D) (elim_ne hD))).mpr hd
  unfold step2d
  simp only [transfer_2d_3_eq, transfer_2d_2, Except.bind_ok, meeinv_false_ok, Except.ok.injEq]
  rw [omega2LR_gauge hD, gLA_eig, omegaR_gauge hD, gConj_mul_diag (elim_ne hD)]
  refine ⟨(t.1.lmul (Sum.elim D D), ⟨(c.gauge D).epzi, ⟨diagonal (Sum.elim D D) * (la.eig (omega2LR kx ky c)).2,
    diagonal (Sum.elim D D) * (omegaR kx ky c * (la.eig (omega2LR kx ky c)).2)
      * (diagonal fun i => csqrt ((la.eig (omega2LR kx ky c)).1 i))⁻¹,
    fun i => csqrt ((la.eig (omega2LR kx ky c)).1 i)⟩, d, t.2.1, t.2.2⟩), ?_, rfl⟩
  refine ⟨_, ⟨_, ⟨hq, rfl⟩, rfl⟩, (_, t.2.1, t.2.2), ?_, rfl⟩
  simp only [bigW2d_eq, bigV2d_eq]
  rw [Matrix.mul_assoc (diagonal (Sum.elim D D))]
  exact ht'

theorem gConj_chain3 {D : m → ℂ} (hD : ∀ i, D i ≠ 0) (ky kx : m → ℂ) (A W : Matrix m m ℂ) :
    diagonal ky * gConj D A * diagonal kx * (diagonal D * W) = diagonal D * (diagonal ky * A * diagonal kx * W) := by
  have : diagonal ky * gConj D A * diagonal kx = gConj D (diagonal ky * A * diagonal kx) := by
    rw [gConj_mul hD, gConj_mul hD, gConj_diag hD, gConj_diag hD]
  rw [this, gConj_mul_diag hD]

theorem gConj_chain4 {D : m → ℂ} (hD : ∀ i, D i ≠ 0) (ky kx : m → ℂ) (A E W : Matrix m m ℂ) :
    diagonal ky * gConj D A * diagonal kx * gConj D E * (diagonal D * W)
      = diagonal D * (diagonal ky * A * diagonal kx * E * W) := by
  have : diagonal ky * gConj D A * diagonal kx * gConj D E = gConj D (diagonal ky * A * diagonal kx * E) := by
    rw [gConj_mul hD, gConj_mul hD, gConj_mul hD, gConj_diag hD, gConj_diag hD]
  rw [this, gConj_mul_diag hD]

theorem stepCon_gauge {la : LinAlg} {k0 : ℝ} {kx ky varphi : m → ℂ} {c : Conv m} {d : ℝ}
    {s : TState (m ⊕ m)} {r : TState (m ⊕ m) × LayerInfoCon m} {D : m → ℂ} (hD : ∀ i, D i ≠ 0)
    (h : stepCon la false k0 kx ky varphi c d s = .ok r) :
    ∃ r', stepCon (gLA la m D hD) false k0 kx ky varphi (c.gauge D) d
      (s.lmul (Sum.elim D D)) = .ok r' ∧ r'.1 = r.1.lmul (Sum.elim D D) := by
  unfold stepCon at h
  simp only [transfer_1d_conical_3_eq, Except.bind_ok, Except.ok.injEq] at h
  obtain ⟨M, hM, t, ht, rfl⟩ := h
  have hd := (tmmStep_ok.mp ht).lmul (elim_ne hD)
  have e1 : diagonal (fun i => ky i ^ 2) + (diagonal (fun i => kx i ^ 2) - (c.gauge D).epy)
      = gConj D (diagonal (fun i => ky i ^ 2) + (diagonal (fun i => kx i ^ 2) - c.epy)) := by
    simp only [gConj_add, gConj_sub, gConj_diag hD, Conv.gauge]
  have e2 : diagonal (fun i => ky i ^ 2) + (diagonal kx * (c.gauge D).epzi * diagonal kx - 1) * (c.gauge D).epx
      = gConj D (diagonal (fun i => ky i ^ 2) + (diagonal kx * c.epzi * diagonal kx - 1) * c.epx) := by
    simp only [gConj_add, gConj_sub, gConj_mul hD, gConj_diag hD, gConj_one hD, Conv.gauge]
  have e3 : diagonal (fun i => kx i ^ 2) - (c.gauge D).epy = gConj D (diagonal (fun i => kx i ^ 2) - c.epy) := by
    simp only [gConj_sub, gConj_diag hD, Conv.gauge]
  have e4 : diagonal kx * (c.gauge D).epzi * diagonal kx - 1 = gConj D (diagonal kx * c.epzi * diagonal kx - 1) := by
    simp only [gConj_sub, gConj_mul hD, gConj_diag hD, gConj_one hD, Conv.gauge]
  simp only [transfer_1d_conical_2, Except.bind_ok, meeinv_false_ok, Except.ok.injEq] at hM
  obtain ⟨A_i, ⟨hAi, rfl⟩, B_i, ⟨hBi, rfl⟩, rfl⟩ := hM
  set M : ConModes m := _ with hMdef
  let M' : ConModes m := ⟨diagonal D * M.W1, diagonal D * M.W2, diagonal D * M.V11, diagonal D * M.V12,
    diagonal D * M.V21, diagonal D * M.V22, M.q1, M.q2⟩
  have eW : conW varphi M' = diagonal (Sum.elim D D) * conW varphi M := by
    rw [conW_eq, conW_eq, ← rotE_comm]
    congr 1
    simp only [conW0, diag_elim_commute_blocks, M', Matrix.mul_zero]
  have eV : conV varphi M' = diagonal (Sum.elim D D) * conV varphi M := by
    rw [conV_eq, conV_eq, ← rotH_comm]
    congr 1
    simp only [conV0, diag_elim_commute_blocks, M', Matrix.mul_zero]
  rw [← eW, ← eV] at hd
  have hM' : transfer_1d_conical_2 (gLA la m D hD) kx ky (c.gauge D) false = .ok M' := by
    simp only [transfer_1d_conical_2, Except.bind_ok, meeinv_false_ok, Except.ok.injEq]
    refine ⟨_, ⟨?_, rfl⟩, _, ⟨?_, rfl⟩, ?_⟩
    · rw [e3, gConj_det hD]; exact hAi
    · rw [e4, gConj_det hD]; exact hBi
    · rw [e1, e2, e3, e4, gLA_eig, gLA_eig, gConj_inv hD hAi, gConj_inv hD hBi]
      simp only [M', hMdef]
      congr 1
      · simp only [Matrix.mul_assoc, gConj_mul_diag hD]
      · exact gConj_chain3 hD _ _ _ _
      · exact gConj_chain4 hD _ _ _ _ _
      · simp only [Matrix.mul_assoc, gConj_mul_diag hD]
  refine ⟨(t.1.lmul (Sum.elim D D), ⟨(c.gauge D).epzi, M', d, t.2.1, t.2.2⟩), ?_, rfl⟩
  unfold stepCon
  simp only [transfer_1d_conical_3_eq, Except.bind_ok, Except.ok.injEq]
  exact ⟨_, hM', (_, t.2.1, t.2.2), tmmStep_ok.mpr hd, rfl⟩

end

/-- `r'` has the amplitudes of `r` multiplied order by order by `D`. -/
structure SubRes.Scaled {a b : ℕ} (D : Fin a → Fin b → ℂ) (r r' : SubRes a b) : Prop where
  R_s : ∀ j i, r'.R_s j i = D j i * r.R_s j i
  R_p : ∀ j i, r'.R_p j i = D j i * r.R_p j i
  T_s : ∀ j i, r'.T_s j i = D j i * r.T_s j i
  T_p : ∀ j i, r'.T_p j i = D j i * r.T_p j i

theorem transfer_1d_4_gauge {ff : ℕ} {la la' : LinAlg} {pol : ℝ} {s : TState (Fin ff)}
    {kzt kzb : Fin ff → ℂ} {theta nt nb : ℂ} {o : SubRes 1 ff × (Fin ff → ℂ)} {D : Fin ff → ℂ}
    (hD : ∀ i, D i ≠ 0) (h0 : ∀ i, D i * deltaI0 i = deltaI0 i)
    (h : transfer_1d_4 la pol s kzt kzb theta nt nb false = .ok o) :
    ∃ o', transfer_1d_4 la' pol (s.lmul D) kzt kzb theta nt nb false = .ok o' ∧ o.1.Scaled (fun _ => D) o'.1 := by
  have hu := isUnit_diag_det hD
  have hcomm : ∀ k : Fin ff → ℂ, diagonal k * diagonal D = diagonal D * diagonal k := fun k => by
    simp only [diagonal_mul_diagonal, mul_comm]
  have hdel : diagonal D *ᵥ deltaI0 = deltaI0 := by
    ext i; rw [mulVec_diagonal]; exact h0 i
  have hinv : ∀ (k : Fin ff → ℂ), IsUnit (s.G + diagonal k * s.F).det →
      IsUnit ((s.lmul D).G + diagonal k * (s.lmul D).F).det ∧
      ∀ (a : ℂ) (l : Fin ff → ℂ), ((s.lmul D).G + diagonal k * (s.lmul D).F)⁻¹ *ᵥ (diagonal l *ᵥ deltaI0 + a • deltaI0)
        = (s.G + diagonal k * s.F)⁻¹ *ᵥ (diagonal l *ᵥ deltaI0 + a • deltaI0) := by
    intro k hk
    have e : (s.lmul D).G + diagonal k * (s.lmul D).F = diagonal D * (s.G + diagonal k * s.F) := by
      simp only [TState.lmul, Matrix.mul_add, ← Matrix.mul_assoc, hcomm]
    rw [e]
    refine ⟨isUnit_det_mul hu hk, fun a l => ?_⟩
    have e2 : diagonal l *ᵥ deltaI0 + a • deltaI0 = diagonal D *ᵥ (diagonal l *ᵥ deltaI0 + a • deltaI0) := by
      rw [mulVec_add, mulVec_mulVec, ← hcomm, ← mulVec_mulVec, hdel, mulVec_smul, hdel]
    conv_lhs => rw [e2]
    rw [Matrix.mul_inv_rev, mulVec_mulVec, Matrix.mul_assoc, nonsing_inv_mul _ hu, Matrix.mul_one]
  have fin : ∀ T1 : Fin ff → ℂ, (∀ i, ((s.lmul D).F *ᵥ T1 - deltaI0 : Fin ff → ℂ) i = D i * (s.F *ᵥ T1 - deltaI0 : Fin ff → ℂ) i) ∧
      ∀ i, ((s.lmul D).T *ᵥ T1) i = D i * (s.T *ᵥ T1) i := by
    intro T1
    constructor <;> intro i
    · simp only [TState.lmul, ← mulVec_mulVec, Pi.sub_apply, mulVec_diagonal]
      linear_combination h0 i
    · simp only [TState.lmul, ← mulVec_mulVec, mulVec_diagonal]
  have eI : ∀ k : Fin ff → ℂ, Complex.I • diagonal k = diagonal (fun i => Complex.I * k i) := fun k => by
    rw [← diagonal_smul]; rfl
  have eN : ∀ k : Fin ff → ℂ, ((1 : ℂ) / nt ^ 2) • diagonal k = diagonal (fun i => (1 : ℂ) / nt ^ 2 * k i) := fun k => by
    rw [← diagonal_smul]; rfl
  unfold transfer_1d_4 at h ⊢
  by_cases hp0 : pol = 0
  · simp only [hp0, if_true, Except.bind_ok, meeinv_false_ok, eI] at h ⊢
    obtain ⟨N, ⟨hu, rfl⟩, T1, e1, e2⟩ := h
    simp only [Except.ok.injEq] at e1 e2
    obtain ⟨hu', hb⟩ := hinv _ hu
    refine ⟨_, ⟨_, ⟨hu', rfl⟩, _, rfl, rfl⟩, ?_⟩
    subst e2 e1
    simp only [hb]
    exact ⟨fun _ => (fin _).1, fun _ _ => by simp, fun _ => (fin _).2, fun _ _ => by simp⟩
  · by_cases h1 : pol = 1
    · simp only [h1, one_ne_zero, if_true, if_false, Except.bind_ok, meeinv_false_ok, eI, eN] at h ⊢
      obtain ⟨N, ⟨hu, rfl⟩, T1, e1, e2⟩ := h
      simp only [Except.ok.injEq] at e1 e2
      obtain ⟨hu', hb⟩ := hinv _ hu
      refine ⟨_, ⟨_, ⟨hu', rfl⟩, _, rfl, rfl⟩, ?_⟩
      subst e2 e1
      simp only [hb]
      exact ⟨fun _ _ => by simp, fun _ => (fin _).1, fun _ _ => by simp, fun _ => (fin _).2⟩
    · simp only [hp0, h1, if_false] at h
      simp [bind, Except.bind] at h

section
variable {m : Type} [Fintype m] [DecidableEq m]

theorem finalA_lmul (D : m → ℂ) (nt : ℂ) (kzt : m → ℂ) (s : TState (m ⊕ m)) :
    finalA nt kzt (s.lmul (Sum.elim D D)) * fromBlocks (diagonal (Sum.elim D D)) 0 0 1
      = fromBlocks (diagonal (Sum.elim D D)) 0 0 (diagonal (Sum.elim D D)) * finalA nt kzt s := by
  unfold finalA TState.lmul
  rw [fromBlocks_multiply, fromBlocks_multiply]
  have h1 : ∀ a : Matrix m m ℂ, a * diagonal D = diagonal D * a →
      fromBlocks 1 0 0 a * diagonal (Sum.elim D D) = diagonal (Sum.elim D D) * fromBlocks 1 0 0 a := by
    intro a ha
    rw [diag_elim_commute_blocks, blocks_mul_diag_elim, ha]; simp
  have h2 : ∀ a : Matrix m m ℂ, a * diagonal D = diagonal D * a →
      fromBlocks a 0 0 1 * diagonal (Sum.elim D D) = diagonal (Sum.elim D D) * fromBlocks a 0 0 1 := by
    intro a ha
    rw [diag_elim_commute_blocks, blocks_mul_diag_elim, ha]; simp
  have hcomm : ∀ k : m → ℂ, diagonal k * diagonal D = diagonal D * diagonal k := fun k => by
    simp only [diagonal_mul_diagonal, mul_comm]
  rw [h1 _ (by simp only [Matrix.neg_mul, Matrix.mul_neg, Matrix.smul_mul, Matrix.mul_smul, hcomm]),
    h2 _ (by simp only [Matrix.neg_mul, Matrix.mul_neg, Matrix.smul_mul, Matrix.mul_smul, hcomm])]
  simp only [Matrix.mul_zero, Matrix.zero_mul, add_zero, zero_add, Matrix.mul_one, Matrix.mul_neg, neg_zero]

end

theorem transfer_2d_4_gauge {fx fy : ℕ} {la la' : LinAlg} {s : TState (FlatIdx fx fy ⊕ FlatIdx fx fy)}
    {kzt kzb : FlatIdx fx fy → ℂ} {psi theta nt nb : ℂ} {o : Out4 fx fy} {D : FlatIdx fx fy → ℂ}
    (hD : ∀ i, D i ≠ 0) (h0 : ∀ i, D i * deltaI0 i = deltaI0 i)
    (h : transfer_2d_4 la s kzt kzb psi theta nt nb false = .ok o) :
    ∃ o', transfer_2d_4 la' (s.lmul (Sum.elim D D)) kzt kzb psi theta nt nb false = .ok o' ∧
      o.res.Scaled (fun j i => D (finProdFinEquiv (j, i))) o'.res ∧
      o.res_te.Scaled (fun j i => D (finProdFinEquiv (j, i))) o'.res_te ∧
      o.res_tm.Scaled (fun j i => D (finProdFinEquiv (j, i))) o'.res_tm := by
  set D2 := Sum.elim D D with hD2
  have hu2 : IsUnit (diagonal D2).det := isUnit_diag_det (elim_ne hD)
  unfold transfer_2d_4 at h ⊢
  simp only [Except.bind_ok, meeinv_false_ok, Except.ok.injEq] at h ⊢
  obtain ⟨N, ⟨hu, rfl⟩, rfl⟩ := h
  have hL := finalA_lmul D nt kzt s
  rw [← hD2] at hL
  set P : Matrix ((FlatIdx fx fy ⊕ FlatIdx fx fy) ⊕ (FlatIdx fx fy ⊕ FlatIdx fx fy))
    ((FlatIdx fx fy ⊕ FlatIdx fx fy) ⊕ (FlatIdx fx fy ⊕ FlatIdx fx fy)) ℂ := fromBlocks (diagonal D2) 0 0 1 with hP
  set Q : Matrix ((FlatIdx fx fy ⊕ FlatIdx fx fy) ⊕ (FlatIdx fx fy ⊕ FlatIdx fx fy))
    ((FlatIdx fx fy ⊕ FlatIdx fx fy) ⊕ (FlatIdx fx fy ⊕ FlatIdx fx fy)) ℂ :=
    fromBlocks (diagonal D2) 0 0 (diagonal D2) with hQ
  have hQu : IsUnit Q.det := by rw [hQ, det_fromBlocks_zero₂₁]; exact hu2.mul hu2
  have hu' : IsUnit (finalA nt kzt (s.lmul D2)).det :=
    isUnit_det_of_mul_left (by rw [hL]; exact isUnit_det_mul hQu hu)
  have key : ∀ psi, (finalA nt kzt (s.lmul D2))⁻¹ *ᵥ finalB deltaI0 psi theta nt
      = P *ᵥ ((finalA nt kzt s)⁻¹ *ᵥ finalB deltaI0 psi theta nt) := by
    intro psi
    set b := finalB deltaI0 psi theta nt with hb
    have hQb : Q *ᵥ b = b := by
      rw [hQ, fromBlocks_diagonal]
      ext i
      rw [mulVec_diagonal, hb]
      rcases i with (i | i) | (i | i) <;>
        simp only [finalB, hD2, Sum.elim_inl, Sum.elim_inr] <;> rw [mul_left_comm, h0 i]
    have : finalA nt kzt (s.lmul D2) *ᵥ (P *ᵥ ((finalA nt kzt s)⁻¹ *ᵥ b)) = b := by
      rw [mulVec_mulVec, hL, ← mulVec_mulVec, mulVec_mulVec _ (finalA nt kzt s), mul_nonsing_inv _ hu, one_mulVec, hQb]
    conv_lhs => rw [← this]
    rw [mulVec_mulVec, nonsing_inv_mul _ hu', one_mulVec]
  have keyl : ∀ v i, (P *ᵥ v) (.inl i) = D2 i * v (.inl i) := by
    intro v i
    rw [hP, ← diagonal_one, fromBlocks_diagonal, mulVec_diagonal]; rfl
  have keyr : ∀ v : _ → ℂ, (fun i => (P *ᵥ v) (.inr i)) = fun i => v (.inr i) := by
    intro v; ext i
    rw [hP, ← diagonal_one, fromBlocks_diagonal, mulVec_diagonal]; simp
  refine ⟨_, ⟨_, ⟨hu', rfl⟩, rfl⟩, ?_⟩
  have fin : ∀ v : _ → ℂ, (subResOf s kzt kzb theta nt nb v).Scaled (fun j i => D (finProdFinEquiv (j, i)))
      (subResOf (s.lmul D2) kzt kzb theta nt nb (P *ᵥ v)) := by
    intro v
    have hT : ∀ i, ((s.lmul D2).T *ᵥ fun i => (P *ᵥ v) (.inr i)) i = D2 i * (s.T *ᵥ fun i => v (.inr i)) i := by
      intro i
      rw [keyr, TState.lmul, ← mulVec_mulVec, mulVec_diagonal]
    constructor <;> intro j i
    · simp only [subResOf]; rw [keyl]; rfl
    · simp only [subResOf]; rw [keyl]; rfl
    · simp only [subResOf]; rw [hT]; rfl
    · simp only [subResOf]; rw [hT]; rfl
  refine ⟨?_, ?_, ?_⟩
  · simp only [key]; exact fin _
  · simp only [key]; exact fin _
  · simp only [key]; exact fin _

/-! ### Whole solves -/

theorem runLayers_mapC {S C C' L : Type} {step : C' → ℝ → S → Res (S × L)} (g : C → C') (xs : List (C × ℝ)) (s : S × List L) :
    runLayers step (xs.map (Prod.map g id)) s = runLayers (fun c => step (g c)) xs s := by
  induction xs with
  | nil => rfl
  | cons x xs ih => simp only [List.map_cons, runLayers, ih, Prod.map, id]

theorem zip_map_fst {α β γ : Type} (g : α → β) (l : List α) (l' : List γ) :
    (l.map g).zip l' = (l.zip l').map (Prod.map g id) := by
  rw [List.zip_map_left]

theorem solve_1d_gauge {la : LinAlg} {p : Params} {wl : ℝ} {convs : List (Conv (Fin (2 * p.fto.1 + 1)))}
    {o : Out1D (2 * p.fto.1 + 1)} (hp : p.use_pinv = false) {D : Fin (2 * p.fto.1 + 1) → ℂ}
    (hD : ∀ i, D i ≠ 0) (h0 : ∀ i, D i * deltaI0 i = deltaI0 i) (h : solve_1d la p wl convs = .ok o) :
    ∃ o', solve_1d (gLA la _ D hD) p wl (convs.map (Conv.gauge D)) = .ok o' ∧ o.res.Scaled (fun _ => D) o'.res := by
  obtain ⟨hl, init, r, x, hi, hr, hx, rfl⟩ := (solve_1d_iff hp).mp h
  have he : SEquiv (init.2.2.lmul D) init.2.2 := by
    refine SEquiv.symm ⟨diagonal D, isUnit_diag_det hD, ?_⟩
    unfold transfer_1d_1 at hi
    have hcomm : ∀ k : Fin (2 * p.fto.1 + 1) → ℂ, diagonal k * diagonal D = diagonal D * diagonal k := fun k => by
      simp only [diagonal_mul_diagonal, mul_comm]
    by_cases hp0 : p.pol = 0
    · simp only [hp0, if_true, Except.ok.injEq] at hi
      subst hi
      simp [TState.lmul, TState.rmul, hcomm]
    · by_cases h1 : p.pol = 1
      · simp only [h1, one_ne_zero, if_true, if_false, Except.ok.injEq] at hi
        subst hi
        simp [TState.lmul, TState.rmul, hcomm]
      · simp [hp0, h1] at hi
  obtain ⟨r', hr', he'⟩ := run_transfer (fun s s' => SEquiv (s.lmul D) s')
    (step' := fun c => step1d (gLA la _ D hD) p (2 * Real.pi / wl) (kxVec p wl) (c.gauge D))
    (fun c d s s' r h he => by
      obtain ⟨r1, h1, e1⟩ := step1d_gauge hp hD h
      obtain ⟨r2, h2, e2⟩ := step1d_transfer hp (basis1d hp h1) h1 he
      rw [e1] at e2
      exact ⟨r2, h2, e2⟩) _ he hr
  obtain ⟨x1, hx1, e1⟩ := transfer_1d_4_gauge (la' := gLA la _ D hD) hD h0 hx
  obtain ⟨x2, hx2, e2⟩ := transfer_1d_4_equiv he'.symm hx1
  refine ⟨⟨x2.1, x2.2, r'.2⟩, (solve_1d_iff hp).mpr ⟨by simpa using hl, init, r', x2, hi, ?_, hx2, rfl⟩, ?_⟩
  · rw [zip_map_fst, runLayers_mapC]; exact hr'
  · simp only [e2]; exact e1

theorem transfer_2d_1_lmul {m : Type} [Fintype m] [DecidableEq m] {kx ky : m → ℂ} {nt nb : ℂ} {o}
    (h : transfer_2d_1 kx ky nt nb = .ok o) {D : m → ℂ} (hD : ∀ i, D i ≠ 0) :
    SEquiv (o.2.2.2.lmul (Sum.elim D D)) o.2.2.2 := by
  refine SEquiv.symm ⟨diagonal (Sum.elim D D), isUnit_diag_det (elim_ne hD), ?_⟩
  unfold transfer_2d_1 at h
  simp only [Except.bind_ok, Except.ok.injEq] at h
  obtain ⟨_, _, rfl⟩ := h
  have hcomm : ∀ k : m → ℂ, diagonal k * diagonal D = diagonal D * diagonal k := fun k => by
    simp only [diagonal_mul_diagonal, mul_comm]
  simp only [TState.lmul, TState.rmul, diag_elim_commute_blocks, blocks_mul_diag_elim, Matrix.smul_mul, Matrix.mul_smul,
    hcomm, Matrix.mul_zero, Matrix.zero_mul, Matrix.mul_one, Matrix.one_mul]

theorem solve_2d_gauge {la : LinAlg} {p : Params} {wl : ℝ} {convs : List (Conv (FlatIdx p.fto.1 p.fto.2))}
    {o : Out2D p.fto.1 p.fto.2} (hp : p.use_pinv = false) {D : FlatIdx p.fto.1 p.fto.2 → ℂ}
    (hD : ∀ i, D i ≠ 0) (h0 : ∀ i, D i * deltaI0 i = deltaI0 i) (h : solve_2d la p wl convs = .ok o) :
    ∃ o', solve_2d (gLA la _ (Sum.elim D D) (elim_ne hD)) p wl (convs.map (Conv.gauge D)) = .ok o' ∧
      o.out.res.Scaled (fun j i => D (finProdFinEquiv (j, i))) o'.out.res ∧
      o.out.res_te.Scaled (fun j i => D (finProdFinEquiv (j, i))) o'.out.res_te ∧
      o.out.res_tm.Scaled (fun j i => D (finProdFinEquiv (j, i))) o'.out.res_tm := by
  obtain ⟨hl, init, r, x, hi, hr, hx, rfl⟩ := (solve_2d_iff hp).mp h
  have he := transfer_2d_1_lmul hi hD
  obtain ⟨r', hr', he'⟩ := run_transfer (fun s s' => SEquiv (s.lmul (Sum.elim D D)) s')
    (step' := fun c => step2d (gLA la _ (Sum.elim D D) (elim_ne hD)) false (2 * Real.pi / wl) (kxF p wl) (kyF p wl)
      init.2.2.1 (c.gauge D))
    (fun c d s s' r h he => by
      obtain ⟨r1, h1, e1⟩ := step2d_gauge hD h
      obtain ⟨r2, h2, e2⟩ := step2d_transfer (basis2d h1) h1 he
      rw [e1] at e2
      exact ⟨r2, h2, e2⟩) _ he hr
  obtain ⟨x1, hx1, e1⟩ := transfer_2d_4_gauge (la' := gLA la _ (Sum.elim D D) (elim_ne hD)) hD h0 hx
  obtain ⟨x2, hx2, e2⟩ := transfer_2d_4_equiv he'.symm hx1
  simp only [Out4.results, Prod.mk.injEq] at e2
  refine ⟨⟨x2, r'.2⟩, (solve_2d_iff hp).mpr ⟨by simpa using hl, init, r', x2, hi, ?_, hx2, rfl⟩, ?_⟩
  · rw [zip_map_fst, runLayers_mapC]; exact hr'
  · simp only [e2]; exact e1

theorem solve_con_gauge {la : LinAlg} {p : Params} {wl : ℝ} {convs : List (Conv (FlatIdx p.fto.1 p.fto.2))}
    {o : OutCon p.fto.1 p.fto.2} (hp : p.use_pinv = false) {D : FlatIdx p.fto.1 p.fto.2 → ℂ}
    (hD : ∀ i, D i ≠ 0) (h0 : ∀ i, D i * deltaI0 i = deltaI0 i) (h : solve_1d_conical la p wl convs = .ok o) :
    ∃ o', solve_1d_conical (gLA la _ D hD) p wl (convs.map (Conv.gauge D)) = .ok o' ∧
      o.out.res.Scaled (fun j i => D (finProdFinEquiv (j, i))) o'.out.res ∧
      o.out.res_te.Scaled (fun j i => D (finProdFinEquiv (j, i))) o'.out.res_te ∧
      o.out.res_tm.Scaled (fun j i => D (finProdFinEquiv (j, i))) o'.out.res_tm := by
  obtain ⟨hl, hf, init, r, x, hi, hr, hx, rfl⟩ := (solve_con_iff hp).mp h
  have he := transfer_2d_1_lmul hi hD
  obtain ⟨r', hr', he'⟩ := run_transfer (fun s s' => SEquiv (s.lmul (Sum.elim D D)) s')
    (step' := fun c => stepCon (gLA la _ D hD) false (2 * Real.pi / wl) (kxF p wl) (kyF p wl)
      init.2.2.1 (c.gauge D))
    (fun c d s s' r h he => by
      obtain ⟨r1, h1, e1⟩ := stepCon_gauge hD h
      obtain ⟨r2, h2, e2⟩ := stepCon_transfer (basisCon h1).1 (basisCon h1).2 h1 he
      rw [e1] at e2
      exact ⟨r2, h2, e2⟩) _ he hr
  obtain ⟨x1, hx1, e1⟩ := transfer_2d_4_gauge (la' := gLA la _ D hD) hD h0 hx
  obtain ⟨x2, hx2, e2⟩ := transfer_2d_4_equiv he'.symm hx1
  simp only [Out4.results, Prod.mk.injEq] at e2
  refine ⟨⟨x2, r'.2⟩, (solve_con_iff hp).mpr ⟨by simpa using hl, hf, init, r', x2, hi, ?_, hx2, rfl⟩, ?_⟩
  · rw [zip_map_fst, runLayers_mapC]; exact hr'
  · simp only [e2]; exact e1

end Meent
