import Verif.Lemmas.EigBasis

/-!
# The layer modes of the conical and 2D solvers solve Maxwell's equations (helper lemmas)

`Ω_L`, `Ω_R` are the two coupling matrices of the transverse fields: modes satisfy
`Ω_L V = W Q` and `Ω_R W = V Q`.
-/

open Matrix

namespace Meent

set_option linter.unusedSectionVars false
set_option linter.unusedSimpArgs false

variable {m : Type} [Fintype m] [DecidableEq m]

/-- The companion of `omegaR`: `omegaL * omegaR = omega2LR`. -/
noncomputable def omegaL (kx ky : m → ℂ) (c : Conv m) : Matrix (m ⊕ m) (m ⊕ m) ℂ :=
  let Kx := diagonal kx
  let Ky := diagonal ky
  fromBlocks (-(Kx * c.epzi * Ky)) (Kx * c.epzi * Kx - 1)
    (1 - Ky * c.epzi * Ky) (Ky * c.epzi * Kx)

theorem diag_sq (k : m → ℂ) : (diagonal fun i => k i ^ 2) = diagonal k * diagonal k := by
  rw [diagonal_mul_diagonal]; congr 1; ext i; ring

theorem diag_comm (k l : m → ℂ) : diagonal k * diagonal l = diagonal l * diagonal k := by
  rw [diagonal_mul_diagonal, diagonal_mul_diagonal]; congr 1; ext i; ring

theorem omegaL_mul_omegaR (kx ky : m → ℂ) (c : Conv m) :
    omegaL kx ky c * omegaR kx ky c = omega2LR kx ky c := by
  unfold omegaL omegaR omega2LR
  simp only [diag_sq]
  set Kx := diagonal kx with hKx
  set Ky := diagonal ky with hKy
  have hc : Kx * Ky = Ky * Kx := diag_comm _ _
  rw [fromBlocks_multiply]
  congr 1
  · have e1 : Kx * c.epzi * Ky * (Kx * Ky) = Kx * c.epzi * Kx * (Ky * Ky) := by
      rw [Matrix.mul_assoc (Kx * c.epzi), ← Matrix.mul_assoc Ky, ← hc]
      simp only [Matrix.mul_assoc]
    rw [Matrix.neg_mul, Matrix.neg_mul, Matrix.mul_neg, neg_neg, e1]
    noncomm_ring
  · have e1 : Kx * c.epzi * Ky * (Kx * Kx) = Kx * c.epzi * Kx * (Ky * Kx) := by
      have : Ky * (Kx * Kx) = Kx * (Ky * Kx) := by rw [← Matrix.mul_assoc, ← hc, Matrix.mul_assoc, ← hc]
      rw [Matrix.mul_assoc (Kx * c.epzi), this]
      simp only [Matrix.mul_assoc]
    have e2 : Kx * Ky = Ky * Kx := hc
    rw [Matrix.mul_sub, Matrix.neg_mul, e1, Matrix.sub_mul, Matrix.one_mul, ← e2]
    noncomm_ring
  · have e1 : Ky * c.epzi * Ky * (Kx * Ky) = Ky * c.epzi * Kx * (Ky * Ky) := by
      rw [Matrix.mul_assoc (Ky * c.epzi), ← Matrix.mul_assoc Ky, ← hc]
      simp only [Matrix.mul_assoc]
    rw [Matrix.neg_mul, Matrix.mul_neg, Matrix.sub_mul, e1, Matrix.one_mul, hc]
    noncomm_ring
  · have e1 : Ky * c.epzi * Ky * (Kx * Kx) = Ky * c.epzi * Kx * (Ky * Kx) := by
      have : Ky * (Kx * Kx) = Kx * (Ky * Kx) := by rw [← Matrix.mul_assoc, ← hc, Matrix.mul_assoc, ← hc]
      rw [Matrix.mul_assoc (Ky * c.epzi), this]
      simp only [Matrix.mul_assoc]
    rw [Matrix.sub_mul, Matrix.mul_sub (Ky * c.epzi * Ky), e1]
    noncomm_ring

/-- Transverse modes of a layer. -/
structure ModePair (kx ky : m → ℂ) (c : Conv m) (W V : Matrix (m ⊕ m) (m ⊕ m) ℂ) (q : m ⊕ m → ℂ) :
    Prop where
  left : omegaL kx ky c * V = W * diagonal q
  right : omegaR kx ky c * W = V * diagonal q

theorem modePair_2d {la : LinAlg} {kx ky : m → ℂ} {c : Conv m} {M : Modes (m ⊕ m)}
    (h : transfer_2d_2 la kx ky c false = .ok M) : ModePair kx ky c M.W M.V M.q := by
  unfold transfer_2d_2 at h
  simp only [Except.bind_ok, meeinv_false_ok, Except.ok.injEq] at h
  obtain ⟨N, ⟨hu, rfl⟩, rfl⟩ := h
  have hE := la.eig_law (omega2LR kx ky c)
  constructor
  · simp only [← Matrix.mul_assoc, omegaL_mul_omegaR]
    rw [hE]
    conv_lhs => rw [← diag_csqrt_mul]
    rw [← Matrix.mul_assoc, Matrix.mul_assoc, mul_nonsing_inv _ hu, Matrix.mul_one]
  · simp only [Matrix.mul_assoc]
    rw [nonsing_inv_mul _ hu, Matrix.mul_one]

/-- Modes of the conical solver, for a layer that does not vary along `y` (`epy` is the plain
Toeplitz matrix whose inverse is `epzi`) and a single `ky`. -/
theorem modePair_con {la : LinAlg} {kx : m → ℂ} {ky : ℂ} {c : Conv m} {M : ConModes m}
    (hz : c.epzi * c.epy = 1) (h : transfer_1d_conical_2 la kx (fun _ => ky) c false = .ok M) :
    ModePair kx (fun _ => ky) c (conW0 M) (conV0 M) (Sum.elim M.q1 M.q2) := by
  unfold transfer_1d_conical_2 at h
  simp only [Except.bind_ok, meeinv_false_ok, Except.ok.injEq] at h
  obtain ⟨Ai, ⟨hA, rfl⟩, Bi, ⟨hB, rfl⟩, rfl⟩ := h
  have hz' : c.epy * c.epzi = 1 := mul_eq_one_comm.mp hz
  have h1 := la.eig_law (diagonal (fun _ => ky ^ 2) + (diagonal (fun i => kx i ^ 2) - c.epy))
  have h2 := la.eig_law (diagonal (fun _ => ky ^ 2) + (diagonal kx * c.epzi * diagonal kx - 1) * c.epx)
  have hK : ∀ z : ℂ, (diagonal (fun _ : m => z)) = z • (1 : Matrix m m ℂ) := by
    intro z; rw [smul_one_eq_diagonal]
  simp only [hK, diag_sq kx] at h1 h2 hA hB ⊢
  set Kx := diagonal kx with hKx
  set A := Kx * Kx - c.epy with hAdef
  set B := Kx * c.epzi * Kx - 1 with hBdef
  set e1 := la.eig ((ky ^ 2) • (1 : Matrix m m ℂ) + A) with he1
  set e2 := la.eig ((ky ^ 2) • (1 : Matrix m m ℂ) + B * c.epx) with he2
  -- exchange relations
  have xBA : B * Kx = Kx * c.epzi * A := by
    rw [hBdef, hAdef]
    have : Kx * c.epzi * c.epy = Kx := by rw [Matrix.mul_assoc, hz, Matrix.mul_one]
    rw [Matrix.mul_sub, this]
    noncomm_ring
  have xAB : A * c.epzi * Kx = Kx * B := by
    rw [hBdef, hAdef]
    have : c.epy * c.epzi * Kx = Kx := by rw [hz', Matrix.one_mul]
    rw [Matrix.sub_mul, Matrix.sub_mul, this]
    noncomm_ring
  have y1 : Kx * A⁻¹ = B⁻¹ * Kx * c.epzi := by
    calc Kx * A⁻¹ = B⁻¹ * (B * Kx) * A⁻¹ := by
          rw [← Matrix.mul_assoc, nonsing_inv_mul _ hB, Matrix.one_mul]
      _ = B⁻¹ * Kx * c.epzi := by
          rw [xBA]; simp only [Matrix.mul_assoc]; rw [mul_nonsing_inv _ hA, Matrix.mul_one]
  have y2 : A⁻¹ * Kx = c.epzi * Kx * B⁻¹ := by
    calc A⁻¹ * Kx = A⁻¹ * (Kx * B) * B⁻¹ := by
          rw [Matrix.mul_assoc, Matrix.mul_assoc, mul_nonsing_inv _ hB, Matrix.mul_one]
      _ = c.epzi * Kx * B⁻¹ := by
          rw [← xAB]; simp only [← Matrix.mul_assoc]; rw [nonsing_inv_mul _ hA, Matrix.one_mul]
  have y3 : Kx * A⁻¹ * Kx - 1 = B⁻¹ := by
    have : B * (Kx * A⁻¹ * Kx - 1) = 1 := by
      rw [Matrix.mul_sub, ← Matrix.mul_assoc, ← Matrix.mul_assoc, xBA, Matrix.mul_assoc _ A,
        mul_nonsing_inv _ hA, Matrix.mul_one, Matrix.mul_one, hBdef]
      abel
    exact (inv_eq_right_inv this).symm
  have y4 : c.epzi * Kx * B⁻¹ * Kx * c.epzi - c.epzi = A⁻¹ := by
    rw [← y2, Matrix.mul_assoc A⁻¹, Matrix.mul_assoc A⁻¹]
    have : Kx * Kx * c.epzi = A * c.epzi + 1 := by rw [hAdef, Matrix.sub_mul, hz']; abel
    rw [this, Matrix.mul_add, ← Matrix.mul_assoc, nonsing_inv_mul _ hA]; simp
  have q1 : diagonal (fun i => csqrt (e1.1 i)) * diagonal (fun i => csqrt (e1.1 i)) = diagonal e1.1 :=
    diag_csqrt_mul _
  have q2 : diagonal (fun i => csqrt (e2.1 i)) * diagonal (fun i => csqrt (e2.1 i)) = diagonal e2.1 :=
    diag_csqrt_mul _
  have hQ : diagonal (Sum.elim (fun i => csqrt (e1.1 i)) (fun i => csqrt (e2.1 i)))
      = fromBlocks (diagonal (fun i => csqrt (e1.1 i))) 0 0 (diagonal (fun i => csqrt (e2.1 i))) := by
    rw [fromBlocks_diagonal]
  set Q1 := diagonal (fun i => csqrt (e1.1 i)) with hQ1
  set Q2 := diagonal (fun i => csqrt (e2.1 i)) with hQ2
  have r1 : A⁻¹ * e1.2 * Q1 * Q1 = (ky ^ 2) • (A⁻¹ * e1.2) + e1.2 := by
    rw [Matrix.mul_assoc, q1, Matrix.mul_assoc, ← h1, Matrix.add_mul, Matrix.mul_add,
      ← Matrix.mul_assoc A⁻¹ A, nonsing_inv_mul _ hA]
    simp
  have r2 : B⁻¹ * e2.2 * Q2 * Q2 = (ky ^ 2) • (B⁻¹ * e2.2) + c.epx * e2.2 := by
    rw [Matrix.mul_assoc, q2, Matrix.mul_assoc, ← h2, Matrix.add_mul, Matrix.mul_add,
      ← Matrix.mul_assoc B⁻¹ (B * c.epx), ← Matrix.mul_assoc B⁻¹ B, nonsing_inv_mul _ hB]
    simp
  have e1e : ∀ X : Matrix m m ℂ, A * (A⁻¹ * X) = X := by
    intro X; rw [← Matrix.mul_assoc, mul_nonsing_inv _ hA, Matrix.one_mul]
  have e2e : ∀ X : Matrix m m ℂ, B * (B⁻¹ * X) = X := by
    intro X; rw [← Matrix.mul_assoc, mul_nonsing_inv _ hB, Matrix.one_mul]
  constructor
  · unfold omegaL conW0 conV0
    simp only [hK, hQ, ← hKx, ← hBdef, ← hQ1, ← hQ2]
    rw [fromBlocks_multiply, fromBlocks_multiply]
    congr 1
    · simp only [Matrix.mul_smul, Matrix.smul_mul, Matrix.mul_one, Matrix.one_mul, Matrix.mul_assoc,
        Matrix.neg_mul, smul_mul_assoc, Matrix.zero_mul, Matrix.mul_zero, add_zero, zero_add, e2e]
      abel
    · simp only [Matrix.mul_assoc, e2e, Matrix.mul_zero, Matrix.zero_mul, zero_add]
    · rw [r1]
      rw [← y4]
      simp only [Matrix.mul_smul, Matrix.smul_mul, Matrix.mul_one, Matrix.one_mul, Matrix.mul_assoc,
        Matrix.neg_mul, Matrix.sub_mul, Matrix.mul_zero, add_zero, smul_sub, smul_smul, sq]
      abel
    · have : Kx * (B⁻¹ * (e2.2 * Q2)) = Kx * (B⁻¹ * (e2.2 * Q2)) := rfl
      have y2' : ∀ X : Matrix m m ℂ, A⁻¹ * (Kx * X) = c.epzi * (Kx * (B⁻¹ * X)) := by
        intro X; rw [← Matrix.mul_assoc, y2]; simp only [Matrix.mul_assoc]
      simp only [Matrix.mul_smul, Matrix.smul_mul, Matrix.mul_one, Matrix.one_mul, Matrix.mul_assoc,
        Matrix.neg_mul, Matrix.sub_mul, Matrix.mul_zero, add_zero, zero_add, y2']
  · unfold omegaR conW0 conV0
    simp only [hK, diag_sq kx, hQ, ← hKx, ← hAdef, ← hQ1, ← hQ2]
    rw [fromBlocks_multiply, fromBlocks_multiply]
    have y1' : ∀ X : Matrix m m ℂ, Kx * (A⁻¹ * X) = B⁻¹ * (Kx * (c.epzi * X)) := by
      intro X; rw [← Matrix.mul_assoc, y1]; simp only [Matrix.mul_assoc]
    congr 1
    · simp only [Matrix.mul_zero, zero_add, add_zero, Matrix.mul_assoc, e1e]
    · simp only [Matrix.mul_smul, Matrix.smul_mul, Matrix.mul_one, Matrix.one_mul, Matrix.mul_assoc,
        Matrix.neg_mul, Matrix.mul_zero, Matrix.zero_mul, zero_add, e1e]
      abel_nf
      simp
    · simp only [Matrix.mul_smul, Matrix.smul_mul, Matrix.mul_one, Matrix.one_mul, Matrix.mul_assoc,
        Matrix.neg_mul, Matrix.mul_zero, Matrix.zero_mul, zero_add, add_zero, y1']
    · rw [r2, ← y3]
      simp only [Matrix.mul_smul, Matrix.smul_mul, Matrix.mul_one, Matrix.one_mul, Matrix.mul_assoc,
        Matrix.neg_mul, Matrix.mul_zero, Matrix.zero_mul, zero_add, add_zero, Matrix.sub_mul, smul_sub,
        smul_smul, sq]
      abel

/-! ### Lossless layers -/

/-- Flux form in the x/y frame. -/
noncomputable def jXY : Matrix (m ⊕ m) (m ⊕ m) ℂ := fromBlocks 0 (-1) 1 0
/-- Flux form in the s/p frame. -/
noncomputable def jSP : Matrix (m ⊕ m) (m ⊕ m) ℂ := fromBlocks 1 0 0 (-1)

theorem ModePair.lossless {kx ky : m → ℂ} {c : Conv m} {W V : Matrix (m ⊕ m) (m ⊕ m) ℂ}
    {q : m ⊕ m → ℂ} (h : ModePair kx ky c W V q) (hkx : ∀ i, star (kx i) = kx i)
    (hky : ∀ i, star (ky i) = ky i) (hx : c.epx.IsHermitian) (hy : c.epy.IsHermitian)
    (hz : c.epzi.IsHermitian) : Lossless jXY W V q := by
  have hKx := (isHermitian_diagonal_real hkx).eq
  have hKy := (isHermitian_diagonal_real hky).eq
  have hc : diagonal kx * diagonal ky = diagonal ky * diagonal kx := diag_comm _ _
  refine Lossless.of_PR h.left h.right ?_ ?_
  · unfold jXY omegaR
    simp only [diag_sq]
    rw [fromBlocks_multiply, IsHermitian, fromBlocks_conjTranspose]
    simp only [Matrix.zero_mul, zero_add, add_zero, Matrix.neg_mul, Matrix.one_mul, conjTranspose_neg,
      conjTranspose_sub, conjTranspose_mul, hKx, hKy, hx.eq, hy.eq, hc]
  · unfold jXY omegaL
    rw [fromBlocks_conjTranspose, fromBlocks_multiply, IsHermitian, fromBlocks_conjTranspose]
    simp only [Matrix.zero_mul, zero_add, add_zero, Matrix.neg_mul, Matrix.one_mul, conjTranspose_neg,
      conjTranspose_zero, conjTranspose_one, neg_neg,
      conjTranspose_sub, conjTranspose_mul, hKx, hKy, hz.eq, Matrix.mul_assoc]

theorem rot_jSP {varphi : m → ℂ} (h : ∀ i, star (varphi i) = varphi i) :
    (rotE varphi)ᴴ * jSP * rotH varphi = jXY := by
  have hs : (diagonal fun i => Complex.sin (varphi i))ᴴ = diagonal fun i => Complex.sin (varphi i) := by
    refine (isHermitian_diagonal_real fun i => ?_).eq
    rw [Complex.star_def, ← Complex.sin_conj, ← Complex.star_def, h]
  have hcc : (diagonal fun i => Complex.cos (varphi i))ᴴ = diagonal fun i => Complex.cos (varphi i) := by
    refine (isHermitian_diagonal_real fun i => ?_).eq
    rw [Complex.star_def, ← Complex.cos_conj, ← Complex.star_def, h]
  unfold rotE rotH jSP jXY
  have e : ∀ i, Complex.sin (varphi i) * Complex.sin (varphi i)
      + Complex.cos (varphi i) * Complex.cos (varphi i) = 1 := by
    intro i; have := Complex.sin_sq_add_cos_sq (varphi i); linear_combination this
  have one : (diagonal fun i => Complex.sin (varphi i)) * (diagonal fun i => Complex.sin (varphi i))
      + (diagonal fun i => Complex.cos (varphi i)) * (diagonal fun i => Complex.cos (varphi i))
      = (1 : Matrix m m ℂ) := by
    rw [diagonal_mul_diagonal, diagonal_mul_diagonal, diagonal_add, ← diagonal_one]
    congr 1; ext i; exact e i
  have comm := diag_comm (fun i => Complex.sin (varphi i)) (fun i => Complex.cos (varphi i))
  rw [fromBlocks_conjTranspose, fromBlocks_multiply, fromBlocks_multiply]
  simp only [Matrix.mul_zero, zero_add, add_zero, Matrix.neg_mul, Matrix.mul_one, Matrix.mul_neg,
    conjTranspose_neg, hs, hcc, neg_neg, comm]
  congr 1
  · abel
  · rw [← one]; abel
  · rw [← one]; abel
  · abel

theorem Lossless.rot {varphi : m → ℂ} (h : ∀ i, star (varphi i) = varphi i)
    {W V : Matrix (m ⊕ m) (m ⊕ m) ℂ} {q : m ⊕ m → ℂ} (hl : Lossless jXY W V q) :
    Lossless jSP (rotE varphi * W) (rotH varphi * V) q := by
  have e : (rotE varphi * W)ᴴ * jSP * (rotH varphi * V) = Wᴴ * jXY * V := by
    rw [← rot_jSP h, conjTranspose_mul]
    simp only [Matrix.mul_assoc]
  exact ⟨by rw [e]; exact hl.nq, by rw [e]; exact hl.nhq⟩

end Meent
