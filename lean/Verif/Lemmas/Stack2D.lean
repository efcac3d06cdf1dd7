import Verif.Lemmas.StackSpec
import Verif.Lemmas.Exchange

/-!
# Conical and 2D stacks of transparent and absorbing layers (helper lemmas)
-/

open Matrix

namespace Meent

set_option linter.unusedSectionVars false
set_option linter.unusedSimpArgs false
set_option linter.unusedVariables false

section
variable {n : Type} [Fintype n] [DecidableEq n]

theorem side_gram {S W : Matrix n n ℂ} (hS : Side 1 S) (hW : IsUnit W.det) : Side 1 (Wᴴ * S * W) := by
  intro v hv
  have hne : W *ᵥ v ≠ 0 := fun h0 => hv (by
    have e : v = W⁻¹ *ᵥ (W *ᵥ v) := by rw [mulVec_mulVec, nonsing_inv_mul _ hW, one_mulVec]
    rw [e, h0, mulVec_zero])
  rw [beta_sandwich]
  exact hS _ hne

theorem side_one : Side 1 (1 : Matrix n n ℂ) := fun v hv => by rw [one_mul]; exact one_side v hv

/-- The weight of a conical mode. -/
noncomputable def conWeight (k : ℝ) (l : ℂ) : ℂ := -(csqrt l / (l - (k : ℂ) ^ 2))

theorem conWeight_im (k x : ℝ) : 0 ≤ (conWeight k x).im := by
  unfold conWeight
  have e : (x : ℂ) - (k : ℂ) ^ 2 = ((x - k ^ 2 : ℝ) : ℂ) := by push_cast; ring
  rw [e, Complex.neg_im, Complex.div_ofReal_im]
  rcases le_or_gt 0 x with h | h
  · rw [csqrt_ofReal_nonneg h, Complex.ofReal_im]; simp
  · rw [csqrt_ofReal_neg h]
    have : (Complex.I * (Real.sqrt (-x) : ℂ)).im = Real.sqrt (-x) := by simp
    rw [this, ← div_neg]
    exact div_nonneg (Real.sqrt_nonneg _) (by nlinarith [sq_nonneg k])

/-- Modes whose overlap is diagonal in the blocks of equal undamped propagation constants: what counts is the power of the
undamped modes. -/
theorem forward_flux {J R W V : Matrix n n ℂ} {q : n → ℂ} (hN : Lossless J W V q) (hR : R * W = V * diagonal q)
    (hre : ∀ i, 0 ≤ (q i).re) (him : ∀ i, (q i).re = 0 → 0 < (q i).im)
    (hfw : ∀ b : ℝ, 0 < b → ∀ a : n → ℂ, (∀ i, a i ≠ 0 → q i = Complex.I * b) → (beta (J * R) (W *ᵥ a) (W *ᵥ a)).re ≤ 0) (a : n → ℂ) :
    0 ≤ (beta (Wᴴ * J * V) a a).im := by
  set N := Wᴴ * J * V with hNdef
  have e1 : ∀ i j, N i j * q j = star (q i) * star (N j i) := by
    intro i j
    have := congrFun (congrFun hN.nq.eq i) j
    rw [conjTranspose_apply, mul_diagonal, mul_diagonal, star_mul'] at this
    rw [← this]; ring
  have e2 : ∀ i j, star (N j i) * q j = star (q i) * N i j := by
    intro i j
    have := congrFun (congrFun hN.nhq.eq i) j
    rw [conjTranspose_apply, mul_diagonal, mul_diagonal, conjTranspose_apply, conjTranspose_apply, star_mul', star_star] at this
    rw [← this]; ring
  set D := N - Nᴴ with hD
  have hDij : ∀ i j, D i j ≠ 0 → q i = q j ∧ (q i).re = 0 := by
    intro i j h0
    have h1 : D i j * (q j + star (q i)) = 0 := by
      rw [hD, Matrix.sub_apply, conjTranspose_apply]
      linear_combination e1 i j - e2 i j
    have h2 := (mul_eq_zero.mp h1).resolve_left h0
    have h3 := congrArg Complex.re h2
    have h4 := congrArg Complex.im h2
    rw [Complex.add_re, Complex.star_def, Complex.conj_re, Complex.zero_re] at h3
    rw [Complex.add_im, Complex.star_def, Complex.conj_im, Complex.zero_im] at h4
    have := hre i
    have := hre j
    exact ⟨Complex.ext (by linarith) (by linarith), by linarith⟩
  have hDb : ∀ v, (beta D v v).im = 2 * (beta N v v).im := by
    intro v
    rw [hD, beta_sub_mat, Complex.sub_im, beta_im_conj]; ring
  classical
  let mask : ℂ → n → ℂ := fun c i => if q i = c then a i else 0
  have hsum : beta D a a = ∑ c ∈ Finset.univ.image q, beta D (mask c) (mask c) := by
    have key : ∀ c i, star (mask c i) * (D *ᵥ mask c) i = if q i = c then star (a i) * (D *ᵥ a) i else 0 := by
      intro c i
      simp only [mask]
      split_ifs with h
      · congr 1
        simp only [mulVec, dotProduct]
        refine Finset.sum_congr rfl fun j _ => ?_
        by_cases h0 : D i j = 0
        · rw [h0, zero_mul, zero_mul]
        · rw [if_pos (by rw [← (hDij i j h0).1, h])]
      · simp
    unfold beta
    simp only [dotProduct, Pi.star_apply, key]
    rw [Finset.sum_comm]
    refine Finset.sum_congr rfl fun i _ => ?_
    rw [Finset.sum_ite_eq, if_pos (Finset.mem_image_of_mem q (Finset.mem_univ i))]
  have hpos : ∀ c ∈ Finset.univ.image q, 0 ≤ (beta D (mask c) (mask c)).im := by
    intro c hc
    obtain ⟨i, -, rfl⟩ := Finset.mem_image.mp hc
    by_cases h0 : (q i).re = 0
    · have hb := him i h0
      have hqi : q i = Complex.I * ((q i).im : ℂ) := Complex.ext (by simp [h0]) (by simp)
      have hsup : ∀ j, mask (q i) j ≠ 0 → q j = Complex.I * ((q i).im : ℂ) := by
        intro j hj
        rw [← hqi]
        by_contra hne
        exact hj (by simp only [mask]; rw [if_neg hne])
      have h1 := hfw _ hb _ hsup
      rw [hDb]
      have h2 : V *ᵥ (diagonal q *ᵥ mask (q i)) = q i • (V *ᵥ mask (q i)) := by
        rw [← mulVec_smul]
        congr 1
        funext j
        rw [mulVec_diagonal, Pi.smul_apply, smul_eq_mul]
        by_cases hj : mask (q i) j = 0
        · rw [hj, mul_zero, mul_zero]
        · rw [hsup j hj, ← hqi]
      have h3 : beta (J * R) (W *ᵥ mask (q i)) (W *ᵥ mask (q i)) = q i * beta N (mask (q i)) (mask (q i)) := by
        have : (J * R) *ᵥ (W *ᵥ mask (q i)) = q i • (J *ᵥ (V *ᵥ mask (q i))) := by
          rw [← mulVec_mulVec, mulVec_mulVec _ R W, hR, ← mulVec_mulVec, h2, mulVec_smul]
        unfold beta
        rw [this, dotProduct_smul, smul_eq_mul]
        congr 1
        show beta J (W *ᵥ mask (q i)) (V *ᵥ mask (q i)) = beta N (mask (q i)) (mask (q i))
        rw [beta_mulVec_left, beta_mulVec_right]
      rw [h3, Complex.mul_re, h0, zero_mul, zero_sub] at h1
      have : 0 ≤ (beta N (mask (q i)) (mask (q i))).im := by
        by_contra hlt
        push Not at hlt
        nlinarith
      linarith
    · have : beta D (mask (q i)) (mask (q i)) = 0 := by
        rw [beta_expand]
        refine Finset.sum_eq_zero fun j _ => Finset.sum_eq_zero fun k _ => ?_
        by_cases hd : D j k = 0
        · rw [hd]; simp
        · obtain ⟨h1, h2⟩ := hDij j k hd
          have : q j ≠ q i := fun h => h0 (by rw [← h]; exact h2)
          simp only [mask]
          rw [if_neg this]
          simp
      rw [this]; simp
  have := hDb a
  rw [hsum, Complex.im_sum] at this
  have h2 := Finset.sum_nonneg hpos
  linarith

theorem csqrt_imag {l : ℂ} (h0 : csqrt l ≠ 0) (h : (csqrt l).re = 0) : 0 < (csqrt l).im := by
  have h1 : l = ((-((csqrt l).im ^ 2) : ℝ) : ℂ) := by
    conv_lhs => rw [← csqrt_sq l]
    rw [← Complex.re_add_im (csqrt l), h]
    push_cast
    simp
    rw [mul_pow, Complex.I_sq]; ring
  have h2 : 0 ≤ (csqrt l).im := csqrt_im_nonneg (by rw [h1, Complex.ofReal_im])
  refine lt_of_le_of_ne h2 fun h3 => h0 (Complex.ext h h3.symm)

end

section
variable {m : Type} [Fintype m] [DecidableEq m]

theorem ClearModes.rot {varphi : m → ℂ} (h : ∀ i, star (varphi i) = varphi i)
    {W V : Matrix (m ⊕ m) (m ⊕ m) ℂ} {q : m ⊕ m → ℂ} (hl : ClearModes jXY W V q) :
    ClearModes jSP (rotE varphi * W) (rotH varphi * V) q := by
  have e : (rotE varphi * W)ᴴ * jSP * (rotH varphi * V) = Wᴴ * jXY * V := by
    rw [← rot_jSP h, conjTranspose_mul]
    simp only [Matrix.mul_assoc]
  obtain ⟨h1, h2⟩ := unit_rot h
  exact ⟨by rw [det_mul]; exact h1.mul hl.hW, by rw [det_mul]; exact h2.mul hl.hV, hl.hN.rot h, by rw [e]; exact hl.hf⟩

/-- No undamped mode of the layer carries power against its phase. -/
def Forward (kx ky : m → ℂ) (c : Conv m) : Prop :=
  ∀ b : ℝ, 0 < b → ∀ w, omega2LR kx ky c *ᵥ w = (-(b : ℂ) ^ 2) • w → (beta (jXY * omegaR kx ky c) w w).re ≤ 0

theorem clearModes_2d {la : LinAlg} {kx ky : m → ℂ} {c : Conv m} (hkx : ∀ i, star (kx i) = kx i)
    (hky : ∀ i, star (ky i) = ky i) (hc : ClearConv c) (hu : IsUnit (omega2LR kx ky c).det) (hfw : Forward kx ky c)
    (hb : IsUnit (la.eig (omega2LR kx ky c)).2.det) :
    ∃ M, transfer_2d_2 la kx ky c false = .ok M ∧ ClearModes jXY M.W M.V M.q := by
  have hR : IsUnit (omegaR kx ky c).det := by
    rw [← omegaL_mul_omegaR, det_mul] at hu
    exact isUnit_of_mul_isUnit_right hu
  have hne := eig_ne hu hb
  have hq := isUnit_diag hne
  have hd : transfer_2d_2 la kx ky c false = .ok ⟨(la.eig (omega2LR kx ky c)).2, omegaR kx ky c * (la.eig (omega2LR kx ky c)).2 *
      (diagonal fun i => csqrt ((la.eig (omega2LR kx ky c)).1 i))⁻¹, fun i => csqrt ((la.eig (omega2LR kx ky c)).1 i)⟩ := by
    rw [transfer_2d_2]
    exact Except.bind_ok.mpr ⟨_, meeinv_false_ok.mpr ⟨hq, rfl⟩, rfl⟩
  have hmp := modePair_2d hd
  have hV : IsUnit (omegaR kx ky c * (la.eig (omega2LR kx ky c)).2 * (diagonal fun i => csqrt ((la.eig (omega2LR kx ky c)).1 i))⁻¹).det := by
    rw [det_mul, det_mul]
    exact (hR.mul hb).mul (isUnit_nonsing_inv_det _ hq)
  refine ⟨_, hd, hb, hV, hmp.lossless hkx hky hc.x hc.y hc.z, ?_⟩
  refine forward_flux (hmp.lossless hkx hky hc.x hc.y hc.z) hmp.right (fun i => csqrt_re_nonneg _) (fun i h => csqrt_imag (hne i) h) ?_
  intro b hb' a ha
  refine hfw b hb' _ ?_
  rw [mulVec_mulVec, hmp.eig, ← mulVec_mulVec, ← mulVec_smul]
  congr 1
  funext i
  rw [mulVec_diagonal, Pi.smul_apply, smul_eq_mul]
  by_cases h0 : a i = 0
  · rw [h0, mul_zero, mul_zero]
  · rw [ha i h0, mul_pow, Complex.I_sq]; ring

/-- Conical modes of transparent layers: all undamped modes carry power in the direction of their phase. -/
theorem clearModes_con {la : LinAlg} {kx : m → ℂ} {k : ℝ} {c : Conv m} (hkx : ∀ i, star (kx i) = kx i)
    (hc : ClearConv c) (hz : c.epzi * c.epy = 1) (hA : IsUnit (diagonal (fun i => kx i ^ 2) - c.epy).det)
    (hB : IsUnit (diagonal kx * c.epzi * diagonal kx - 1).det)
    (hu1 : IsUnit (diagonal (fun _ => (k : ℂ) ^ 2) + (diagonal (fun i => kx i ^ 2) - c.epy)).det)
    (hu2 : IsUnit (diagonal (fun _ => (k : ℂ) ^ 2) + (diagonal kx * c.epzi * diagonal kx - 1) * c.epx).det)
    (hb1 : IsUnit (la.eig (diagonal (fun _ => (k : ℂ) ^ 2) + (diagonal (fun i => kx i ^ 2) - c.epy))).2.det)
    (hb2 : IsUnit (la.eig (diagonal (fun _ => (k : ℂ) ^ 2) + (diagonal kx * c.epzi * diagonal kx - 1) * c.epx)).2.det) :
    ∃ M, transfer_1d_conical_2 la kx (fun _ => (k : ℂ)) c false = .ok M ∧ ClearModes jXY (conW0 M) (conV0 M) (Sum.elim M.q1 M.q2) := by
  have hd : ∃ M, transfer_1d_conical_2 la kx (fun _ => (k : ℂ)) c false = .ok M := by
    rw [transfer_1d_conical_2]
    exact ⟨_, Except.bind_ok.mpr ⟨_, meeinv_false_ok.mpr ⟨hA, rfl⟩, Except.bind_ok.mpr ⟨_, meeinv_false_ok.mpr ⟨hB, rfl⟩, rfl⟩⟩⟩
  obtain ⟨M, hM⟩ := hd
  have hn1 := eig_ne hu1 hb1
  have hn2 := eig_ne hu2 hb2
  have hq1 := isUnit_diag hn1
  have hq2 := isUnit_diag hn2
  have hks : ∀ i : m, star ((fun _ : m => (k : ℂ)) i) = (k : ℂ) := fun i => by simp
  have hloss := (modePair_con hz hM).lossless hkx hks hc.x hc.y hc.z
  have hM' := hM
  simp only [transfer_1d_conical_2, Except.bind_ok, meeinv_false_ok, Except.ok.injEq] at hM'
  obtain ⟨A_i, ⟨hAi, rfl⟩, B_i, ⟨hBi, rfl⟩, rfl⟩ := hM'
  refine ⟨_, hM, ?_, ?_, hloss, fun a => ?_⟩
  · unfold conW0
    refine unit_antitri hb2 ?_
    simp only
    rw [det_mul, det_mul]
    exact ((isUnit_nonsing_inv_det _ hA).mul hb1).mul hq1
  · unfold conV0
    rw [det_fromBlocks_zero₁₂]
    refine hb1.mul ?_
    simp only
    rw [det_mul, det_mul]
    exact ((isUnit_nonsing_inv_det _ hB).mul hb2).mul hq2
  have hAh : (diagonal (fun i => kx i ^ 2) - c.epy).IsHermitian :=
    (isHermitian_diagonal_real (fun i => by rw [star_pow, hkx])).sub hc.y
  have hBh : (diagonal kx * c.epzi * diagonal kx - 1).IsHermitian := by
    have hK := (isHermitian_diagonal_real hkx).eq
    have := isHermitian_conjTranspose_mul_mul (diagonal kx) hc.z
    rw [hK] at this
    exact this.sub isHermitian_one
  have hl1 := la.eig_law (diagonal (fun _ => (k : ℂ) ^ 2) + (diagonal (fun i => kx i ^ 2) - c.epy))
  have hl2 := la.eig_law (diagonal (fun _ => (k : ℂ) ^ 2) + (diagonal kx * c.epzi * diagonal kx - 1) * c.epx)
  have hke : (diagonal fun _ : m => (k : ℂ) ^ 2) = ((k : ℂ) ^ 2) • (1 : Matrix m m ℂ) := by rw [smul_one_eq_diagonal]
  set A := diagonal (fun i => kx i ^ 2) - c.epy with hAdef
  set B := diagonal kx * c.epzi * diagonal kx - 1 with hBdef
  generalize hE1 : la.eig ((diagonal fun _ : m => (k : ℂ) ^ 2) + A) = E1 at *
  generalize hE2 : la.eig ((diagonal fun _ : m => (k : ℂ) ^ 2) + B * c.epx) = E2 at *
  obtain ⟨l1, W1⟩ := E1
  obtain ⟨l2, W2⟩ := E2
  simp only at hl1 hl2 hb1 hb2 hn1 hn2 hloss ⊢
  rw [hke] at hl1 hl2
  have hAW : A * W1 = W1 * diagonal fun i => l1 i - (k : ℂ) ^ 2 := by
    have : (diagonal fun i => l1 i - (k : ℂ) ^ 2) = diagonal l1 - ((k : ℂ) ^ 2) • (1 : Matrix m m ℂ) := by
      rw [smul_one_eq_diagonal, diagonal_sub]
    rw [this, Matrix.mul_sub, ← hl1, Matrix.add_mul, Matrix.smul_mul, Matrix.one_mul, Matrix.mul_smul, Matrix.mul_one]
    abel
  have hBW : B * c.epx * W2 = W2 * diagonal fun i => l2 i - (k : ℂ) ^ 2 := by
    have : (diagonal fun i => l2 i - (k : ℂ) ^ 2) = diagonal l2 - ((k : ℂ) ^ 2) • (1 : Matrix m m ℂ) := by
      rw [smul_one_eq_diagonal, diagonal_sub]
    rw [this, Matrix.mul_sub, ← hl2, Matrix.add_mul, Matrix.smul_mul, Matrix.one_mul, Matrix.mul_smul, Matrix.mul_one]
    abel
  have hd1 : ∀ i, l1 i - (k : ℂ) ^ 2 ≠ 0 := by
    refine isUnit_diag_ne ?_
    have := congrArg det hAW
    rw [det_mul, det_mul] at this
    exact isUnit_of_mul_isUnit_right (by rw [← this]; exact hA.mul hb1)
  have hd2 : ∀ i, l2 i - (k : ℂ) ^ 2 ≠ 0 := by
    refine isUnit_diag_ne ?_
    have := congrArg det hBW
    rw [det_mul, det_mul, det_mul] at this
    exact isUnit_of_mul_isUnit_right (by rw [← this]; exact (hB.mul hc.px.isUnit).mul hb2)
  have dinv : ∀ l : m → ℂ, (∀ i, l i - (k : ℂ) ^ 2 ≠ 0) →
      ((diagonal fun i => l i - (k : ℂ) ^ 2) : Matrix m m ℂ) * (diagonal fun i => (l i - (k : ℂ) ^ 2)⁻¹) = 1 := by
    intro l hl
    rw [diagonal_mul_diagonal, ← diagonal_one]
    congr 1
    funext i
    exact mul_inv_cancel₀ (hl i)
  have hAiW : A⁻¹ * W1 = W1 * diagonal fun i => (l1 i - (k : ℂ) ^ 2)⁻¹ := by
    calc A⁻¹ * W1 = A⁻¹ * (W1 * ((diagonal fun i => l1 i - (k : ℂ) ^ 2) * diagonal fun i => (l1 i - (k : ℂ) ^ 2)⁻¹)) := by
          rw [dinv l1 hd1, Matrix.mul_one]
      _ = A⁻¹ * (A * (W1 * diagonal fun i => (l1 i - (k : ℂ) ^ 2)⁻¹)) := by
          rw [← Matrix.mul_assoc W1, ← hAW]; simp only [Matrix.mul_assoc]
      _ = _ := nonsing_inv_mul_cancel_left _ _ hA
  have hBiW : B⁻¹ * W2 = c.epx * W2 * diagonal fun i => (l2 i - (k : ℂ) ^ 2)⁻¹ := by
    calc B⁻¹ * W2 = B⁻¹ * (W2 * ((diagonal fun i => l2 i - (k : ℂ) ^ 2) * diagonal fun i => (l2 i - (k : ℂ) ^ 2)⁻¹)) := by
          rw [dinv l2 hd2, Matrix.mul_one]
      _ = B⁻¹ * (B * (c.epx * W2 * diagonal fun i => (l2 i - (k : ℂ) ^ 2)⁻¹)) := by
          rw [← Matrix.mul_assoc W2, ← hBW]; simp only [Matrix.mul_assoc]
      _ = _ := nonsing_inv_mul_cancel_left _ _ hB
  have wt : ∀ l : m → ℂ, (diagonal fun i => (l i - (k : ℂ) ^ 2)⁻¹) * (diagonal fun i => csqrt (l i))
      = -(diagonal fun i => conWeight k (l i) : Matrix m m ℂ) := by
    intro l
    rw [diagonal_mul_diagonal, diagonal_neg]
    congr 1
    funext i
    show _ = -conWeight k (l i)
    unfold conWeight
    rw [neg_neg, div_eq_mul_inv, mul_comm]
  have f1 := overlap_fun (l := l1) (isHermitian_conjTranspose_mul_self W1)
    (by have := side_gram side_one hb1; rwa [Matrix.mul_one] at this)
    (by
      rw [Matrix.mul_assoc, ← hl1, ← Matrix.mul_assoc]
      refine isHermitian_conjTranspose_mul_mul _ (IsHermitian.add ?_ hAh)
      rw [← hke]
      exact isHermitian_diagonal_real fun i => by simp) (conWeight k) (conWeight_im k) (a ∘ Sum.inl)
  have f2 := overlap_fun (l := l2) (isHermitian_conjTranspose_mul_mul W2 hc.x) (side_gram hc.px hb2)
    (by
      rw [Matrix.mul_assoc, ← hl2]
      have : W2ᴴ * c.epx * (((k : ℂ) ^ 2 • (1 : Matrix m m ℂ) + B * c.epx) * W2)
          = W2ᴴ * ((k : ℂ) ^ 2 • c.epx + c.epx * B * c.epx) * W2 := by
        simp only [Matrix.add_mul, Matrix.mul_add, Matrix.smul_mul, Matrix.mul_smul, Matrix.one_mul, Matrix.mul_assoc]
      rw [this]
      refine isHermitian_conjTranspose_mul_mul _ (IsHermitian.add ?_ ?_)
      · unfold Matrix.IsHermitian
        rw [conjTranspose_smul, hc.x.eq]
        congr 1
        simp
      · have := isHermitian_conjTranspose_mul_mul c.epx hBh
        rwa [hc.x.eq] at this) (conWeight k) (conWeight_im k) (a ∘ Sum.inr)
  -- the overlap in blocks
  set V12 := diagonal (fun _ : m => (k : ℂ)) * A⁻¹ * diagonal kx * W2 with hV12
  set V21 := diagonal (fun _ : m => (k : ℂ)) * B⁻¹ * diagonal kx * c.epzi * W1 with hV21
  have hN : (conW0 (m := m) ⟨W1, W2, A⁻¹ * W1 * diagonal (fun i => csqrt (l1 i)), V12, V21, B⁻¹ * W2 * diagonal (fun i => csqrt (l2 i)),
        fun i => csqrt (l1 i), fun i => csqrt (l2 i)⟩)ᴴ * jXY
      * conV0 (m := m) ⟨W1, W2, A⁻¹ * W1 * diagonal (fun i => csqrt (l1 i)), V12, V21, B⁻¹ * W2 * diagonal (fun i => csqrt (l2 i)),
        fun i => csqrt (l1 i), fun i => csqrt (l2 i)⟩
      = fromBlocks ((A⁻¹ * W1 * diagonal (fun i => csqrt (l1 i)))ᴴ * W1) 0 (V12ᴴ * W1 - W2ᴴ * V21)
        (-(W2ᴴ * (B⁻¹ * W2 * diagonal (fun i => csqrt (l2 i))))) := by
    unfold conW0 conV0 jXY
    rw [fromBlocks_conjTranspose, fromBlocks_multiply, fromBlocks_multiply]
    simp only [conjTranspose_zero, Matrix.zero_mul, Matrix.mul_zero, Matrix.mul_one, zero_add, add_zero, Matrix.mul_neg, Matrix.neg_mul,
      neg_zero]
    congr 1
    first | done | abel
  have hnq := hloss.nq
  rw [hN] at hnq ⊢
  have h21 : V12ᴴ * W1 - W2ᴴ * V21 = 0 := by
    ext i j
    have := congrFun (congrFun hnq.eq (.inr i)) (.inl j)
    rw [conjTranspose_apply, mul_diagonal, mul_diagonal] at this
    simp only [fromBlocks_apply₁₂, fromBlocks_apply₂₁, Matrix.zero_apply, zero_mul, star_zero, Sum.elim_inl] at this
    rw [Matrix.zero_apply]
    exact (mul_eq_zero.mp this.symm).resolve_right (hn1 j)
  rw [h21, beta_fromBlocks]
  have z0 : ∀ u v : m → ℂ, beta (0 : Matrix m m ℂ) u v = 0 := by intro u v; simp [beta]
  rw [z0, z0, add_zero, zero_add, Complex.add_im]
  have g1 : (beta ((A⁻¹ * W1 * diagonal (fun i => csqrt (l1 i)))ᴴ * W1) (a ∘ Sum.inl) (a ∘ Sum.inl)).im
      = (beta (W1ᴴ * W1 * diagonal fun i => conWeight k (l1 i)) (a ∘ Sum.inl) (a ∘ Sum.inl)).im := by
    have e : (A⁻¹ * W1 * diagonal (fun i => csqrt (l1 i)))ᴴ * W1 = (-(W1ᴴ * W1 * diagonal fun i => conWeight k (l1 i)))ᴴ := by
      rw [hAiW, Matrix.mul_assoc W1, wt, ← conjTranspose_conjTranspose W1, ← conjTranspose_mul, conjTranspose_conjTranspose]
      congr 1
      simp only [Matrix.mul_neg, Matrix.mul_assoc]
    rw [e, beta_im_conj, beta_neg_mat, Complex.neg_im, neg_neg]
  have g2 : -(W2ᴴ * (B⁻¹ * W2 * diagonal (fun i => csqrt (l2 i)))) = W2ᴴ * c.epx * W2 * diagonal fun i => conWeight k (l2 i) := by
    rw [hBiW, Matrix.mul_assoc (c.epx * W2), wt]
    simp only [Matrix.mul_neg, neg_neg, Matrix.mul_assoc]
  rw [g1, g2]
  exact add_nonneg f1 f2

theorem strict_bottom_2d {k : m → ℂ} (hk : ∀ i, 0 < (k i).re) {nb : ℝ} (hnb : nb ≠ 0) (T : Matrix (m ⊕ m) (m ⊕ m) ℂ) :
    StrictState jSP ⟨fromBlocks 1 0 0 (((1 : ℂ) / (nb : ℂ) ^ 2) • (Complex.I • diagonal k)), fromBlocks (Complex.I • diagonal k) 0 0 1, T⟩ := by
  intro t ht
  simp only [flux_bot]
  have h2 : ∀ i, 0 < (k i / (nb : ℂ) ^ 2).re := by
    intro i
    rw [← Complex.ofReal_pow, Complex.div_ofReal_re]
    exact div_pos (hk i) (by positivity)
  have hnn : ∀ i, 0 ≤ Complex.normSq (t (.inl i)) * (k i).re + Complex.normSq (t (.inr i)) * (k i / (nb : ℂ) ^ 2).re := fun i =>
    add_nonneg (mul_nonneg (Complex.normSq_nonneg _) (hk i).le) (mul_nonneg (Complex.normSq_nonneg _) (h2 i).le)
  have : ∃ i, t i ≠ 0 := by
    by_contra h
    push Not at h
    exact ht (funext h)
  obtain ⟨i, hi⟩ := this
  rcases i with i | i
  · exact Finset.sum_pos' (fun i _ => hnn i) ⟨i, Finset.mem_univ _, add_pos_of_pos_of_nonneg (mul_pos (Complex.normSq_pos.mpr hi) (hk i))
      (mul_nonneg (Complex.normSq_nonneg _) (h2 i).le)⟩
  · exact Finset.sum_pos' (fun i _ => hnn i) ⟨i, Finset.mem_univ _, add_pos_of_nonneg_of_pos
      (mul_nonneg (Complex.normSq_nonneg _) (hk i).le) (mul_pos (Complex.normSq_pos.mpr hi) (h2 i))⟩

end

/-- What is known about a layer of a 2D stack. -/
structure Stack2DLayer {m : Type} [Fintype m] [DecidableEq m] (la : LinAlg) (kx ky : m → ℂ) (c : Conv m) : Prop where
  kind : SideConv Complex.I c ∨ ClearConv c ∧ IsUnit (omega2LR kx ky c).det ∧ Forward kx ky c
  modes : IsUnit (la.eig (omega2LR kx ky c)).2.det

/-- What is known about a layer of a conical stack. -/
structure StackConLayer {m : Type} [Fintype m] [DecidableEq m] (la : LinAlg) (kx ky : m → ℂ) (c : Conv m) : Prop where
  kind : SideConv Complex.I c ∨ ClearConv c ∧ IsUnit (diagonal (fun i => kx i ^ 2) - c.epy).det ∧
    IsUnit (diagonal kx * c.epzi * diagonal kx - 1).det ∧
    IsUnit (diagonal (fun i => ky i ^ 2) + (diagonal (fun i => kx i ^ 2) - c.epy)).det ∧
    IsUnit (diagonal (fun i => ky i ^ 2) + (diagonal kx * c.epzi * diagonal kx - 1) * c.epx).det
  inv : c.epzi * c.epy = 1
  modes1 : IsUnit (la.eig (diagonal (fun i => ky i ^ 2) + (diagonal (fun i => kx i ^ 2) - c.epy))).2.det
  modes2 : IsUnit (la.eig (diagonal (fun i => ky i ^ 2) + (diagonal kx * c.epzi * diagonal kx - 1) * c.epx)).2.det

theorem solve_2d_stack {la : LinAlg} {p : Params} {wl nt nb th ph : ℝ} {convs : List (Conv (FlatIdx p.fto.1 p.fto.2))}
    (hp : p.use_pinv = false) (hphi : p.phi.getD 0 = (ph : ℂ)) (hi : RealIncidence p nt th) (hnb : p.n_bot = (nb : ℂ))
    (hwl : 0 < wl) (hd : ∀ d ∈ p.thickness, 0 < d) (hlen : p.thickness.length ≤ convs.length)
    (hv : ∃ v, varphiAll (kxF p wl) (kyF p wl) = .ok v)
    (hl : ∀ x ∈ convs.zip p.thickness, Stack2DLayer la (kxF p wl) (kyF p wl) x.1)
    (hbot : nb ≠ 0 ∧ (∀ i, 0 < (kz2d p.n_bot (kxF p wl) (kyF p wl) i).re) ∨
      ∃ x, (convs.zip p.thickness).getLast? = some x ∧ SideConv Complex.I x.1) :
    ∃ o, solve_2d la p wl convs = .ok o := by
  obtain ⟨v, hv⟩ := hv
  have hk0 : 0 < 2 * Real.pi / wl := by positivity
  have hreal := varphiAll_real (hi.kxF_real hphi wl) (hi.kyF_real hphi wl) hv
  have done : ∀ (x : Conv (FlatIdx p.fto.1 p.fto.2) × ℝ) s M r, transfer_2d_2 la (kxF p wl) (kyF p wl) x.1 false = .ok M →
      tmmStep la false (phaseX (2 * Real.pi / wl) M.q x.2) (rotE v * M.W) (rotH v * M.V) s = .ok r → StrictState jSP r.1 →
      ∃ r', step2d la false (2 * Real.pi / wl) (kxF p wl) (kyF p wl) v x.1 x.2 s = .ok r' ∧ StrictState jSP r'.1 := by
    intro x s M r hM hr hst
    refine ⟨(r.1, { epzi := x.1.epzi, modes := M, d := x.2, A_i := r.2.1, B := r.2.2 }), ?_, hst⟩
    unfold step2d
    simp only [Except.bind_ok, transfer_2d_3_eq, bigW2d_eq, bigV2d_eq]
    exact ⟨M, hM, r, hr, rfl⟩
  have hkz : ∀ (nn : ℂ) i, 0 ≤ (kz2d nn (kxF p wl) (kyF p wl) i).re := fun nn i => star_csqrt_re _
  have hw := weak_bottom_2d (hkz p.n_bot) nb 1
  obtain ⟨r, hr, hst⟩ := runLayers_mixed (J := jSP) (step := step2d la false (2 * Real.pi / wl) (kxF p wl) (kyF p wl) v)
    (fun x => x ∈ convs.zip p.thickness ∧ SideConv Complex.I x.1)
    (fun x => x ∈ convs.zip p.thickness ∧ ClearConv x.1 ∧ IsUnit (omega2LR (kxF p wl) (kyF p wl) x.1).det ∧
      Forward (kxF p wl) (kyF p wl) x.1)
    (by
      rintro x s ⟨hx, hc⟩ hs
      obtain ⟨M, hM, hg⟩ := goodModes_2d (hi.kxF_star hphi wl) (hi.kyF_star hphi wl) hc (hl x hx).modes
      obtain ⟨r, hr, hst⟩ := (hg.rot hreal).step (la := la) hk0 (hd _ (List.of_mem_zip (a := x.1) (b := x.2) hx).2) hs
      exact done x s M r hM hr hst)
    (by
      rintro x s ⟨hx, hc, h1, h2⟩ hs
      obtain ⟨M, hM, hg⟩ := clearModes_2d (hi.kxF_star hphi wl) (hi.kyF_star hphi wl) hc h1 h2 (hl x hx).modes
      obtain ⟨r, hr, hst⟩ := (hg.rot hreal).step (la := la) (k0 := 2 * Real.pi / wl) (d := x.2) hs
      exact done x s M r hM hr hst)
    (convs.zip p.thickness)
    (⟨fromBlocks 1 0 0 (((1 : ℂ) / (nb : ℂ) ^ 2) • (Complex.I • diagonal (kz2d p.n_bot (kxF p wl) (kyF p wl)))),
      fromBlocks (Complex.I • diagonal (kz2d p.n_bot (kxF p wl) (kyF p wl))) 0 0 1, 1⟩, [])
    (fun x hx => (hl x hx).kind.imp (fun h => ⟨hx, h⟩) fun h => ⟨hx, h⟩) (by
      rcases hbot with ⟨h0, h⟩ | ⟨x, h1, h2⟩
      · exact Or.inl (strict_bottom_2d h h0 _)
      · exact Or.inr ⟨hw, x, h1, List.mem_of_getLast? h1, h2⟩)
  have hu := final_unit_2d (nt := nt) (hkz p.n_top) hst
  rw [← hi.hn] at hu
  obtain ⟨x, hx⟩ := final_2d_ok (la := la) (kb := kz2d p.n_bot (kxF p wl) (kyF p wl)) (psi := p.psi) (th := p.theta) (nb := p.n_bot) hu
  rw [← hnb] at hr
  exact ⟨⟨x, r.2⟩, (solve_2d_iff hp).mpr ⟨hlen, (kz2d p.n_top (kxF p wl) (kyF p wl), kz2d p.n_bot (kxF p wl) (kyF p wl), v, _), r, x,
    first_2d_ok hv, hr, hx, rfl⟩⟩

theorem solve_con_stack {la : LinAlg} {p : Params} {wl nt nb th ph : ℝ} {convs : List (Conv (FlatIdx p.fto.1 p.fto.2))}
    (hp : p.use_pinv = false) (hphi : p.phi.getD 0 = (ph : ℂ)) (hi : RealIncidence p nt th) (hnb : p.n_bot = (nb : ℂ))
    (hwl : 0 < wl) (hd : ∀ d ∈ p.thickness, 0 < d) (hlen : p.thickness.length ≤ convs.length)
    (hv : ∃ v, varphiAll (kxF p wl) (kyF p wl) = .ok v) (hf : p.fto.2 = 0)
    (hl : ∀ x ∈ convs.zip p.thickness, StackConLayer la (kxF p wl) (kyF p wl) x.1)
    (hbot : nb ≠ 0 ∧ (∀ i, 0 < (kz2d p.n_bot (kxF p wl) (kyF p wl) i).re) ∨
      ∃ x, (convs.zip p.thickness).getLast? = some x ∧ SideConv Complex.I x.1) :
    ∃ o, solve_1d_conical la p wl convs = .ok o := by
  obtain ⟨v, hv⟩ := hv
  have hk0 : 0 < 2 * Real.pi / wl := by positivity
  have hreal := varphiAll_real (hi.kxF_real hphi wl) (hi.kyF_real hphi wl) hv
  obtain ⟨k, hk⟩ := kyF_const hf wl
  have hks := hi.kyF_star hphi wl
  have hks' : star k = k := by
    have := hks (ctr2 _ _)
    rw [hk] at this
    exact this
  have hkr : k = ((k.re : ℝ) : ℂ) := (Complex.conj_eq_iff_re.mp hks').symm
  have done : ∀ (x : Conv (FlatIdx p.fto.1 p.fto.2) × ℝ) s M r, transfer_1d_conical_2 la (kxF p wl) (fun _ => k) x.1 false = .ok M →
      tmmStep la false (phaseX (2 * Real.pi / wl) (Sum.elim M.q1 M.q2) x.2) (rotE v * conW0 M) (rotH v * conV0 M) s = .ok r →
      StrictState jSP r.1 →
      ∃ r', stepCon la false (2 * Real.pi / wl) (kxF p wl) (kyF p wl) v x.1 x.2 s = .ok r' ∧ StrictState jSP r'.1 := by
    intro x s M r hM hr hst
    refine ⟨(r.1, { epzi := x.1.epzi, modes := M, d := x.2, A_i := r.2.1, B := r.2.2 }), ?_, hst⟩
    unfold stepCon
    simp only [Except.bind_ok, transfer_1d_conical_3_eq, conW_eq, conV_eq]
    exact ⟨M, by rw [hk]; exact hM, r, hr, rfl⟩
  have hkz : ∀ (nn : ℂ) i, 0 ≤ (kz2d nn (kxF p wl) (kyF p wl) i).re := fun nn i => star_csqrt_re _
  have hw := weak_bottom_2d (hkz p.n_bot) nb 1
  obtain ⟨r, hr, hst⟩ := runLayers_mixed (J := jSP) (step := stepCon la false (2 * Real.pi / wl) (kxF p wl) (kyF p wl) v)
    (fun x => x ∈ convs.zip p.thickness ∧ SideConv Complex.I x.1)
    (fun x => x ∈ convs.zip p.thickness ∧ ClearConv x.1 ∧ IsUnit (diagonal (fun i => kxF p wl i ^ 2) - x.1.epy).det ∧
      IsUnit (diagonal (kxF p wl) * x.1.epzi * diagonal (kxF p wl) - 1).det ∧
      IsUnit (diagonal (fun i => kyF p wl i ^ 2) + (diagonal (fun i => kxF p wl i ^ 2) - x.1.epy)).det ∧
      IsUnit (diagonal (fun i => kyF p wl i ^ 2) + (diagonal (kxF p wl) * x.1.epzi * diagonal (kxF p wl) - 1) * x.1.epx).det)
    (by
      rintro x s ⟨hx, hc⟩ hs
      have b1 := (hl x hx).modes1
      have b2 := (hl x hx).modes2
      rw [hk] at b1 b2
      obtain ⟨M, hM, hg⟩ := goodModes_con (hi.kxF_star hphi wl) hks' hc (hl x hx).inv b1 b2
      obtain ⟨r, hr, hst⟩ := (hg.rot hreal).step (la := la) hk0 (hd _ (List.of_mem_zip (a := x.1) (b := x.2) hx).2) hs
      exact done x s M r hM hr hst)
    (by
      rintro x s ⟨hx, hc, h1, h2, h3, h4⟩ hs
      have b1 := (hl x hx).modes1
      have b2 := (hl x hx).modes2
      rw [hk, hkr] at b1 b2 h3 h4
      obtain ⟨M, hM, hg⟩ := clearModes_con (hi.kxF_star hphi wl) hc (hl x hx).inv h1 h2 h3 h4 b1 b2
      rw [← hkr] at hM
      obtain ⟨r, hr, hst⟩ := (hg.rot hreal).step (la := la) (k0 := 2 * Real.pi / wl) (d := x.2) hs
      exact done x s M r hM hr hst)
    (convs.zip p.thickness)
    (⟨fromBlocks 1 0 0 (((1 : ℂ) / (nb : ℂ) ^ 2) • (Complex.I • diagonal (kz2d p.n_bot (kxF p wl) (kyF p wl)))),
      fromBlocks (Complex.I • diagonal (kz2d p.n_bot (kxF p wl) (kyF p wl))) 0 0 1, 1⟩, [])
    (fun x hx => (hl x hx).kind.imp (fun h => ⟨hx, h⟩) fun h => ⟨hx, h⟩) (by
      rcases hbot with ⟨h0, h⟩ | ⟨x, h1, h2⟩
      · exact Or.inl (strict_bottom_2d h h0 _)
      · exact Or.inr ⟨hw, x, h1, List.mem_of_getLast? h1, h2⟩)
  have hu := final_unit_2d (nt := nt) (hkz p.n_top) hst
  rw [← hi.hn] at hu
  obtain ⟨x, hx⟩ := final_2d_ok (la := la) (kb := kz2d p.n_bot (kxF p wl) (kyF p wl)) (psi := p.psi) (th := p.theta) (nb := p.n_bot) hu
  rw [← hnb] at hr
  exact ⟨⟨x, r.2⟩, (solve_con_iff hp).mpr ⟨hlen, hf, (kz2d p.n_top (kxF p wl) (kyF p wl), kz2d p.n_bot (kxF p wl) (kyF p wl), v, _), r, x,
    first_2d_ok hv, hr, hx, rfl⟩⟩

end Meent
