import Verif.Lemmas.Absorb
import Verif.Lemmas.AbsorbConv
import Verif.Lemmas.Passive2D
import Verif.Lemmas.Dispersion
import Mathlib.LinearAlgebra.Matrix.DotProduct

/-!
# The modes of absorbing layers (helper lemmas)
-/

open Matrix

namespace Meent

set_option linter.unusedSectionVars false
set_option linter.unusedSimpArgs false
set_option linter.unusedVariables false

section
variable {n : Type} [Fintype n] [DecidableEq n]

theorem SideConv.lossy {c : Conv n} (h : SideConv Complex.I c) : LossyConv c := by
  refine ⟨fun v => ?_, fun v => ?_, fun v => ?_⟩
  · by_cases hv : v = 0
    · rw [hv]; simp [beta]
    · exact (h.x.lossy hv).le
  · by_cases hv : v = 0
    · rw [hv]; simp [beta]
    · exact (h.y.lossy hv).le
  · by_cases hv : v = 0
    · rw [hv]; simp [beta]
    · exact (h.z.gainy hv).le

theorem eig_ne {la : LinAlg} {A : Matrix n n ℂ} (hA : IsUnit A.det) (hW : IsUnit (la.eig A).2.det) (i : n) :
    csqrt ((la.eig A).1 i) ≠ 0 := by
  have e := congrArg det (la.eig_law A)
  rw [det_mul, det_mul] at e
  have : IsUnit ((la.eig A).2.det * (diagonal (la.eig A).1).det) := by rw [← e]; exact hA.mul hW
  have := isUnit_diag_ne (isUnit_of_mul_isUnit_right this) i
  intro h0
  apply this
  rw [← csqrt_mul_self ((la.eig A).1 i), h0, mul_zero]

theorem isUnit_diag {q : n → ℂ} (h : ∀ i, q i ≠ 0) : IsUnit (diagonal q).det := by
  rw [det_diagonal, isUnit_iff_ne_zero]
  exact Finset.prod_ne_zero_iff.mpr fun i _ => h i

theorem StrictOverlap.of_R {J P R W V : Matrix n n ℂ} {q : n → ℂ} (h : Dissipative J W V q) (hR : R * W = V * diagonal q)
    (hW : IsUnit W.det) (hJR : ∀ v, v ≠ 0 → 0 < (beta (J * R) v v).im) : StrictOverlap (Wᴴ * J * V) q := by
  refine ⟨h.nq, h.nhq, Or.inl fun v hv => ?_⟩
  have : Wᴴ * J * V * diagonal q = Wᴴ * (J * R) * W := by
    rw [Matrix.mul_assoc _ V, ← hR]; simp only [Matrix.mul_assoc]
  rw [this, beta_sandwich]
  refine hJR _ fun h0 => hv ?_
  have e : v = W⁻¹ *ᵥ (W *ᵥ v) := by rw [mulVec_mulVec, nonsing_inv_mul _ hW, one_mulVec]
  rw [e, h0, mulVec_zero]

theorem StrictOverlap.of_P {J P R W V : Matrix n n ℂ} {q : n → ℂ} (h : Dissipative J W V q) (hP : P * V = W * diagonal q)
    (hV : IsUnit V.det) (hJP : ∀ v, v ≠ 0 → (beta (Jᴴ * P) v v).im < 0) : StrictOverlap (Wᴴ * J * V) q := by
  refine ⟨h.nq, h.nhq, Or.inr fun v hv => ?_⟩
  have : (Wᴴ * J * V)ᴴ * diagonal q = Vᴴ * (Jᴴ * P) * V := by
    simp only [conjTranspose_mul, conjTranspose_conjTranspose, Matrix.mul_assoc]
    rw [← hP]
  rw [this, beta_sandwich]
  refine hJP _ fun h0 => hv ?_
  have e : v = V⁻¹ *ᵥ (V *ᵥ v) := by rw [mulVec_mulVec, nonsing_inv_mul _ hV, one_mulVec]
  rw [e, h0, mulVec_zero]

/-- What the loop needs from a layer. -/
structure GoodModes (J W V : Matrix n n ℂ) (q : n → ℂ) : Prop where
  hW : IsUnit W.det
  hV : IsUnit V.det
  hN : StrictOverlap (Wᴴ * J * V) q
  hq : ∀ i, 0 ≤ (q i).re

theorem unit_of_im {M : Matrix n n ℂ} (h : ∀ v, v ≠ 0 → (beta M v v).im ≠ 0) : IsUnit M.det := by
  rw [isUnit_iff_ne_zero]
  intro h0
  obtain ⟨v, hv, e⟩ := Matrix.exists_mulVec_eq_zero_iff.mpr h0
  refine h v hv ?_
  unfold beta
  rw [e]
  simp

open scoped ComplexOrder in
theorem beta_one_self {v : n → ℂ} (h : beta (1 : Matrix n n ℂ) v v = 0) : v = 0 := by
  unfold beta at h
  rw [one_mulVec] at h
  exact dotProduct_star_self_eq_zero.1 h

theorem im_A {c : Conv n} {kx : n → ℂ} (hk : ∀ i, star (kx i) = kx i) (v : n → ℂ) :
    (beta (diagonal (fun i => kx i ^ 2) - c.epy) v v).im = -(beta c.epy v v).im := by
  rw [beta_sub_mat, Complex.sub_im, IsHermitian.beta_im (isHermitian_diagonal_real (fun i => by rw [star_pow, hk]))]
  ring

theorem beta_B {c : Conv n} {kx : n → ℂ} (hk : ∀ i, star (kx i) = kx i) (v : n → ℂ) :
    beta (diagonal kx * c.epzi * diagonal kx - 1) v v = beta c.epzi (diagonal kx *ᵥ v) (diagonal kx *ᵥ v) - beta 1 v v := by
  have hK := (isHermitian_diagonal_real hk).eq
  have := beta_sandwich (diagonal kx) c.epzi v
  rw [hK] at this
  rw [beta_sub_mat, this]

theorem unit_B {c : Conv n} {kx : n → ℂ} (hk : ∀ i, star (kx i) = kx i) (hc : SideConv Complex.I c) :
    IsUnit (diagonal kx * c.epzi * diagonal kx - 1).det := by
  rw [isUnit_iff_ne_zero]
  intro h0
  obtain ⟨v, hv, e⟩ := Matrix.exists_mulVec_eq_zero_iff.mpr h0
  have hb : beta (diagonal kx * c.epzi * diagonal kx - 1) v v = 0 := by unfold beta; rw [e]; simp
  rw [beta_B hk] at hb
  have hi := congrArg Complex.im hb
  rw [Complex.sub_im, IsHermitian.beta_im isHermitian_one, sub_zero, Complex.zero_im] at hi
  by_cases hw : diagonal kx *ᵥ v = 0
  · rw [hw] at hb
    have : beta c.epzi (0 : n → ℂ) 0 = 0 := by simp [beta]
    rw [this, zero_sub, neg_eq_zero] at hb
    exact hv (beta_one_self hb)
  · have := hc.z.gainy hw
    rw [hi] at this
    exact lt_irrefl _ this

theorem unit_A {c : Conv n} {kx : n → ℂ} (hk : ∀ i, star (kx i) = kx i) (hc : SideConv Complex.I c) :
    IsUnit (diagonal (fun i => kx i ^ 2) - c.epy).det :=
  unit_of_im fun v hv => by
    rw [im_A hk]
    have := hc.y.lossy hv
    linarith

/-- 1D modes. -/
theorem goodModes_1d {la : LinAlg} {pol : ℝ} (hpol : pol = 0 ∨ pol = 1) {kx : n → ℂ} {c : Conv n} (hk : ∀ i, star (kx i) = kx i)
    (hc : SideConv Complex.I c) (hb : IsUnit (la.eig (eigMat1d pol kx c)).2.det) :
    ∃ m, transfer_1d_2 la pol kx c false = .ok m ∧ GoodModes 1 m.W m.V m.q := by
  rcases hpol with rfl | rfl
  · rw [eigMat1d, if_pos rfl] at hb
    refine ⟨_, by rw [transfer_1d_2, if_pos rfl], ?_⟩
    set A := diagonal (fun i => kx i ^ 2) - c.epy with hA
    have hu : IsUnit A.det := unit_A hk hc
    have hq := isUnit_diag (eig_ne hu hb)
    have hd : transfer_1d_2 la 0 kx c false = .ok ⟨(la.eig A).2, (la.eig A).2 * diagonal (fun i => csqrt ((la.eig A).1 i)),
      fun i => csqrt ((la.eig A).1 i)⟩ := by rw [transfer_1d_2, if_pos rfl]
    refine ⟨hb, by simp only; rw [det_mul]; exact hb.mul hq, ?_, fun i => csqrt_re_nonneg _⟩
    refine StrictOverlap.of_R (P := 1) (R := A) (modes1d_dissipative hk hc.lossy hd) ?_ hb fun v hv => ?_
    · simp only
      rw [la.eig_law A, Matrix.mul_assoc, diag_csqrt_mul]
    · rw [Matrix.one_mul, hA, im_A hk]
      have := hc.y.lossy hv
      linarith
  · rw [eigMat1d, if_neg one_ne_zero] at hb
    set B := diagonal kx * c.epzi * diagonal kx - 1 with hB
    have hx := hc.x.isUnit
    have hu : IsUnit (c.epx * B).det := by rw [det_mul]; exact hx.mul (unit_B hk hc)
    have hq := isUnit_diag (eig_ne hu hb)
    have hd : transfer_1d_2 la 1 kx c false = .ok ⟨(la.eig (c.epx * B)).2, c.epx⁻¹ * (la.eig (c.epx * B)).2 *
      diagonal (fun i => csqrt ((la.eig (c.epx * B)).1 i)), fun i => csqrt ((la.eig (c.epx * B)).1 i)⟩ := by
      rw [transfer_1d_2, if_neg one_ne_zero, if_pos rfl]
      exact Except.bind_ok.mpr ⟨_, meeinv_false_ok.mpr ⟨hx, rfl⟩, rfl⟩
    have hV : IsUnit (c.epx⁻¹ * (la.eig (c.epx * B)).2 * diagonal (fun i => csqrt ((la.eig (c.epx * B)).1 i))).det := by
      rw [det_mul, det_mul]
      exact ((isUnit_nonsing_inv_det _ hx).mul hb).mul hq
    refine ⟨_, hd, hb, hV, ?_, fun i => csqrt_re_nonneg _⟩
    refine StrictOverlap.of_P (P := c.epx) (R := B) (modes1d_dissipative hk hc.lossy hd) ?_ hV fun v hv => ?_
    · simp only [← Matrix.mul_assoc]
      rw [mul_nonsing_inv _ hx, Matrix.one_mul]
    · rw [conjTranspose_one, Matrix.one_mul]
      exact hc.x.lossy hv

end

section
variable {m : Type} [Fintype m] [DecidableEq m]

theorem pair_ne {v : m ⊕ m → ℂ} (hv : v ≠ 0) : v ∘ Sum.inl ≠ 0 ∨ v ∘ Sum.inr ≠ 0 := by
  by_contra h
  push Not at h
  apply hv
  funext i
  rcases i with i | i
  · exact congrFun h.1 i
  · exact congrFun h.2 i

theorem strict_omegaR {kx ky : m → ℂ} {c : Conv m} (hkx : ∀ i, star (kx i) = kx i) (hky : ∀ i, star (ky i) = ky i)
    (hc : SideConv Complex.I c) (v : m ⊕ m → ℂ) (hv : v ≠ 0) : 0 < (beta (jXY * omegaR kx ky c) v v).im := by
  rw [beta_jXY_omegaR c hkx hky]
  have h1 := hc.lossy.x (v ∘ Sum.inl)
  have h2 := hc.lossy.y (v ∘ Sum.inr)
  rcases pair_ne hv with h | h
  · have := hc.x.lossy h; linarith
  · have := hc.y.lossy h; linarith

theorem unit_omegaR {kx ky : m → ℂ} {c : Conv m} (hkx : ∀ i, star (kx i) = kx i) (hky : ∀ i, star (ky i) = ky i)
    (hc : SideConv Complex.I c) : IsUnit (omegaR kx ky c).det :=
  isUnit_det_of_mul_right (unit_of_im fun v hv => (strict_omegaR hkx hky hc v hv).ne')

theorem unit_omegaL {kx ky : m → ℂ} {c : Conv m} (hkx : ∀ i, star (kx i) = kx i) (hky : ∀ i, star (ky i) = ky i)
    (hc : SideConv Complex.I c) : IsUnit (omegaL kx ky c).det := by
  rw [isUnit_iff_ne_zero]
  intro h0
  obtain ⟨v, hv, e⟩ := Matrix.exists_mulVec_eq_zero_iff.mpr h0
  have hb : beta (jXYᴴ * omegaL kx ky c) v v = 0 := by unfold beta; rw [← mulVec_mulVec, e]; simp
  rw [beta_jXY_omegaL c hkx hky] at hb
  have hi := congrArg Complex.im hb
  rw [Complex.sub_im, IsHermitian.beta_im isHermitian_one, zero_sub, Complex.zero_im, neg_eq_zero] at hi
  by_cases hw : diagonal ky *ᵥ (v ∘ Sum.inl) - diagonal kx *ᵥ (v ∘ Sum.inr) = 0
  · rw [hw] at hb
    have : beta c.epzi (0 : m → ℂ) 0 = 0 := by simp [beta]
    rw [this, sub_zero] at hb
    exact hv (beta_one_self hb)
  · have := hc.z.gainy hw
    rw [hi] at this
    exact lt_irrefl _ this

theorem unit_rot {varphi : m → ℂ} (h : ∀ i, star (varphi i) = varphi i) : IsUnit (rotE varphi).det ∧ IsUnit (rotH varphi).det := by
  have hj : IsUnit (jXY : Matrix (m ⊕ m) (m ⊕ m) ℂ).det := by
    have : (jXY : Matrix (m ⊕ m) (m ⊕ m) ℂ) * (-jXY) = 1 := by
      unfold jXY
      rw [fromBlocks_neg, fromBlocks_multiply]
      simp
    exact isUnit_det_of_right_inverse this
  rw [← rot_jSP h] at hj
  refine ⟨?_, isUnit_det_of_mul_right hj⟩
  have := isUnit_det_of_mul_left (isUnit_det_of_mul_left hj)
  rwa [det_conjTranspose, isUnit_star] at this

theorem GoodModes.rot {varphi : m → ℂ} (h : ∀ i, star (varphi i) = varphi i)
    {W V : Matrix (m ⊕ m) (m ⊕ m) ℂ} {q : m ⊕ m → ℂ} (hl : GoodModes jXY W V q) :
    GoodModes jSP (rotE varphi * W) (rotH varphi * V) q := by
  have e : (rotE varphi * W)ᴴ * jSP * (rotH varphi * V) = Wᴴ * jXY * V := by
    rw [← rot_jSP h, conjTranspose_mul]
    simp only [Matrix.mul_assoc]
  obtain ⟨h1, h2⟩ := unit_rot h
  exact ⟨by rw [det_mul]; exact h1.mul hl.hW, by rw [det_mul]; exact h2.mul hl.hV, by rw [e]; exact hl.hN, hl.hq⟩

theorem ModePair.good {kx ky : m → ℂ} {c : Conv m} {W V : Matrix (m ⊕ m) (m ⊕ m) ℂ}
    {q : m ⊕ m → ℂ} (h : ModePair kx ky c W V q) (hkx : ∀ i, star (kx i) = kx i)
    (hky : ∀ i, star (ky i) = ky i) (hc : SideConv Complex.I c) (hW : IsUnit W.det) (hV : IsUnit V.det)
    (hq : ∀ i, 0 ≤ (q i).re) : GoodModes jXY W V q :=
  ⟨hW, hV, StrictOverlap.of_R (P := omegaL kx ky c) (h.dissipative hkx hky hc.lossy) h.right hW (strict_omegaR hkx hky hc), hq⟩

/-- 2D modes. -/
theorem goodModes_2d {la : LinAlg} {kx ky : m → ℂ} {c : Conv m} (hkx : ∀ i, star (kx i) = kx i)
    (hky : ∀ i, star (ky i) = ky i) (hc : SideConv Complex.I c) (hb : IsUnit (la.eig (omega2LR kx ky c)).2.det) :
    ∃ M, transfer_2d_2 la kx ky c false = .ok M ∧ GoodModes jXY M.W M.V M.q := by
  have hu : IsUnit (omega2LR kx ky c).det := by
    rw [← omegaL_mul_omegaR, det_mul]
    exact (unit_omegaL hkx hky hc).mul (unit_omegaR hkx hky hc)
  have hq := isUnit_diag (eig_ne hu hb)
  have hd : transfer_2d_2 la kx ky c false = .ok ⟨(la.eig (omega2LR kx ky c)).2, omegaR kx ky c * (la.eig (omega2LR kx ky c)).2 *
      (diagonal fun i => csqrt ((la.eig (omega2LR kx ky c)).1 i))⁻¹, fun i => csqrt ((la.eig (omega2LR kx ky c)).1 i)⟩ := by
    rw [transfer_2d_2]
    exact Except.bind_ok.mpr ⟨_, meeinv_false_ok.mpr ⟨hq, rfl⟩, rfl⟩
  refine ⟨_, hd, (modePair_2d hd).good hkx hky hc hb ?_ fun i => csqrt_re_nonneg _⟩
  simp only
  rw [det_mul, det_mul]
  exact ((unit_omegaR hkx hky hc).mul hb).mul (isUnit_nonsing_inv_det _ hq)

theorem unit_antitri {B C D : Matrix m m ℂ} (hB : IsUnit B.det) (hC : IsUnit C.det) : IsUnit (fromBlocks 0 B C D).det := by
  rw [isUnit_iff_ne_zero]
  intro h0
  obtain ⟨v, hv, e⟩ := Matrix.exists_mulVec_eq_zero_iff.mpr h0
  apply hv
  rw [fromBlocks_mulVec] at e
  have inj : ∀ {M : Matrix m m ℂ} (hM : IsUnit M.det) (w : m → ℂ), M *ᵥ w = 0 → w = 0 := by
    intro M hM w hw
    have : w = M⁻¹ *ᵥ (M *ᵥ w) := by rw [mulVec_mulVec, nonsing_inv_mul _ hM, one_mulVec]
    rw [this, hw, mulVec_zero]
  have e1 : B *ᵥ (v ∘ Sum.inr) = 0 := by
    funext i
    have := congrFun e (.inl i)
    simpa using this
  have h2 := inj hB _ e1
  have e2 : C *ᵥ (v ∘ Sum.inl) = 0 := by
    funext i
    have := congrFun e (.inr i)
    simp only [Sum.elim_inr, h2, mulVec_zero, add_zero] at this
    exact this
  have h1 := inj hC _ e2
  funext i
  rcases i with i | i
  · exact congrFun h1 i
  · exact congrFun h2 i

theorem unit_con1 {kx : m → ℂ} {ky : ℂ} {c : Conv m} (hkx : ∀ i, star (kx i) = kx i)
    (hky : star ky = ky) (hc : SideConv Complex.I c) :
    IsUnit (diagonal (fun _ => ky ^ 2) + (diagonal (fun i => kx i ^ 2) - c.epy)).det := by
  refine unit_of_im fun v hv => ?_
  rw [beta_add_mat, Complex.add_im, im_A hkx, IsHermitian.beta_im (isHermitian_diagonal_real (fun i => by rw [star_pow, hky]))]
  have := hc.y.lossy hv
  linarith

theorem unit_con2 {kx : m → ℂ} {ky : ℂ} {c : Conv m} (hkx : ∀ i, star (kx i) = kx i)
    (hky : star ky = ky) (hc : SideConv Complex.I c) :
    IsUnit (diagonal (fun _ => ky ^ 2) + (diagonal kx * c.epzi * diagonal kx - 1) * c.epx).det := by
  have hB := unit_B hkx hc
  have hk2 : ∃ k : ℝ, ky = (k : ℂ) := ⟨ky.re, (Complex.conj_eq_iff_re.mp hky).symm⟩
  obtain ⟨k, hk⟩ := hk2
  rw [isUnit_iff_ne_zero]
  intro h0
  obtain ⟨v, hv, e⟩ := Matrix.exists_mulVec_eq_zero_iff.mpr h0
  set x := c.epx *ᵥ v with hx
  have e1 : (diagonal fun _ : m => ky ^ 2) *ᵥ v = ((k ^ 2 : ℝ) : ℂ) • v := by
    funext i
    rw [mulVec_diagonal, hk, Pi.smul_apply, smul_eq_mul]
    push_cast; rfl
  have e2 : ((k ^ 2 : ℝ) : ℂ) * (star x ⬝ᵥ v) + beta (diagonal kx * c.epzi * diagonal kx - 1) x x = 0 := by
    have := congrArg (fun w => star x ⬝ᵥ w) e
    simp only [add_mulVec, e1, dotProduct_add, dotProduct_smul, smul_eq_mul, dotProduct_zero] at this
    rw [← mulVec_mulVec, ← hx] at this
    exact this
  have e3 : star x ⬝ᵥ v = star (beta c.epx v v) := by
    rw [hx, beta, star_dotProduct]
  have e4 := congrArg Complex.im e2
  rw [Complex.add_im, Complex.im_ofReal_mul, e3, Complex.star_def, Complex.conj_im, beta_B hkx, Complex.sub_im,
    IsHermitian.beta_im isHermitian_one, sub_zero, Complex.zero_im] at e4
  have h1 := hc.x.lossy hv
  have h2 := hc.lossy.z (diagonal kx *ᵥ x)
  have hk0 : k ^ 2 = 0 := by
    by_contra hne
    have : 0 < k ^ 2 := lt_of_le_of_ne (sq_nonneg k) (Ne.symm hne)
    nlinarith
  have hk0' : (diagonal fun _ : m => ky ^ 2) = 0 := by
    rw [hk, ← Complex.ofReal_pow, hk0]; simp
  rw [hk0', zero_add] at h0
  have hu : IsUnit ((diagonal kx * c.epzi * diagonal kx - 1) * c.epx).det := by
    rw [det_mul]; exact hB.mul hc.x.isUnit
  rw [h0] at hu
  exact not_isUnit_zero hu

/-- Conical modes. -/
theorem goodModes_con {la : LinAlg} {kx : m → ℂ} {ky : ℂ} {c : Conv m} (hkx : ∀ i, star (kx i) = kx i)
    (hky : star ky = ky) (hc : SideConv Complex.I c) (hz : c.epzi * c.epy = 1)
    (hb1 : IsUnit (la.eig (diagonal (fun _ => ky ^ 2) + (diagonal (fun i => kx i ^ 2) - c.epy))).2.det)
    (hb2 : IsUnit (la.eig (diagonal (fun _ => ky ^ 2) + (diagonal kx * c.epzi * diagonal kx - 1) * c.epx)).2.det) :
    ∃ M, transfer_1d_conical_2 la kx (fun _ => ky) c false = .ok M ∧ GoodModes jXY (conW0 M) (conV0 M) (Sum.elim M.q1 M.q2) := by
  have hA := unit_A hkx hc
  have hB := unit_B hkx hc
  have hd : ∃ M, transfer_1d_conical_2 la kx (fun _ => ky) c false = .ok M := by
    rw [transfer_1d_conical_2]
    exact ⟨_, Except.bind_ok.mpr ⟨_, meeinv_false_ok.mpr ⟨hA, rfl⟩, Except.bind_ok.mpr ⟨_, meeinv_false_ok.mpr ⟨hB, rfl⟩, rfl⟩⟩⟩
  obtain ⟨M, hM⟩ := hd
  refine ⟨M, hM, ?_⟩
  have hu1 := unit_con1 hkx hky hc
  have hu2 := unit_con2 hkx hky hc
  have hq1 := isUnit_diag (eig_ne hu1 hb1)
  have hq2 := isUnit_diag (eig_ne hu2 hb2)
  have hM' := hM
  simp only [transfer_1d_conical_2, Except.bind_ok, meeinv_false_ok, Except.ok.injEq] at hM'
  obtain ⟨A_i, ⟨hAi, rfl⟩, B_i, ⟨hBi, rfl⟩, rfl⟩ := hM'
  refine (modePair_con hz hM).good hkx (fun _ => hky) hc ?_ ?_ ?_
  · unfold conW0
    refine unit_antitri hb2 ?_
    simp only
    rw [det_mul, det_mul]
    exact ((isUnit_nonsing_inv_det _ hA).mul hb1).mul hq1
  · unfold conV0
    rw [det_fromBlocks_zero₁₂]
    refine hb1.mul ?_
    simp only
    rw [det_mul, det_mul]
    exact ((isUnit_nonsing_inv_det _ hB).mul hb2).mul hq2
  · rintro (i | i)
    · exact csqrt_re_nonneg _
    · exact csqrt_re_nonneg _

end

end Meent
