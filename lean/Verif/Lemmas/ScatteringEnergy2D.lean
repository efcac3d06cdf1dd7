import Verif.Spec.ScatteringPower
import Verif.Lemmas.ScatteringEnergy
import Verif.Lemmas.Scattering2D
import Verif.Lemmas.Passive2D
import Verif.Props.C96
import Verif.Lemmas.ScatteringExample

/-!
# Power in the 2D scattering functions (helper lemmas)
-/

open Matrix

namespace Meent

section
variable {n : Type} [Fintype n] [DecidableEq n]

theorem crosses_flux_neg {k0 : ℝ} {J : Matrix n n ℂ} {L : Spec.SLayer n} (hl : Lossless J L.W (-L.V) L.q) {E H E' H' : n → ℂ} (h : Spec.Crosses k0 L E H E' H') :
    flux J E (-H) = flux J E' (-H') := by
  obtain ⟨u, v, rfl, rfl, rfl, rfl⟩ := h
  have hX : L.X k0 = phaseX k0 L.q L.d := rfl
  obtain ⟨hD, hH⟩ := phase_conds (L.Wᴴ * J * (-L.V)) L.q k0 L.d hl.nq hl.nhq
  rw [← hX] at hD hH
  unfold flux
  rw [← neg_mulVec, ← neg_mulVec]
  simp only [beta_mulVec_left, beta_mulVec_right]
  rw [← Matrix.mul_assoc]
  exact flux_balance _ _ hD hH u v

theorem through_flux_neg {k0 : ℝ} {J : Matrix n n ℂ} : ∀ {Ls : List (Spec.SLayer n)} (_ : ∀ L ∈ Ls, Lossless J L.W (-L.V) L.q) {E H E' H' : n → ℂ},
    Spec.Through k0 Ls E H E' H' → flux J E (-H) = flux J E' (-H')
  | [], _, _, _, _, _, ⟨h1, h2⟩ => by rw [h1, h2]
  | L :: _, hl, _, _, _, _, ⟨_, _, h1, h2⟩ =>
    (crosses_flux_neg (hl L List.mem_cons_self) h1).trans (through_flux_neg (fun L' h => hl L' (List.mem_cons_of_mem _ h)) h2)

theorem crosses_flux_neg_le {k0 : ℝ} (hk : 0 ≤ k0) {J : Matrix n n ℂ} {L : Spec.SLayer n} (hd : 0 ≤ L.d) (hl : Dissipative J L.W (-L.V) L.q) {E H E' H' : n → ℂ}
    (h : Spec.Crosses k0 L E H E' H') : flux J E' (-H') ≤ flux J E (-H) := by
  obtain ⟨u, v, rfl, rfl, rfl, rfl⟩ := h
  unfold flux
  rw [← neg_mulVec, ← neg_mulVec]
  simp only [beta_mulVec_left, beta_mulVec_right]
  rw [← Matrix.mul_assoc]
  exact flux_decreases _ L.q hk hd hl.nq hl.nhq u v

theorem through_flux_neg_le {k0 : ℝ} (hk : 0 ≤ k0) {J : Matrix n n ℂ} : ∀ {Ls : List (Spec.SLayer n)} (_ : ∀ L ∈ Ls, 0 ≤ L.d ∧ Dissipative J L.W (-L.V) L.q)
    {E H E' H' : n → ℂ}, Spec.Through k0 Ls E H E' H' → flux J E' (-H') ≤ flux J E (-H)
  | [], _, _, _, _, _, ⟨h1, h2⟩ => by rw [h1, h2]
  | L :: _, hl, _, _, _, _, ⟨_, _, h1, h2⟩ =>
    (through_flux_neg_le hk (fun L' h => hl L' (List.mem_cons_of_mem _ h)) h2).trans
      (crosses_flux_neg_le hk (hl L List.mem_cons_self).1 (hl L List.mem_cons_self).2 h1)

end

variable {m : Type} [Fintype m] [DecidableEq m]

theorem flux_jXY_eq (S U : m ⊕ m → ℂ) : flux jXY S U = ∑ i, (star (S (.inr i)) * U (.inl i) - star (S (.inl i)) * U (.inr i)).im := by
  unfold flux beta jXY
  rw [← Complex.im_sum]
  congr 1
  simp only [dotProduct, Fintype.sum_sum_type, Finset.sum_sub_distrib, Pi.star_apply, fromBlocks_mulVec, Sum.elim_inl, Sum.elim_inr, zero_mulVec, neg_mulVec, one_mulVec,
    Pi.add_apply, Pi.neg_apply, Pi.zero_apply, Function.comp, zero_add, add_zero, mul_neg, Finset.sum_neg_distrib]
  ring

/-- `V` of a half space whose orders all have wave numbers along x and y. -/
theorem homogeneous_module_value {kx ky : m → ℂ} {e : ℂ} (he : e ≠ 0) (h0 : ∀ i, kx i * ky i ≠ 0) (hz : ∀ i, Spec.depthWave e kx ky i ≠ 0) :
    homogeneous_module kx ky e = .ok (-omegaR kx ky (Spec.constant m e) *
      diagonal (Sum.elim (fun i => (Complex.I * Spec.depthWave e kx ky i)⁻¹) fun i => (Complex.I * Spec.depthWave e kx ky i)⁻¹), Spec.depthWave e kx ky) := by
  have hz' : ∀ i, star (csqrt (e - kx i ^ 2 - ky i ^ 2)) ≠ 0 := hz
  unfold homogeneous_module
  dsimp only
  rw [smul_smul, mul_inv_cancel₀ he, one_smul]
  simp only [if_neg (hz' _)]
  have hi : ∀ j, (Sum.elim (fun i => Complex.I * star (csqrt (e - kx i ^ 2 - ky i ^ 2))) fun i => Complex.I * star (csqrt (e - kx i ^ 2 - ky i ^ 2)) : m ⊕ m → ℂ) j ≠ 0 := by
    rintro (i | i)
    · exact mul_ne_zero Complex.I_ne_zero (hz' i)
    · exact mul_ne_zero Complex.I_ne_zero (hz' i)
  refine Except.bind_ok.mpr ⟨_, npInv_ok.mpr ⟨?_, rfl⟩, ?_⟩
  · rw [det_diagonal, isUnit_iff_ne_zero, Finset.prod_ne_zero_iff]
    exact fun j _ => hi j
  · rw [omegaR_constant]
    congr 2
    congr 1
    · ext a b
      rw [of_apply, if_neg]
      rintro ⟨-, h⟩
      rcases a with i | i
      · simp at h
        exact h.elim (left_ne_zero_of_mul (h0 i)) (right_ne_zero_of_mul (h0 i))
      · simp at h
        exact h.elim (right_ne_zero_of_mul (h0 i)) (left_ne_zero_of_mul (h0 i))
    · rw [inv_diagonal']
      · congr 1
        funext j
        rcases j with i | i <;> rfl
      · exact hi

/-- Flux of one order. -/
theorem order_flux_2d {x y k : ℂ} (hx : x.im = 0) (hy : y.im = 0) (hk0 : k ≠ 0) {ax ay bx by' : ℂ} (h : k.im = 0 ∨ k.re = 0 ∧ ax = 0 ∧ ay = 0) :
    (star (ay + by') * -((x * y * (ax - bx) + (k ^ 2 + y ^ 2) * (ay - by')) * (Complex.I * k)⁻¹) -
      star (ax + bx) * -((-(k ^ 2 + x ^ 2) * (ax - bx) + -(x * y) * (ay - by')) * (Complex.I * k)⁻¹)).im =
      k.re * (‖ax‖ ^ 2 + ‖ay‖ ^ 2 + ‖-(x * ax + y * ay) / k‖ ^ 2) - k.re * (‖bx‖ ^ 2 + ‖by'‖ ^ 2 + ‖-(x * bx + y * by') / k‖ ^ 2) := by
  have ex : x = (x.re : ℂ) := Complex.ext rfl hx
  have ey : y = (y.re : ℂ) := Complex.ext rfl hy
  generalize x.re = x at ex
  generalize y.re = y at ey
  subst ex ey
  rcases h with h | ⟨h, rfl, rfl⟩
  · have ek : k = (k.re : ℂ) := Complex.ext rfl h
    generalize k.re = k at ek
    subst ek
    have hk : k ≠ 0 := by exact_mod_cast hk0
    have ei : (Complex.I * (k : ℂ))⁻¹ = ((-k⁻¹ : ℝ) : ℂ) * Complex.I := by
      rw [mul_inv, Complex.inv_I]; push_cast; ring
    simp only [norm_div, norm_neg, div_pow, Complex.norm_real, Real.norm_eq_abs, sq_abs, ei, ← Complex.normSq_eq_norm_sq, Complex.normSq_apply]
    simp [pow_two]
    field_simp
    ring
  · have ek : k = ((-k.im : ℝ) : ℂ) * -Complex.I := by
      apply Complex.ext <;> simp [h]
    generalize -k.im = k at ek
    subst ek
    have hk : k ≠ 0 := by
      rintro rfl
      simp at hk0
    have ei : (Complex.I * ((k : ℂ) * -Complex.I))⁻¹ = ((k⁻¹ : ℝ) : ℂ) := by
      rw [show Complex.I * ((k : ℂ) * -Complex.I) = k * -(Complex.I * Complex.I) by ring, Complex.I_mul_I]; push_cast; ring
    rw [h, ei]
    simp [pow_two]
    field_simp
    ring

theorem depthWave_real_or {e : ℂ} {kx ky : m → ℂ} (he : Spec.IsReal e) (hx : ∀ i, Spec.IsReal (kx i)) (hy : ∀ i, Spec.IsReal (ky i)) (i : m) :
    (Spec.depthWave e kx ky i).im = 0 ∨ (Spec.depthWave e kx ky i).re = 0 := by
  have hs : Spec.depthWave e kx ky i ^ 2 = e - kx i ^ 2 - ky i ^ 2 := real_sqrt_sq he (hx i) (hy i)
  have h := congrArg Complex.im hs
  have he' : e.im = 0 := he
  have hx' : (kx i).im = 0 := hx i
  have hy' : (ky i).im = 0 := hy i
  rw [Complex.sub_im, Complex.sub_im, pow_two, pow_two, pow_two, Complex.mul_im, Complex.mul_im, Complex.mul_im, he', hx', hy'] at h
  have h' : (Spec.depthWave e kx ky i).re * (Spec.depthWave e kx ky i).im = 0 := by linarith
  rcases mul_eq_zero.mp h' with h | h
  · exact .inr h
  · exact .inl h

theorem half_flux_2d {e : ℂ} {kx ky : m → ℂ} (he : Spec.IsReal e) (he0 : e ≠ 0) (hx : ∀ i, Spec.IsReal (kx i)) (hy : ∀ i, Spec.IsReal (ky i))
    (hxy : ∀ i, kx i * ky i ≠ 0) (hz : ∀ i, e ≠ kx i ^ 2 + ky i ^ 2) {V : Matrix (m ⊕ m) (m ⊕ m) ℂ} {Kz : m → ℂ} (h : homogeneous_module kx ky e = .ok (V, Kz))
    {a : m ⊕ m → ℂ} (ha : Spec.PropagatingWaves2D e kx ky a) (b : m ⊕ m → ℂ) :
    flux jXY (a + b) (-(V *ᵥ (a - b))) = Spec.power2D e kx ky a - Spec.power2D e kx ky b := by
  have hs : ∀ i, Spec.depthWave e kx ky i ^ 2 = e - kx i ^ 2 - ky i ^ 2 := fun i => real_sqrt_sq he (hx i) (hy i)
  have hk0 : ∀ i, Spec.depthWave e kx ky i ≠ 0 := fun i k => hz i (by
    have := hs i
    rw [k] at this
    linear_combination -this)
  rw [homogeneous_module_value he0 hxy hk0] at h
  obtain ⟨rfl, -⟩ := Prod.mk.inj (Except.ok.inj h)
  unfold Spec.power2D
  rw [← Finset.sum_sub_distrib, flux_jXY_eq]
  refine Finset.sum_congr rfl fun i _ => ?_
  have hc : (Spec.depthWave e kx ky i).im = 0 ∨ (Spec.depthWave e kx ky i).re = 0 ∧ a (.inl i) = 0 ∧ a (.inr i) = 0 :=
    (depthWave_real_or he hx hy i).imp_right fun h => ⟨h, ha i h⟩
  rw [← order_flux_2d (hx i) (hy i) (hk0 i) hc, hs i, omegaR_constant, ← mulVec_mulVec]
  congr 1
  simp only [Pi.neg_apply, Pi.add_apply, fromBlocks_mulVec, Sum.elim_inl, Sum.elim_inr, mulVec_diagonal, Function.comp, Pi.sub_apply]
  ring

theorem half_flux_2d' {e : ℂ} {kx ky : m → ℂ} (he : Spec.IsReal e) (he0 : e ≠ 0) (hx : ∀ i, Spec.IsReal (kx i)) (hy : ∀ i, Spec.IsReal (ky i))
    (hxy : ∀ i, kx i * ky i ≠ 0) (hz : ∀ i, e ≠ kx i ^ 2 + ky i ^ 2) {V : Matrix (m ⊕ m) (m ⊕ m) ℂ} {Kz : m → ℂ} (h : homogeneous_module kx ky e = .ok (V, Kz))
    {a : m ⊕ m → ℂ} (ha : Spec.PropagatingWaves2D e kx ky a) (b : m ⊕ m → ℂ) :
    flux jXY (b + a) (-(V *ᵥ (b - a))) = Spec.power2D e kx ky b - Spec.power2D e kx ky a := by
  have h := half_flux_2d he he0 hx hy hxy hz h ha b
  have e' : ∀ U : m ⊕ m → ℂ, flux jXY (a + b) (-U) = -flux jXY (a + b) U := by
    intro U
    unfold flux beta
    rw [mulVec_neg, dotProduct_neg, Complex.neg_im]
  rw [add_comm b a, ← neg_sub a b, mulVec_neg, e', h]
  ring

/-- A layer of the medium around it. -/
theorem matched_film {n : Type} [Fintype n] [DecidableEq n] {k0 d : ℝ} {V : Matrix n n ℂ} (h : IsUnit V.det) (q : n → ℂ) :
    ∃ S, Spec.scatteringMatrix k0 V V V [⟨1, V, q, d⟩] = .ok S := by
  have hAB : A_B_matrices 1 1 V V = .ok ((2 : ℂ) • 1, 0) := by
    refine Except.bind_ok.mpr ⟨_, npInv_one, Except.bind_ok.mpr ⟨_, npInv_ok.mpr ⟨h, rfl⟩, ?_⟩⟩
    rw [nonsing_inv_mul _ h, Matrix.mul_one, sub_self, two_smul]
  have hS : ∃ S, S_layer ((2 : ℂ) • (1 : Matrix n n ℂ)) 0 d k0 q = .ok S := by
    refine ⟨_, Except.bind_ok.mpr ⟨_, npInv_scalar two_ne_zero, Except.bind_ok.mpr ⟨_, (congrArg npInv ?_).trans (npInv_scalar two_ne_zero), rfl⟩⟩⟩
    simp
  obtain ⟨S, hS⟩ := hS
  exact ⟨S, film_matrix h hAB hS⟩

end Meent
