import Verif.Lemmas.ScatteringReciprocity
import Verif.Lemmas.ScatteringEnergy2D
import Verif.Lemmas.Persym
import Verif.Lemmas.ScatteringNormal

/-!
# Reciprocity in the 2D scattering functions (helper lemmas)
-/

open Matrix

namespace Meent

variable {m : Type} [Fintype m] [DecidableEq m]

theorem jXY_tr_mul : (jXY : Matrix (m ⊕ m) (m ⊕ m) ℂ)ᵀ * jXY = 1 := by
  unfold jXY
  rw [fromBlocks_transpose, fromBlocks_multiply, ← fromBlocks_one]
  simp

/-- The matrices that act on modes whose magnetic fields are turned by a right angle. -/
noncomputable def turnP (kx ky : m → ℂ) (c : Conv m) : Matrix (m ⊕ m) (m ⊕ m) ℂ :=
  fromBlocks (diagonal kx * c.epzi * diagonal kx - 1) (diagonal kx * c.epzi * diagonal ky) (diagonal ky * c.epzi * diagonal kx) (diagonal ky * c.epzi * diagonal ky - 1)

noncomputable def turnR (kx ky : m → ℂ) (c : Conv m) : Matrix (m ⊕ m) (m ⊕ m) ℂ :=
  fromBlocks (c.epx - diagonal fun i => ky i ^ 2) (diagonal fun i => kx i * ky i) (diagonal fun i => kx i * ky i) (c.epy - diagonal fun i => kx i ^ 2)

theorem turnP_eq (kx ky : m → ℂ) (c : Conv m) :
    fromBlocks (diagonal kx * c.epzi * diagonal ky) (-diagonal kx * c.epzi * diagonal kx + 1) (diagonal ky * c.epzi * diagonal ky - 1)
        (-diagonal ky * c.epzi * diagonal kx) = turnP kx ky c * jXY := by
  unfold turnP jXY
  rw [fromBlocks_multiply]
  congr 1 <;> noncomm_ring

theorem turnR_eq (kx ky : m → ℂ) (c : Conv m) : jXY * -omegaR kx ky c = turnR kx ky c := by
  unfold turnR jXY omegaR
  dsimp only
  rw [fromBlocks_neg, fromBlocks_multiply]
  simp only [diagonal_mul_diagonal, Matrix.neg_mul, Matrix.zero_mul, Matrix.one_mul, zero_add, add_zero, neg_neg, neg_sub]
  congr 2
  funext i
  ring

theorem modes2d_pencil {la : LinAlg} {kx ky : m → ℂ} {c : Conv m} {M : Modes (m ⊕ m)} (h : scattering_2d_wv la kx ky c = .ok M) :
    Pencil (turnP kx ky c) (turnR kx ky c) M.W (jXY * M.V) M.q := by
  unfold scattering_2d_wv at h
  simp only [Except.bind_ok, P_Q_kz_ok, npInv_ok, Except.ok.injEq] at h
  obtain ⟨PQ, ⟨hu, rfl⟩, L, ⟨hL, rfl⟩, rfl⟩ := h
  simp only at hL ⊢
  set P := fromBlocks (diagonal kx * c.epzi * diagonal ky) (-diagonal kx * c.epzi * diagonal kx + 1) (diagonal ky * c.epzi * diagonal ky - 1)
        (-diagonal ky * c.epzi * diagonal kx) with hP
  have hE := la.eig_law (P * -omegaR kx ky c)
  refine ⟨?_, ?_, ⟨jXY * (-omegaR kx ky c * (la.eig (P * -omegaR kx ky c)).2 * (diagonal fun i => csqrt ((la.eig (P * -omegaR kx ky c)).1 i))⁻¹) *
    (diagonal fun i => csqrt ((la.eig (P * -omegaR kx ky c)).1 i))⁻¹, ?_⟩, ⟨_, fun _ => rfl⟩⟩
  · rw [← Matrix.mul_assoc, ← turnP_eq, ← hP, ← Matrix.mul_assoc, ← Matrix.mul_assoc, hE]
    conv_lhs => rw [← diag_csqrt_mul]
    rw [← Matrix.mul_assoc, Matrix.mul_assoc, mul_nonsing_inv _ hL, Matrix.mul_one]
  · rw [← turnR_eq]
    simp only [Matrix.mul_assoc]
    rw [nonsing_inv_mul _ hL, Matrix.mul_one]
  · rw [Matrix.mul_assoc _ _ (diagonal _), nonsing_inv_mul _ hL, Matrix.mul_one]

theorem turnP_rev {J : m ≃ m} {kx ky kx' ky' : m → ℂ} (hx : ∀ i, kx' (J i) = -kx i) (hy : ∀ i, ky' (J i) = -ky i) {c : Conv m} (hc : c.reindex J = c.tr) :
    (turnP kx ky c)ᵀ = (turnP kx' ky' c).submatrix (J.sumCongr J) (J.sumCongr J) := by
  have c3 : ∀ i j, c.epzi (J i) (J j) = c.epzi j i := fun i j => congrFun (congrFun (congrArg Conv.epzi hc) i) j
  unfold turnP
  ext a b
  rcases a with i | i <;> rcases b with j | j <;>
    simp [mul_diagonal, diagonal_mul, hx, hy, c3, one_apply, eq_comm, J.injective.eq_iff] <;> ring

theorem turnR_rev {J : m ≃ m} {kx ky kx' ky' : m → ℂ} (hx : ∀ i, kx' (J i) = -kx i) (hy : ∀ i, ky' (J i) = -ky i) {c : Conv m} (hc : c.reindex J = c.tr) :
    (turnR kx ky c)ᵀ = (turnR kx' ky' c).submatrix (J.sumCongr J) (J.sumCongr J) := by
  have c1 : ∀ i j, c.epx (J i) (J j) = c.epx j i := fun i j => congrFun (congrFun (congrArg Conv.epx hc) i) j
  have c2 : ∀ i j, c.epy (J i) (J j) = c.epy j i := fun i j => congrFun (congrFun (congrArg Conv.epy hc) i) j
  have hd : ∀ (d : m → ℂ) (i j), diagonal d i j = diagonal d j i := fun d i j => congrFun (congrFun (diagonal_transpose d).symm i) j
  have hJ : ∀ (d : m → ℂ) (i j), diagonal d (J i) (J j) = diagonal (d ∘ J) i j := fun d i j => congrFun (congrFun (submatrix_diagonal_equiv d J) i) j
  unfold turnR
  ext a b
  rcases a with i | i <;> rcases b with j | j <;>
    simp [c1, c2, hJ, Function.comp_def, hx, hy] <;> exact hd _ _ _

theorem modes2d_pencil_rev {la : LinAlg} {J : m ≃ m} {kx ky kx' ky' : m → ℂ} (hx : ∀ i, kx' (J i) = -kx i) (hy : ∀ i, ky' (J i) = -ky i) {c : Conv m}
    (hc : c.reindex J = c.tr) {M : Modes (m ⊕ m)} (h : scattering_2d_wv la kx' ky' c = .ok M) :
    Pencil (turnP kx ky c)ᵀ (turnR kx ky c)ᵀ (M.W.submatrix (J.sumCongr J) id) ((jXY * M.V).submatrix (J.sumCongr J) id) M.q := by
  obtain ⟨h1, h2, ⟨Y, hY⟩, h4⟩ := modes2d_pencil h
  have hs : ∀ A N : Matrix (m ⊕ m) (m ⊕ m) ℂ, A.submatrix (J.sumCongr J) (J.sumCongr J) * N.submatrix (J.sumCongr J) id = (A * N).submatrix (J.sumCongr J) id :=
    fun A N => submatrix_mul_equiv A N (J.sumCongr J) (J.sumCongr J) id
  have hr : ∀ (A : Matrix (m ⊕ m) (m ⊕ m) ℂ) (d : m ⊕ m → ℂ), A.submatrix (J.sumCongr J) id * diagonal d = (A * diagonal d).submatrix (J.sumCongr J) id := fun A d => by
    ext i j
    simp only [mul_diagonal, submatrix_apply, id]
  refine ⟨?_, ?_, ⟨Y.submatrix (J.sumCongr J) id, ?_⟩, h4⟩
  · rw [turnP_rev hx hy hc, hs, h1, hr]
  · rw [turnR_rev hx hy hc, hs, h2, hr]
  · rw [hr, ← hY]

/-- A layer with the magnetic fields turned. -/
noncomputable def turnL (L : Spec.SLayer (m ⊕ m)) : Spec.SLayer (m ⊕ m) := ⟨L.W, jXY * L.V, L.q, L.d⟩

theorem crosses_turn {k0 : ℝ} {L : Spec.SLayer (m ⊕ m)} {E H E' H' : m ⊕ m → ℂ} (h : Spec.Crosses k0 L E H E' H') :
    Spec.Crosses k0 (turnL L) E (jXY *ᵥ H) E' (jXY *ᵥ H') := by
  obtain ⟨u, v, h1, h2, h3, h4⟩ := h
  refine ⟨u, v, h1, ?_, h3, ?_⟩
  · rw [h2, mulVec_mulVec]; rfl
  · rw [h4, mulVec_mulVec]; rfl

theorem through_turn {k0 : ℝ} : ∀ {Ls : List (Spec.SLayer (m ⊕ m))} {E H E' H' : m ⊕ m → ℂ}, Spec.Through k0 Ls E H E' H' →
    Spec.Through k0 (Ls.map turnL) E (jXY *ᵥ H) E' (jXY *ᵥ H')
  | [], _, _, _, _, ⟨h1, h2⟩ => ⟨h1, by rw [h2]⟩
  | _ :: _, _, _, _, _, ⟨_, _, h1, h2⟩ => ⟨_, _, crosses_turn h1, through_turn h2⟩

/-- The bilinear form in a half space with a symmetric admittance. -/
theorem half_bil_2d {n : Type} [Fintype n] [DecidableEq n] {J : n ≃ n} {Y Y' : Matrix n n ℂ} (hs : Yᵀ = Y) (hY : Y'.submatrix J J = Y) (a b a' b' : n → ℂ) :
    bil (a + b) (Y *ᵥ (a - b)) ((a' + b') ∘ J) ((Y' *ᵥ (a' - b')) ∘ J) = 2 * (b ⬝ᵥ (Y *ᵥ (a' ∘ J)) - a ⬝ᵥ (Y *ᵥ (b' ∘ J))) := by
  have e : ∀ x : n → ℂ, (Y' *ᵥ x) ∘ J = Y *ᵥ (x ∘ J) := by
    intro x
    rw [← hY]
    funext i
    simp only [Function.comp, mulVec, dotProduct, submatrix_apply]
    exact (J.sum_comp fun j => Y' (J i) j * x j).symm
  have e2 : ∀ x y : n → ℂ, (Y *ᵥ x) ⬝ᵥ y = x ⬝ᵥ (Y *ᵥ y) := by
    intro x y
    rw [dotProduct_mulVec, ← mulVec_transpose, hs]
  have e3 : (a' + b') ∘ J = a' ∘ J + b' ∘ J := rfl
  have e4 : (a' - b') ∘ J = a' ∘ J - b' ∘ J := rfl
  unfold bil
  rw [e, e2, e3, e4]
  simp only [mulVec_add, mulVec_sub, dotProduct_add, dotProduct_sub, add_dotProduct, sub_dotProduct]
  ring

theorem half_sym {kx ky : m → ℂ} {e : ℂ} (he : e ≠ 0) (h0 : ∀ i, kx i * ky i ≠ 0) (hz : ∀ i, Spec.depthWave e kx ky i ≠ 0) {V : Matrix (m ⊕ m) (m ⊕ m) ℂ} {K : m → ℂ}
    (h : homogeneous_module kx ky e = .ok (V, K)) :
    jXY * V = fromBlocks (diagonal fun i => (e - ky i ^ 2) * (Complex.I * Spec.depthWave e kx ky i)⁻¹) (diagonal fun i => kx i * ky i * (Complex.I * Spec.depthWave e kx ky i)⁻¹)
      (diagonal fun i => kx i * ky i * (Complex.I * Spec.depthWave e kx ky i)⁻¹) (diagonal fun i => (e - kx i ^ 2) * (Complex.I * Spec.depthWave e kx ky i)⁻¹) := by
  rw [homogeneous_module_value he h0 hz] at h
  obtain ⟨rfl, -⟩ := Prod.mk.inj (Except.ok.inj h)
  rw [← Matrix.mul_assoc, turnR_eq]
  unfold turnR Spec.constant
  dsimp only
  rw [← fromBlocks_diagonal, fromBlocks_multiply]
  simp only [Matrix.diagonal_sub, diagonal_mul_diagonal, Matrix.mul_zero, zero_add, add_zero]

theorem half_sym_rev {J : m ≃ m} {kx ky kx' ky' : m → ℂ} (hx : ∀ i, kx' (J i) = -kx i) (hy : ∀ i, ky' (J i) = -ky i) {e : ℂ} (he : e ≠ 0) (h0 : ∀ i, kx i * ky i ≠ 0)
    (hz : ∀ i, Spec.depthWave e kx ky i ≠ 0) {V V' : Matrix (m ⊕ m) (m ⊕ m) ℂ} {K K' : m → ℂ} (h : homogeneous_module kx ky e = .ok (V, K))
    (h' : homogeneous_module kx' ky' e = .ok (V', K')) : (jXY * V)ᵀ = jXY * V ∧ (jXY * V').submatrix (J.sumCongr J) (J.sumCongr J) = jXY * V := by
  have hw : ∀ i, Spec.depthWave e kx' ky' (J i) = Spec.depthWave e kx ky i := fun i => by
    unfold Spec.depthWave
    rw [hx, hy, neg_sq, neg_sq]
  have h0' : ∀ i, kx' i * ky' i ≠ 0 := fun i => by
    obtain ⟨i, rfl⟩ := J.surjective i
    rw [hx, hy, neg_mul_neg]
    exact h0 i
  have hz' : ∀ i, Spec.depthWave e kx' ky' i ≠ 0 := fun i => by
    obtain ⟨i, rfl⟩ := J.surjective i
    rw [hw]
    exact hz i
  rw [half_sym he h0 hz h, half_sym he h0' hz' h']
  have hJ : ∀ (d : m → ℂ) (i j), diagonal d (J i) (J j) = diagonal (d ∘ J) i j := fun d i j => congrFun (congrFun (submatrix_diagonal_equiv d J) i) j
  refine ⟨?_, ?_⟩
  · rw [fromBlocks_transpose]
    simp only [diagonal_transpose]
  · ext a b
    rcases a with i | i <;> rcases b with j | j <;> simp [hJ, Function.comp_def, hx, hy, hw]

theorem homogeneous_module_neg (kx ky : m → ℂ) (e : ℂ) : homogeneous_module (fun i => -kx i) (fun i => -ky i) e = homogeneous_module kx ky e := by
  unfold homogeneous_module
  simp only [neg_mul_neg, neg_sq, neg_neg, neg_mul]
  simp

theorem scattering_2d_wv_neg (la : LinAlg) (kx ky : m → ℂ) (c : Conv m) : scattering_2d_wv la (fun i => -kx i) (fun i => -ky i) c = scattering_2d_wv la kx ky c := by
  have hd : ∀ k : m → ℂ, (diagonal fun i => -k i : Matrix m m ℂ) = -diagonal k := fun k => (diagonal_neg k).symm
  unfold scattering_2d_wv P_Q_kz
  simp only [hd, Matrix.neg_mul, Matrix.mul_neg, neg_neg]

theorem revF_eq {fx fy : ℕ} (i : FlatIdx fx fy) : revF i = i.rev := by
  have h1 : (revF i : ℕ) % (2 * fx + 1) = (2 * fx + 1) - ((i : ℕ) % (2 * fx + 1) + 1) := congrArg Fin.val (revF_mod i)
  have h2 : (revF i : ℕ) / (2 * fx + 1) = (2 * fy + 1) - ((i : ℕ) / (2 * fx + 1) + 1) := congrArg Fin.val (revF_div i)
  have h3 := Nat.div_add_mod (revF i : ℕ) (2 * fx + 1)
  have h4 := Nat.div_add_mod (i : ℕ) (2 * fx + 1)
  have h5 : (i : ℕ) % (2 * fx + 1) < 2 * fx + 1 := Nat.mod_lt _ (by omega)
  have h6 : (i : ℕ) / (2 * fx + 1) < 2 * fy + 1 := i.divNat.isLt
  apply Fin.ext
  rw [Fin.val_rev, ← h3, h1, h2]
  clear h1 h2 h3
  generalize (i : ℕ) = v at *
  obtain ⟨k, hk⟩ := Nat.exists_eq_add_of_lt h6
  generalize v % (2 * fx + 1) = r at *
  generalize v / (2 * fx + 1) = d at *
  clear i
  generalize 2 * fx + 1 = w at *
  have e : (2 * fy + 1) - (d + 1) = k := by omega
  rw [e, ← h4, hk, show (d + k + 1) * w = w * d + w * k + w by ring]
  omega

theorem reaction_eq (V : Matrix (m ⊕ m) (m ⊕ m) ℂ) (a b : m ⊕ m → ℂ) : Spec.reaction V a b = -(a ⬝ᵥ ((jXY * V) *ᵥ b)) := by
  unfold Spec.reaction
  rw [← mulVec_mulVec]
  generalize V *ᵥ b = H
  unfold jXY
  simp only [dotProduct, Fintype.sum_sum_type, Finset.sum_sub_distrib, fromBlocks_mulVec, Sum.elim_inl, Sum.elim_inr, zero_mulVec, neg_mulVec, one_mulVec,
    Pi.add_apply, Pi.neg_apply, Pi.zero_apply, Function.comp, zero_add, add_zero, mul_neg, Finset.sum_neg_distrib]
  ring

/-- A field of the opposite circular polarization. -/
noncomputable def anticircular (m : Type) (z : ℂ) : m ⊕ m → ℂ := Sum.elim (fun _ => z) fun _ => -(Complex.I * z)

theorem circ_anti (p q z : ℂ) : circ m p q *ᵥ anticircular m z = anticircular m ((p - Complex.I * q) * z) := by
  unfold circ anticircular
  rw [fromBlocks_mulVec]
  funext j
  rcases j with i | i
  · simp only [Sum.elim_inl, Sum.elim_inr, Pi.add_apply, mulVec_diagonal, Function.comp]
    ring
  · simp only [Sum.elim_inl, Sum.elim_inr, Pi.add_apply, mulVec_diagonal, Function.comp]
    linear_combination -q * z * Complex.I_sq

omit [Fintype m] [DecidableEq m] in
theorem anti_add (y z : ℂ) : anticircular m y + anticircular m z = anticircular m (y + z) := by
  funext j
  rcases j with i | i
  · simp [anticircular]
  · simp [anticircular, mul_add, add_comm]

omit [Fintype m] [DecidableEq m] in
theorem anti_sub (y z : ℂ) : anticircular m y - anticircular m z = anticircular m (y - z) := by
  funext j
  rcases j with i | i
  · simp [anticircular]
  · simp [anticircular]; ring

theorem reaction_circ (p q y z : ℂ) : Spec.reaction (circ m p q) (circular m y) (anticircular m z) = Fintype.card m * (-2 * Complex.I * y * ((p - Complex.I * q) * z)) := by
  unfold Spec.reaction
  rw [circ_anti]
  unfold circular anticircular
  simp only [Sum.elim_inl, Sum.elim_inr, Finset.sum_const, Finset.card_univ, nsmul_eq_mul]
  ring

/-- The matrix of the interface between air and glass exists at normal incidence. -/
theorem normal_matrix (k0 : ℝ) : ∃ S, Spec.scatteringMatrix k0 (circ m (-Complex.I * (1 / 10 ^ 10) / (1 : ℝ)) (-Complex.I * (1 : ℝ)))
    (circ m (-Complex.I * (1 / 10 ^ 10) / (1 : ℝ)) (-Complex.I * (1 : ℝ))) (circ m (-Complex.I * (1 / 10 ^ 10) / (2 : ℝ)) (-Complex.I * (2 : ℝ))) [] = .ok S := by
  set Vr := circ m (-Complex.I * (1 / 10 ^ 10) / (1 : ℝ)) (-Complex.I * (1 : ℝ)) with hVr
  set Vt := circ m (-Complex.I * (1 / 10 ^ 10) / (2 : ℝ)) (-Complex.I * (2 : ℝ)) with hVt
  have hu : IsUnit Vr.det := circ_isUnit (by
    simp only [mul_pow, div_pow, neg_sq, Complex.I_sq]
    norm_num)
  have hs : IsUnit (Vr + Vt).det := by
    rw [hVr, hVt, circ_add]
    refine circ_isUnit ?_
    have : ∀ x y : ℂ, (-Complex.I * (1 / 10 ^ 10) / x + -Complex.I * (1 / 10 ^ 10) / y) ^ 2 + (-Complex.I * x + -Complex.I * y) ^ 2 =
        -((1 / 10 ^ 10 / x + 1 / 10 ^ 10 / y) ^ 2 + (x + y) ^ 2) := by
      intro x y
      linear_combination ((1 / 10 ^ 10 / x + 1 / 10 ^ 10 / y) ^ 2 + (x + y) ^ 2) * Complex.I_sq
    rw [this]
    push_cast
    norm_num
  have hA : IsUnit (1 + Vr⁻¹ * Vt).det := by
    have : (1 + Vr⁻¹ * Vt) = Vr⁻¹ * (Vr + Vt) := by rw [Matrix.mul_add, nonsing_inv_mul _ hu]
    rw [this, det_mul]
    exact (isUnit_nonsing_inv_det _ hu).mul hs
  exact ⟨_, Except.bind_ok.mpr ⟨_, half_same hu, Except.bind_ok.mpr ⟨_, S_RT_same _, Except.bind_ok.mpr ⟨_, rfl, Except.bind_ok.mpr ⟨_,
    Except.bind_ok.mpr ⟨_, npInv_ok.mpr ⟨hu, rfl⟩, rfl⟩, Except.bind_ok.mpr ⟨_, Except.bind_ok.mpr ⟨_, npInv_ok.mpr ⟨hA, rfl⟩, rfl⟩, star_one_left _⟩⟩⟩⟩⟩⟩

end Meent
