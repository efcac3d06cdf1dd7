import Verif.Lemmas.ScatteringEnergy
import Verif.Lemmas.Lorentz

/-!
# Reciprocity of scattering matrices (helper lemmas)
-/

open Matrix

namespace Meent

section
variable {n : Type} [Fintype n] [DecidableEq n]

/-- What the modes of a TE or TM layer solve. -/
structure Pencil (P R W V : Matrix n n ℂ) (q : n → ℂ) : Prop where
  left : P * V = W * diagonal q
  right : R * W = V * diagonal q
  fac : ∃ Y, V = Y * diagonal q
  root : ∃ l : n → ℂ, ∀ i, q i = csqrt (l i)

/-- The mixed products of the modes of a layer and of its transpose. -/
theorem Pencil.mixed {P R W V W' V' : Matrix n n ℂ} {q q' : n → ℂ} (h : Pencil P R W V q) (h' : Pencil Pᵀ Rᵀ W' V' q') :
    Wᵀ * V' = Vᵀ * W' ∧ ∀ i j, (Wᵀ * V') i j ≠ 0 → q i = q' j := by
  have e1 : diagonal q * (Wᵀ * V') = Vᵀ * W' * diagonal q' := by
    have := congrArg transpose h.left
    rw [transpose_mul, transpose_mul, diagonal_transpose] at this
    rw [← Matrix.mul_assoc, ← this, Matrix.mul_assoc, h'.left, Matrix.mul_assoc]
  have e2 : diagonal q * (Vᵀ * W') = Wᵀ * V' * diagonal q' := by
    have := congrArg transpose h.right
    rw [transpose_mul, transpose_mul, diagonal_transpose] at this
    rw [← Matrix.mul_assoc, ← this, Matrix.mul_assoc, h'.right, Matrix.mul_assoc]
  have e1 : ∀ i j, q i * (Wᵀ * V') i j = (Vᵀ * W') i j * q' j := fun i j => by
    have := congrFun (congrFun e1 i) j
    rwa [diagonal_mul, mul_diagonal] at this
  have e2 : ∀ i j, q i * (Vᵀ * W') i j = (Wᵀ * V') i j * q' j := fun i j => by
    have := congrFun (congrFun e2 i) j
    rwa [diagonal_mul, mul_diagonal] at this
  obtain ⟨Y, hY⟩ := h.fac
  obtain ⟨Y', hY'⟩ := h'.fac
  obtain ⟨l, hl⟩ := h.root
  obtain ⟨l', hl'⟩ := h'.root
  have z1 : ∀ i j, q' j = 0 → (Wᵀ * V') i j = 0 := fun i j h0 => by
    rw [hY', ← Matrix.mul_assoc, mul_diagonal, h0, mul_zero]
  have z2 : ∀ i j, q i = 0 → (Vᵀ * W') i j = 0 := fun i j h0 => by
    rw [hY, transpose_mul, diagonal_transpose, Matrix.mul_assoc, diagonal_mul, h0, zero_mul]
  have key : ∀ i j, q i ^ 2 = q' j ^ 2 → q i = q' j := fun i j h0 => by
    rw [hl, hl', csqrt_sq, csqrt_sq] at h0
    rw [hl, hl', h0]
  have hne : ∀ i j, (Wᵀ * V') i j ≠ 0 → q i = q' j := fun i j h0 => by
    refine key i j (mul_right_cancel₀ h0 ?_)
    linear_combination q i * e1 i j + q' j * e2 i j
  refine ⟨?_, hne⟩
  ext i j
  by_cases h0 : (Wᵀ * V') i j = 0
  · rw [h0]
    by_cases hq : q i = 0
    · exact (z2 i j hq).symm
    · have := e2 i j
      rw [h0, zero_mul] at this
      exact ((mul_eq_zero.mp this).resolve_left hq).symm
  · have hq := hne i j h0
    have hq0 : q' j ≠ 0 := fun h => h0 (z1 i j h)
    refine mul_right_cancel₀ hq0 ?_
    rw [← e1, hq, mul_comm]

theorem dot_mulVec (A B : Matrix n n ℂ) (x y : n → ℂ) : (A *ᵥ x) ⬝ᵥ (B *ᵥ y) = x ⬝ᵥ ((Aᵀ * B) *ᵥ y) := by
  rw [← mulVec_mulVec, dotProduct_mulVec x Aᵀ, vecMul_transpose]

/-- The bilinear form of two fields. -/
def bil (E H F G : n → ℂ) : ℂ := E ⬝ᵥ G - H ⬝ᵥ F

theorem crosses_bil {P R : Matrix n n ℂ} {k0 : ℝ} {J : n ≃ n} {L L' : Spec.SLayer n} (hd : L'.d = L.d) (h : Pencil P R L.W L.V L.q)
    (h' : Pencil Pᵀ Rᵀ (L'.W.submatrix J id) (L'.V.submatrix J id) L'.q) {E H E₁ H₁ F G F₁ G₁ : n → ℂ} (hc : Spec.Crosses k0 L E H E₁ H₁)
    (hc' : Spec.Crosses k0 L' F G F₁ G₁) : bil E H (F ∘ J) (G ∘ J) = bil E₁ H₁ (F₁ ∘ J) (G₁ ∘ J) := by
  obtain ⟨u, v, rfl, rfl, rfl, rfl⟩ := hc
  obtain ⟨u', v', rfl, rfl, rfl, rfl⟩ := hc'
  obtain ⟨hM, hq⟩ := h.mixed h'
  have hs : ∀ (M : Matrix n n ℂ) (x : n → ℂ), (M *ᵥ x) ∘ J = M.submatrix J id *ᵥ x := fun _ _ => rfl
  unfold bil
  simp only [hs, dot_mulVec]
  rw [← hM]
  set M := L.Wᵀ * L'.V.submatrix J id
  have hX : L.X k0 * M = M * L'.X k0 := by
    ext i j
    unfold Spec.SLayer.X
    rw [diagonal_mul, mul_diagonal, hd]
    by_cases h0 : M i j = 0
    · rw [h0, mul_zero, zero_mul]
    · rw [hq i j h0, mul_comm]
  have hX' : ∀ x y : n → ℂ, (L.X k0 *ᵥ x) ⬝ᵥ (M *ᵥ y) = x ⬝ᵥ (M *ᵥ (L'.X k0 *ᵥ y)) := by
    intro x y
    rw [dot_mulVec, mulVec_mulVec, ← hX]
    unfold Spec.SLayer.X
    rw [diagonal_transpose]
  simp only [mulVec_add, mulVec_sub, dotProduct_add, dotProduct_sub, add_dotProduct, sub_dotProduct, hX']
  ring

theorem through_bil {k0 : ℝ} {J : n ≃ n} : ∀ {Ls Ls' : List (Spec.SLayer n)} (_ : List.Forall₂ (fun L L' => L'.d = L.d ∧ ∃ P R, Pencil P R L.W L.V L.q ∧
      Pencil Pᵀ Rᵀ (L'.W.submatrix J id) (L'.V.submatrix J id) L'.q) Ls Ls') {E H E₁ H₁ F G F₁ G₁ : n → ℂ}, Spec.Through k0 Ls E H E₁ H₁ → Spec.Through k0 Ls' F G F₁ G₁ →
    bil E H (F ∘ J) (G ∘ J) = bil E₁ H₁ (F₁ ∘ J) (G₁ ∘ J)
  | _, _, .nil, _, _, _, _, _, _, _, _, ⟨h1, h2⟩, ⟨h3, h4⟩ => by rw [h1, h2, h3, h4]
  | _, _, .cons ⟨hd, _, _, p, p'⟩ hl, _, _, _, _, _, _, _, _, ⟨_, _, h1, h2⟩, ⟨_, _, h3, h4⟩ => (crosses_bil hd p p' h1 h3).trans (through_bil hl h2 h4)

theorem half_bil {J : n ≃ n} {y y' : n → ℂ} (hy : ∀ i, y' (J i) = y i) (a b a' b' : n → ℂ) :
    bil (a + b) (diagonal y *ᵥ (a - b)) ((a' + b') ∘ J) ((diagonal y' *ᵥ (a' - b')) ∘ J) = 2 * ∑ i, y i * (b i * a' (J i) - a i * b' (J i)) := by
  unfold bil dotProduct
  rw [← Finset.sum_sub_distrib, Finset.mul_sum]
  refine Finset.sum_congr rfl fun i _ => ?_
  simp only [Function.comp, mulVec_diagonal, Pi.add_apply, Pi.sub_apply, hy]
  ring

theorem homogeneous_even {J : n ≃ n} {kx kx' : n → ℂ} {nn : ℂ} {pol : Option ℝ} {V V' : Matrix n n ℂ} {K K' : n → ℂ} (hk : ∀ i, kx' (J i) = -kx i)
    (h : homogeneous_1D kx nn pol = .ok (V, K)) (h' : homogeneous_1D kx' nn pol = .ok (V', K')) :
    ∃ y y' : n → ℂ, V = diagonal y ∧ V' = diagonal y' ∧ ∀ i, y' (J i) = y i := by
  obtain ⟨A, hA, h⟩ := Except.bind_ok.mp h
  obtain ⟨A', hA', h'⟩ := Except.bind_ok.mp h'
  obtain ⟨hd, rfl⟩ := npInv_ok.mp hA
  obtain ⟨hd', rfl⟩ := npInv_ok.mp hA'
  obtain ⟨rfl, -⟩ := Prod.mk.inj (Except.ok.inj h)
  obtain ⟨rfl, -⟩ := Prod.mk.inj (Except.ok.inj h')
  have hu : ∀ {d : n → ℂ}, IsUnit (diagonal d).det → ∀ i, d i ≠ 0 := fun h i => by
    rw [det_diagonal, isUnit_iff_ne_zero] at h
    exact Finset.prod_ne_zero_iff.mp h i (Finset.mem_univ i)
  rw [inv_diagonal' (hu hd), inv_diagonal' (hu hd'), diagonal_mul_diagonal, diagonal_mul_diagonal]
  refine ⟨_, _, rfl, rfl, fun i => ?_⟩
  by_cases hp : pol.getD 0 = 0
  · simp only [if_pos hp, hk, neg_sq]
  · simp only [if_neg hp, hk, neg_sq]

theorem modes1d_pencil {la : LinAlg} {pol : ℝ} {kx : n → ℂ} {c : Conv n} {m : Modes n} (h : transfer_1d_2 la pol kx c false = .ok m) :
    Pencil (if pol = 0 then 1 else c.epx) (if pol = 0 then diagonal (fun i => kx i ^ 2) - c.epy else diagonal kx * c.epzi * diagonal kx - 1) m.W m.V m.q := by
  unfold transfer_1d_2 at h
  simp only at h
  split at h
  · rename_i h0
    simp only [Except.ok.injEq] at h
    subst h
    rw [if_pos h0, if_pos h0]
    have hA := la.eig_law (diagonal (fun i => kx i ^ 2) - c.epy)
    refine ⟨?_, ?_, ⟨_, rfl⟩, ⟨_, fun _ => rfl⟩⟩
    · simp
    · rw [hA, Matrix.mul_assoc, diag_csqrt_mul]
  · rename_i h0
    rw [if_neg h0, if_neg h0]
    split at h
    · simp only [Except.bind_ok, meeinv_false_ok] at h
      obtain ⟨M, ⟨hu, rfl⟩, e⟩ := h
      simp only [Except.ok.injEq] at e
      subst e
      set B := diagonal kx * c.epzi * diagonal kx - 1 with hB
      have hE := la.eig_law (c.epx * B)
      refine ⟨?_, ?_, ⟨_, rfl⟩, ⟨_, fun _ => rfl⟩⟩
      · simp only [← Matrix.mul_assoc]
        rw [mul_nonsing_inv _ hu, Matrix.one_mul]
      · simp only [Matrix.mul_assoc]
        rw [diag_csqrt_mul, ← hE, ← Matrix.mul_assoc, ← Matrix.mul_assoc, nonsing_inv_mul _ hu, Matrix.one_mul]
    · cases h

/-- The modes for the opposite side, renumbered, solve the transposed equations. -/
theorem modes1d_pencil_rev {la : LinAlg} {pol : ℝ} {J : n ≃ n} {kx kx' : n → ℂ} (hk : ∀ i, kx' (J i) = -kx i) {c : Conv n} (hc : c.reindex J = c.tr) {m : Modes n}
    (h : transfer_1d_2 la pol kx' c false = .ok m) :
    Pencil (if pol = 0 then 1 else c.epx)ᵀ (if pol = 0 then diagonal (fun i => kx i ^ 2) - c.epy else diagonal kx * c.epzi * diagonal kx - 1)ᵀ
      (m.W.submatrix J id) (m.V.submatrix J id) m.q := by
  obtain ⟨h1, h2, ⟨Y, hY⟩, h4⟩ := modes1d_pencil h
  have c1 : c.epx.submatrix J J = c.epxᵀ := congrArg Conv.epx hc
  have c2 : c.epy.submatrix J J = c.epyᵀ := congrArg Conv.epy hc
  have c3 : c.epzi.submatrix J J = c.epziᵀ := congrArg Conv.epzi hc
  have eP : (if pol = 0 then 1 else c.epx : Matrix n n ℂ)ᵀ = (if pol = 0 then 1 else c.epx : Matrix n n ℂ).submatrix J J := by
    split
    · rw [transpose_one, submatrix_one_equiv]
    · exact c1.symm
  have eR : (if pol = 0 then diagonal (fun i => kx i ^ 2) - c.epy else diagonal kx * c.epzi * diagonal kx - 1 : Matrix n n ℂ)ᵀ =
      (if pol = 0 then diagonal (fun i => kx' i ^ 2) - c.epy else diagonal kx' * c.epzi * diagonal kx' - 1 : Matrix n n ℂ).submatrix J J := by
    split
    · rw [transpose_sub, diagonal_transpose, ← c2]
      ext i j
      simp only [Matrix.sub_apply, submatrix_apply, diagonal_apply, J.injective.eq_iff, hk, neg_sq]
    · rw [transpose_sub, transpose_mul, transpose_mul, diagonal_transpose, transpose_one, ← c3]
      ext i j
      simp only [Matrix.sub_apply, submatrix_apply, mul_diagonal, diagonal_mul, one_apply, J.injective.eq_iff, hk]
      ring
  have hs : ∀ M N : Matrix n n ℂ, M.submatrix J J * N.submatrix J id = (M * N).submatrix J id := fun M N => (submatrix_mul_equiv M N J J id)
  have hr : ∀ (M : Matrix n n ℂ) (d : n → ℂ), M.submatrix J id * diagonal d = (M * diagonal d).submatrix J id := fun M d => by
    ext i j
    simp only [mul_diagonal, submatrix_apply, id]
  refine ⟨?_, ?_, ⟨Y.submatrix J id, ?_⟩, h4⟩
  · rw [eP, hs, h1, hr]
  · rw [eR, hs, h2, hr]
  · rw [hr, ← hY]

end

end Meent
