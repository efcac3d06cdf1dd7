import Verif.Model.Transfer1D

/-!
# Algebra of one transfer-matrix step

Helper lemmas, generic in the index type: inversion of the model's error monad, the wave picture of
one step, conservation of the Lorentz flux.
-/

open Matrix

namespace Meent

theorem Except.bind_ok {ε α β : Type} {x : Except ε α} {f : α → Except ε β} {b : β} :
    (x >>= f) = .ok b ↔ ∃ a, x = .ok a ∧ f a = .ok b := by
  cases x <;> simp [bind, Except.bind]

set_option linter.unusedSectionVars false
set_option linter.unusedSimpArgs false

variable {n : Type} [Fintype n] [DecidableEq n]

theorem npInv_ok {A M : Matrix n n ℂ} : npInv A = .ok M ↔ IsUnit A.det ∧ M = A⁻¹ := by
  unfold npInv
  split
  · rename_i h; constructor
    · intro e; exact ⟨h, by simpa using e.symm⟩
    · rintro ⟨_, rfl⟩; rfl
  · rename_i h; constructor
    · intro e; cases e
    · rintro ⟨h', _⟩; exact absurd h' h

theorem meeinv_false_ok {la : LinAlg} {A M : Matrix n n ℂ} :
    meeinv la A false = .ok M ↔ IsUnit A.det ∧ M = A⁻¹ := by
  simp [meeinv, npInv_ok]

/-- The matrix `A` of a step. -/
noncomputable def stepA (W V : Matrix n n ℂ) (s : TState n) : Matrix n n ℂ :=
  (1 / 2 : ℂ) • (W⁻¹ * s.F + V⁻¹ * s.G)

/-- Everything a successful step tells us (with `use_pinv = False`). -/
structure StepData (X W V : Matrix n n ℂ) (s s' : TState n) (Ai B : Matrix n n ℂ) : Prop where
  hW : IsUnit W.det
  hV : IsUnit V.det
  hA : IsUnit (stepA W V s).det
  Ai_eq : Ai = (stepA W V s)⁻¹
  B_eq : B = (1 / 2 : ℂ) • (W⁻¹ * s.F - V⁻¹ * s.G)
  s'_eq : s' = { F := W * (1 + X * B * Ai * X), G := V * (1 - X * B * Ai * X),
                 T := s.T * Ai * X }

theorem tmmStep_ok {la : LinAlg} {X W V : Matrix n n ℂ} {s s' : TState n} {Ai B : Matrix n n ℂ} :
    tmmStep la false X W V s = .ok (s', Ai, B) ↔ StepData X W V s s' Ai B := by
  unfold tmmStep
  simp only [Except.bind_ok, meeinv_false_ok]
  constructor
  · rintro ⟨W_i, ⟨hW, rfl⟩, V_i, ⟨hV, rfl⟩, A_i, ⟨hA, rfl⟩, e⟩
    simp only [Except.ok.injEq, Prod.mk.injEq] at e
    obtain ⟨rfl, rfl, rfl⟩ := e
    exact ⟨hW, hV, hA, rfl, rfl, rfl⟩
  · rintro ⟨hW, hV, hA, rfl, rfl, rfl⟩
    exact ⟨_, ⟨hW, rfl⟩, _, ⟨hV, rfl⟩, _, ⟨hA, rfl⟩, rfl⟩

namespace StepData
variable {X W V : Matrix n n ℂ} {s s' : TState n} {Ai B : Matrix n n ℂ}

theorem A_mul_Ai (h : StepData X W V s s' Ai B) : stepA W V s * Ai = 1 := by
  rw [h.Ai_eq]; exact mul_nonsing_inv _ h.hA

theorem Ai_mul_A (h : StepData X W V s s' Ai B) : Ai * stepA W V s = 1 := by
  rw [h.Ai_eq]; exact nonsing_inv_mul _ h.hA

theorem F_eq (h : StepData X W V s s' Ai B) : s.F = W * (stepA W V s + B) := by
  have : stepA W V s + B = W⁻¹ * s.F := by
    rw [h.B_eq, stepA, ← smul_add]
    rw [show W⁻¹ * s.F + V⁻¹ * s.G + (W⁻¹ * s.F - V⁻¹ * s.G) = (2 : ℂ) • (W⁻¹ * s.F) by
      rw [two_smul]; abel, smul_smul]
    norm_num
  rw [this, ← Matrix.mul_assoc, mul_nonsing_inv _ h.hW, Matrix.one_mul]

theorem G_eq (h : StepData X W V s s' Ai B) : s.G = V * (stepA W V s - B) := by
  have : stepA W V s - B = V⁻¹ * s.G := by
    rw [h.B_eq, stepA, ← smul_sub]
    rw [show W⁻¹ * s.F + V⁻¹ * s.G - (W⁻¹ * s.F - V⁻¹ * s.G) = (2 : ℂ) • (V⁻¹ * s.G) by
      rw [two_smul]; abel, smul_smul]
    norm_num
  rw [this, ← Matrix.mul_assoc, mul_nonsing_inv _ h.hV, Matrix.one_mul]

/-- Field `S` below the layer in terms of up/down waves. -/
theorem F_Ai (h : StepData X W V s s' Ai B) : s.F * Ai = W * (1 + B * Ai) := by
  rw [h.F_eq, Matrix.mul_assoc, Matrix.add_mul, h.A_mul_Ai]

theorem G_Ai (h : StepData X W V s s' Ai B) : s.G * Ai = V * (1 - B * Ai) := by
  rw [h.G_eq, Matrix.mul_assoc, Matrix.sub_mul, h.A_mul_Ai]

end StepData

/-! ### Lorentz flux -/

/-- The form `uᴴ N v`. -/
noncomputable def beta (N : Matrix n n ℂ) (u v : n → ℂ) : ℂ := star u ⬝ᵥ (N *ᵥ v)

theorem beta_add_left (N : Matrix n n ℂ) (u u' v : n → ℂ) :
    beta N (u + u') v = beta N u v + beta N u' v := by
  simp [beta, star_add, add_dotProduct]

theorem beta_add_right (N : Matrix n n ℂ) (u v v' : n → ℂ) :
    beta N u (v + v') = beta N u v + beta N u v' := by
  simp [beta, mulVec_add, dotProduct_add]

theorem beta_sub_right (N : Matrix n n ℂ) (u v v' : n → ℂ) :
    beta N u (v - v') = beta N u v - beta N u v' := by
  simp [beta, mulVec_sub, dotProduct_sub]

theorem beta_mulVec_left (N M : Matrix n n ℂ) (u v : n → ℂ) :
    beta N (M *ᵥ u) v = beta (Mᴴ * N) u v := by
  simp [beta, star_mulVec, ← mulVec_mulVec, dotProduct_mulVec, vecMul_vecMul]

theorem beta_mulVec_right (N M : Matrix n n ℂ) (u v : n → ℂ) :
    beta N u (M *ᵥ v) = beta (N * M) u v := by
  simp [beta, mulVec_mulVec]

theorem beta_add_mat (N M : Matrix n n ℂ) (u v : n → ℂ) :
    beta (N + M) u v = beta N u v + beta M u v := by
  simp [beta, add_mulVec, dotProduct_add]

theorem beta_sub_mat (N M : Matrix n n ℂ) (u v : n → ℂ) :
    beta (N - M) u v = beta N u v - beta M u v := by
  simp [beta, sub_mulVec, dotProduct_sub]

theorem star_beta (N : Matrix n n ℂ) (u v : n → ℂ) :
    star (beta N u v) = beta Nᴴ v u := by
  simp only [beta]
  rw [← star_dotProduct_star, star_star, star_mulVec, dotProduct_comm]
  rw [dotProduct_mulVec, dotProduct_comm]

/-- The power-like form `Im (Sᴴ J U)`. -/
noncomputable def flux (J : Matrix n n ℂ) (S U : n → ℂ) : ℝ := (beta J S U).im

theorem im_eq_of_sub_star {z w : ℂ} (h : z - star z = w - star w) : z.im = w.im := by
  have := congrArg Complex.im h
  simp at this
  linarith

/-- The two conditions on the modal overlap that make the flux constant across a layer. -/
theorem flux_balance (N X : Matrix n n ℂ)
    (hD : Xᴴ * (N - Nᴴ) * X = N - Nᴴ) (hH : (N + Nᴴ) * X = Xᴴ * (N + Nᴴ)) (a b : n → ℂ) :
    (beta N (a + X *ᵥ b) (a - X *ᵥ b)).im = (beta N (X *ᵥ a + b) (X *ᵥ a - b)).im := by
  apply im_eq_of_sub_star
  simp only [star_beta]
  simp only [beta_add_left, beta_sub_right, beta_add_right, beta_mulVec_left, beta_mulVec_right]
  simp only [sub_eq_add_neg, beta_add_left, beta_mulVec_left]
  have neg_left : ∀ (M : Matrix n n ℂ) (u v : n → ℂ), beta M (-u) v = - beta M u v := by
    intro M u v; simp [beta]
  simp only [neg_left, beta_mulVec_left]
  have e1 : ∀ u v, beta (Xᴴ * N * X) u v - beta (Xᴴ * Nᴴ * X) u v = beta N u v - beta Nᴴ u v := by
    intro u v
    rw [← beta_sub_mat, ← beta_sub_mat, ← hD]
    congr 1
    rw [Matrix.mul_sub, Matrix.sub_mul]
  have e2 : ∀ u v, beta (N * X) u v + beta (Nᴴ * X) u v = beta (Xᴴ * N) u v + beta (Xᴴ * Nᴴ) u v := by
    intro u v
    rw [← beta_add_mat, ← beta_add_mat, ← Matrix.add_mul, hH, Matrix.mul_add]
  have h1 := e1 a a
  have h2 := e1 b b
  have h3 := e2 a b
  have h4 := e2 b a
  simp only [Matrix.mul_assoc] at *
  linear_combination -h1 - h2 - h3 - h4

/-- Lossless modes: `N diag q` and `Nᴴ diag q` are Hermitian for the overlap `N = Wᴴ J V`. -/
structure Lossless (J W V : Matrix n n ℂ) (q : n → ℂ) : Prop where
  nq : (Wᴴ * J * V * diagonal q).IsHermitian
  nhq : ((Wᴴ * J * V)ᴴ * diagonal q).IsHermitian

theorem exp_star (k0 d : ℝ) (z : ℂ) :
    Complex.exp (-(k0 : ℂ) * star z * (d : ℂ)) = star (Complex.exp (-(k0 : ℂ) * z * (d : ℂ))) := by
  simp only [Complex.star_def, ← Complex.exp_conj, map_mul, map_neg, Complex.conj_ofReal]

theorem phase_conds (N : Matrix n n ℂ) (q : n → ℂ) (k0 d : ℝ)
    (h1 : (N * diagonal q).IsHermitian) (h2 : (Nᴴ * diagonal q).IsHermitian) :
    (phaseX k0 q d)ᴴ * (N - Nᴴ) * phaseX k0 q d = N - Nᴴ ∧
    (N + Nᴴ) * phaseX k0 q d = (phaseX k0 q d)ᴴ * (N + Nᴴ) := by
  have e1 : ∀ i j, N i j * q j = star (q i) * star (N j i) := by
    intro i j
    have := congrFun (congrFun h1 i) j
    simp only [conjTranspose_apply, mul_diagonal, star_mul'] at this
    rw [← this]; ring
  have e2 : ∀ i j, star (N j i) * q j = star (q i) * N i j := by
    intro i j
    have := congrFun (congrFun h2 i) j
    simp only [conjTranspose_apply, mul_diagonal, star_mul', star_star] at this
    rw [← this]; ring
  constructor
  · ext i j
    simp only [phaseX, diagonal_conjTranspose, mul_diagonal, diagonal_mul, Matrix.sub_apply,
      conjTranspose_apply, Pi.star_apply]
    by_cases hz : N i j - star (N j i) = 0
    · rw [hz]; simp
    · have hq : q j = - star (q i) := by
        have : (N i j - star (N j i)) * (q j + star (q i)) = 0 := by
          linear_combination e1 i j - e2 i j
        rcases mul_eq_zero.mp this with h | h
        · exact absurd h hz
        · linear_combination h
      rw [hq, ← exp_star]
      rw [mul_comm (Complex.exp _), mul_assoc, ← Complex.exp_add]
      simp
  · ext i j
    simp only [phaseX, diagonal_conjTranspose, mul_diagonal, diagonal_mul, Matrix.add_apply,
      conjTranspose_apply, Pi.star_apply]
    by_cases hz : N i j + star (N j i) = 0
    · rw [hz]; simp
    · have hq : q j = star (q i) := by
        have : (N i j + star (N j i)) * (q j - star (q i)) = 0 := by
          linear_combination e1 i j + e2 i j
        rcases mul_eq_zero.mp this with h | h
        · exact absurd h hz
        · linear_combination h
      rw [hq, exp_star]; ring

/-- The flux of the pair `(F t, G t)` above a lossless layer equals that below it. -/
theorem StepData.flux_eq {J W V : Matrix n n ℂ} {s s' : TState n} {Ai B : Matrix n n ℂ}
    {q : n → ℂ} {k0 d : ℝ} (h : StepData (phaseX k0 q d) W V s s' Ai B)
    (hl : Lossless J W V q) (t : n → ℂ) :
    flux J (s'.F *ᵥ t) (s'.G *ᵥ t) =
      flux J (s.F *ᵥ ((Ai * phaseX k0 q d) *ᵥ t)) (s.G *ᵥ ((Ai * phaseX k0 q d) *ᵥ t)) := by
  set X := phaseX k0 q d with hX
  obtain ⟨hD, hH⟩ := phase_conds (Wᴴ * J * V) q k0 d hl.nq hl.nhq
  rw [← hX] at hD hH
  set b : n → ℂ := (B * Ai * X) *ᵥ t with hb
  have t1 : s'.F *ᵥ t = W *ᵥ (t + X *ᵥ b) := by
    rw [h.s'_eq]
    simp only [hb, mulVec_mulVec, ← mulVec_add, Matrix.mul_add, Matrix.mul_one, Matrix.mul_assoc,
      add_mulVec, mulVec_add]
  have t2 : s'.G *ᵥ t = V *ᵥ (t - X *ᵥ b) := by
    rw [h.s'_eq]
    simp only [hb, mulVec_mulVec, Matrix.mul_sub, Matrix.mul_one, Matrix.mul_assoc,
      sub_mulVec, mulVec_sub]
  have b1 : s.F *ᵥ ((Ai * X) *ᵥ t) = W *ᵥ (X *ᵥ t + b) := by
    rw [mulVec_mulVec, ← Matrix.mul_assoc, h.F_Ai]
    simp only [hb, mulVec_mulVec, Matrix.mul_add, Matrix.add_mul, Matrix.mul_one, Matrix.one_mul,
      Matrix.mul_assoc, add_mulVec, mulVec_add]
  have b2 : s.G *ᵥ ((Ai * X) *ᵥ t) = V *ᵥ (X *ᵥ t - b) := by
    rw [mulVec_mulVec, ← Matrix.mul_assoc, h.G_Ai]
    simp only [hb, mulVec_mulVec, Matrix.mul_sub, Matrix.sub_mul, Matrix.mul_one, Matrix.one_mul,
      Matrix.mul_assoc, sub_mulVec, mulVec_sub]
  have key := flux_balance (Wᴴ * J * V) X hD hH t b
  simp only [flux]
  rw [t1, t2, b1, b2]
  simp only [beta_mulVec_left, beta_mulVec_right, ← Matrix.mul_assoc]
  exact key

/-- Modes of a layer with `P V = W Q`, `R W = V Q` are lossless when `J R` and `Jᴴ P` are
Hermitian. -/
theorem Lossless.of_PR {J P R W V : Matrix n n ℂ} {q : n → ℂ}
    (hP : P * V = W * diagonal q) (hR : R * W = V * diagonal q)
    (hJR : (J * R).IsHermitian) (hJP : (Jᴴ * P).IsHermitian) : Lossless J W V q := by
  constructor
  · have : Wᴴ * J * V * diagonal q = Wᴴ * (J * R) * W := by
      rw [Matrix.mul_assoc _ V, ← hR]; simp only [Matrix.mul_assoc]
    rw [this, IsHermitian, conjTranspose_mul, conjTranspose_mul, hJR.eq, conjTranspose_conjTranspose]
    simp only [Matrix.mul_assoc]
  · have : (Wᴴ * J * V)ᴴ * diagonal q = Vᴴ * (Jᴴ * P) * V := by
      simp only [conjTranspose_mul, conjTranspose_conjTranspose, Matrix.mul_assoc]
      rw [← hP]
    rw [this, IsHermitian, conjTranspose_mul, conjTranspose_mul, hJP.eq, conjTranspose_conjTranspose]
    simp only [Matrix.mul_assoc]

/-- Invariant of a lossless layer loop: all flux below the stack is carried by `T t`. -/
def FluxInv (J : Matrix n n ℂ) (s0 s : TState n) : Prop :=
  ∀ t, flux J (s.F *ᵥ t) (s.G *ᵥ t) =
    flux J (s0.F *ᵥ (s.T *ᵥ t)) (s0.G *ᵥ (s.T *ᵥ t))

theorem StepData.fluxInv {J W V : Matrix n n ℂ} {s0 s s' : TState n} {Ai B : Matrix n n ℂ}
    {q : n → ℂ} {k0 d : ℝ} (h : StepData (phaseX k0 q d) W V s s' Ai B)
    (hl : Lossless J W V q) (hi : FluxInv J s0 s) : FluxInv J s0 s' := by
  intro t
  rw [h.flux_eq hl, hi]
  rw [h.s'_eq]
  simp only [mulVec_mulVec, Matrix.mul_assoc]

/-- Induction principle for the layer loop. -/
theorem layerLoop_inv {S C L : Type} {step : C → ℝ → S → Res (S × L)} {convs : List C}
    {th : List ℝ} (P : S → Prop)
    (hstep : ∀ (i : ℕ) c d s r, convs[i]? = some c → th[i]? = some d → step c d s = .ok r → P s → P r.1) :
    ∀ (k : ℕ) (s : S × List L) (r : S × List L),
      layerLoop step convs th k s = .ok r → P s.1 → P r.1
  | 0, s, r, h, hs => by
    simp only [layerLoop, Except.ok.injEq] at h
    exact h ▸ hs
  | k + 1, s, r, h, hs => by
    simp only [layerLoop, Except.bind_ok] at h
    obtain ⟨c, hc, d, hd, x, hx, hr⟩ := h
    refine layerLoop_inv P hstep k _ r hr (hstep k c d s.1 x ?_ ?_ hx hs)
    · unfold getIdx at hc; split at hc <;> simp_all
    · unfold getIdx at hd; split at hd <;> simp_all

end Meent
