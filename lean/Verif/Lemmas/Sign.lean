import Verif.Lemmas.AbsorbModes
import Verif.Lemmas.AbsorbSolve
import Verif.Lemmas.Invariance

/-!
# Layers with loss or gain: the sign of the power balance (helper lemmas)

The sign is `1` for layers without gain and `-1` for layers without loss.
-/

open Matrix

namespace Meent

set_option linter.unusedSectionVars false
set_option linter.unusedSimpArgs false
set_option linter.unusedVariables false

section
variable {n : Type} [Fintype n] [DecidableEq n]

/-- The imaginary part of the quadratic form has the opposite sign of `σ`, or vanishes. -/
def Sgn (σ : ℝ) (M : Matrix n n ℂ) : Prop := ∀ v, σ * (beta M v v).im ≤ 0

theorem sgn_one {M : Matrix n n ℂ} : Sgn 1 M ↔ Lossy M := by simp [Sgn, Lossy]

theorem sgn_neg_one {M : Matrix n n ℂ} : Sgn (-1) M ↔ Gainy M := by simp [Sgn, Gainy]

theorem Sgn.inv {σ : ℝ} {M : Matrix n n ℂ} (h : Sgn σ M) (hu : IsUnit M.det) : Sgn (-σ) M⁻¹ := by
  intro v
  have e : v = M *ᵥ (M⁻¹ *ᵥ v) := by rw [mulVec_mulVec, mul_nonsing_inv _ hu, one_mulVec]
  have : beta M⁻¹ v v = beta Mᴴ (M⁻¹ *ᵥ v) (M⁻¹ *ᵥ v) := by
    conv_lhs => rw [e]
    rw [beta_mulVec_left, beta_mulVec_right, Matrix.mul_assoc, nonsing_inv_mul _ hu, Matrix.mul_one]
  rw [this, beta_im_conj]
  have := h (M⁻¹ *ᵥ v)
  linarith

theorem Sgn.submatrix {n' : Type} [Fintype n'] [DecidableEq n'] {σ : ℝ} {M : Matrix n n ℂ} (h : Sgn σ M) (e : n' → n) :
    Sgn σ (M.submatrix e e) := by
  intro v
  rw [beta_submatrix]
  exact h _

theorem beta_smul_mat (z : ℂ) (M : Matrix n n ℂ) (u v : n → ℂ) : beta (z • M) u v = z * beta M u v := by
  unfold beta
  rw [smul_mulVec, dotProduct_smul, smul_eq_mul]

theorem flux_smul_mat (σ : ℝ) (J : Matrix n n ℂ) (u v : n → ℂ) : flux ((σ : ℂ) • J) u v = σ * flux J u v := by
  unfold flux
  rw [beta_smul_mat, Complex.im_ofReal_mul]

/-- The convolution matrices of a layer whose media all have the sign `σ`. -/
structure SignConv (σ : ℝ) (c : Conv n) : Prop where
  x : Sgn σ c.epx
  y : Sgn σ c.epy
  z : Sgn (-σ) c.epzi

theorem Side.sgn {σ : ℝ} {M : Matrix n n ℂ} (h : Side ((σ : ℂ) * Complex.I) M) {v : n → ℂ} (hv : v ≠ 0) :
    σ * (beta M v v).im < 0 := by
  have := h v hv
  rw [mul_assoc, Complex.re_ofReal_mul, Complex.I_mul_re] at this
  linarith

end

theorem PosFun.sgn {N : ℕ} {L : (Fin N → ℂ) → ℤ → ℂ} (hL : PosFun L) {σ : ℝ} (hσ : σ = 1 ∨ σ = -1) (f : ℕ) {m : Type} [Fintype m]
    [DecidableEq m] {a : Fin N → Matrix m m ℂ} (h : ∀ x, Sgn σ (a x)) : Sgn σ (btoepL L f a) := by
  rcases hσ with rfl | rfl
  · rw [sgn_one]
    exact hL.lossy f m a fun x => sgn_one.mp (h x)
  · rw [sgn_neg_one]
    exact hL.gainy f m a fun x => sgn_neg_one.mp (h x)

theorem PosFun.toepL_sgn {N : ℕ} {L : (Fin N → ℂ) → ℤ → ℂ} (hL : PosFun L) {σ : ℝ} (hσ : σ = 1 ∨ σ = -1) (f : ℕ) {a : Fin N → ℂ}
    (ha : ∀ x, σ * (a x).im ≤ 0) : Sgn σ (toepL L f a) := by
  rcases hσ with rfl | rfl
  · rw [sgn_one]
    exact hL.toepL_lossy f fun x => by simpa using ha x
  · rw [sgn_neg_one]
    exact hL.toepL_gainy f fun x => by simpa using ha x

theorem sgn_recip {σ : ℝ} {z : ℂ} (h : σ * z.im ≤ 0) : -σ * (1 / z).im ≤ 0 := by
  rw [one_div, Complex.inv_im]
  have : -σ * (-z.im / Complex.normSq z) = σ * z.im / Complex.normSq z := by ring
  rw [this]
  exact div_nonpos_of_nonpos_of_nonneg h (Complex.normSq_nonneg _)

theorem neg_sign {σ : ℝ} (hσ : σ = 1 ∨ σ = -1) : -σ = 1 ∨ -σ = -1 := by
  rcases hσ with rfl | rfl <;> simp

/-- Convolution matrices keep the sign of the media. -/
theorem FromCell.sign {fx fy Nx Ny : ℕ} {Lx : (Fin Nx → ℂ) → ℤ → ℂ}
    {Ly : (Fin Ny → ℂ) → ℤ → ℂ} {cell : Fin Nx → Fin Ny → ℂ} {c : Conv (FlatIdx fx fy)}
    {epz : Matrix (FlatIdx fx fy) (FlatIdx fx fy) ℂ} {σ : ℝ} (hσ : σ = 1 ∨ σ = -1)
    (hLx : PosFun Lx) (hLy : PosFun Ly) (h : FromCell Lx Ly cell c epz)
    (hr : ∀ i j, σ * (cell i j).im ≤ 0) : SignConv σ c := by
  have hσ' := neg_sign hσ
  constructor
  · have hz := h.hx
    unfold genConv at hz
    simp only [Except.bind_ok, invRuleY_ok, invIf_ok] at hz
    obtain ⟨c', hc, a, ha, e⟩ := hz
    rcases hc with ⟨-, rfl⟩ | ⟨h, -⟩
    · rcases ha with ⟨h, -⟩ | ⟨-, hu, rfl⟩
      · simp at h
      · simp only [Bool.false_eq_true, if_false, npInv_ok] at e
        obtain ⟨hd, e⟩ := e
        rw [e]
        have := Sgn.inv ((hLx.sgn hσ' fx fun x => (hLy.toepL_sgn hσ fy (hr x)).inv (hu x)).submatrix finProdFinEquiv.symm) hd
        rwa [neg_neg] at this
    · simp at h
  · have hz := h.hy
    unfold genConv at hz
    simp only [Except.bind_ok, invRuleY_ok, invIf_ok] at hz
    obtain ⟨c', hc, a, ha, e⟩ := hz
    rcases hc with ⟨h, -⟩ | ⟨-, hne, rfl⟩
    · simp at h
    · rcases ha with ⟨h, -⟩ | ⟨-, hu, rfl⟩
      · simp at h
      · simp only [if_true, Except.ok.injEq] at e
        rw [← e]
        refine (hLx.sgn hσ fx fun x => ?_).submatrix finProdFinEquiv.symm
        have := (hLy.toepL_sgn hσ' fy fun y => sgn_recip (hr x y)).inv (hu x)
        rwa [neg_neg] at this
  · have hz := h.hz
    unfold genConv at hz
    simp only [Except.bind_ok, invRuleY_ok, invIf_ok] at hz
    obtain ⟨c', hc, a, ha, e⟩ := hz
    rcases hc with ⟨-, rfl⟩ | ⟨h, -⟩
    · rcases ha with ⟨-, rfl⟩ | ⟨h, -⟩
      · simp only [if_true, Except.ok.injEq] at e
        rw [h.hi]
        refine Sgn.inv ?_ h.hu
        rw [← e]
        exact (hLx.sgn hσ fx fun x => hLy.toepL_sgn hσ fy (hr x)).submatrix finProdFinEquiv.symm
      · simp at h
    · simp at h

/-! ### The layer loop -/

section
variable {n : Type} [Fintype n] [DecidableEq n]

/-- Every field gives flux to the stack. -/
def FluxStrict (J : Matrix n n ℂ) (s0 s : TState n) : Prop :=
  ∀ t, t ≠ 0 → flux J (s0.F *ᵥ (s.T *ᵥ t)) (s0.G *ᵥ (s.T *ᵥ t)) < flux J (s.F *ᵥ t) (s.G *ᵥ t)

theorem StepData.flux_lt {J W V : Matrix n n ℂ} {s s' : TState n} {Ai B : Matrix n n ℂ}
    {q : n → ℂ} {k0 d : ℝ} (hk : 0 < k0) (hd : 0 < d) (h : StepData (phaseX k0 q d) W V s s' Ai B)
    (hl : StrictOverlap (Wᴴ * J * V) q) (t : n → ℂ) (ht : t ≠ 0) :
    flux J (s.F *ᵥ ((Ai * phaseX k0 q d) *ᵥ t)) (s.G *ᵥ ((Ai * phaseX k0 q d) *ᵥ t))
      < flux J (s'.F *ᵥ t) (s'.G *ᵥ t) := by
  set X := phaseX k0 q d with hX
  set b : n → ℂ := (B * Ai * X) *ᵥ t with hb
  have t1 : s'.F *ᵥ t = W *ᵥ (t + X *ᵥ b) := by
    rw [h.s'_eq]
    simp only [hb, mulVec_mulVec, ← mulVec_add, Matrix.mul_add, Matrix.mul_one, Matrix.mul_assoc,
      add_mulVec, mulVec_add]
  have t2 : s'.G *ᵥ t = V *ᵥ (t - X *ᵥ b) := by
    rw [h.s'_eq]
    simp only [hb, mulVec_mulVec, Matrix.mul_sub, Matrix.mul_one, Matrix.mul_assoc,
      sub_mulVec, mulVec_sub]
  have b1 : s.F *ᵥ ((Ai * X) *ᵥ t) = W *ᵥ (X *ᵥ t + b) := by
    rw [mulVec_mulVec, ← Matrix.mul_assoc, h.F_Ai]
    simp only [hb, mulVec_mulVec, Matrix.mul_add, Matrix.add_mul, Matrix.mul_one, Matrix.one_mul,
      Matrix.mul_assoc, add_mulVec, mulVec_add]
  have b2 : s.G *ᵥ ((Ai * X) *ᵥ t) = V *ᵥ (X *ᵥ t - b) := by
    rw [mulVec_mulVec, ← Matrix.mul_assoc, h.G_Ai]
    simp only [hb, mulVec_mulVec, Matrix.mul_sub, Matrix.sub_mul, Matrix.mul_one, Matrix.one_mul,
      Matrix.mul_assoc, sub_mulVec, mulVec_sub]
  have key := hl.flux_lt hk hd t b ht
  rw [← hX] at key
  simp only [flux]
  rw [t1, t2, b1, b2]
  simp only [beta_mulVec_left, beta_mulVec_right, ← Matrix.mul_assoc]
  exact key

/-- One turn of the loop over a layer that takes flux of the kind `J`, out of every field if `strict`. -/
def Passes (J : Matrix n n ℂ) (strict : Prop) (d : ℝ) (s s' : TState n) : Prop :=
  ∃ (k0 : ℝ) (W V : Matrix n n ℂ) (q : n → ℂ) (Ai B : Matrix n n ℂ), 0 < k0 ∧ StepData (phaseX k0 q d) W V s s' Ai B ∧
    Dissipative J W V q ∧ (strict → StrictOverlap (Wᴴ * J * V) q)

theorem StepData.amp_ne {W V : Matrix n n ℂ} {s s' : TState n} {Ai B : Matrix n n ℂ} {q : n → ℂ} {k0 d : ℝ}
    (h : StepData (phaseX k0 q d) W V s s' Ai B) {t : n → ℂ} (ht : t ≠ 0) : (Ai * phaseX k0 q d) *ᵥ t ≠ 0 := by
  intro h0
  apply ht
  have hA : IsUnit Ai.det := by rw [h.Ai_eq]; exact isUnit_nonsing_inv_det _ h.hA
  have hX : IsUnit (phaseX k0 q d).det := by
    unfold phaseX
    exact isUnit_diag fun i => Complex.exp_ne_zero _
  have hu : IsUnit (Ai * phaseX k0 q d).det := by rw [det_mul]; exact hA.mul hX
  have e : t = (Ai * phaseX k0 q d)⁻¹ *ᵥ ((Ai * phaseX k0 q d) *ᵥ t) := by rw [mulVec_mulVec, nonsing_inv_mul _ hu, one_mulVec]
  rw [e, h0, mulVec_zero]

theorem Passes.dec {J : Matrix n n ℂ} {strict : Prop} {d : ℝ} {s0 s s' : TState n} (h : Passes J strict d s s') (hd : 0 ≤ d)
    (hi : FluxDec J s0 s) : FluxDec J s0 s' := by
  obtain ⟨k0, W, V, q, Ai, B, hk, hs, hl, -⟩ := h
  exact hs.fluxDec hk.le hd hl hi

theorem Passes.strict {J : Matrix n n ℂ} {d : ℝ} {s0 s s' : TState n} (h : Passes J True d s s') (hd : 0 < d)
    (hi : FluxDec J s0 s) : FluxStrict J s0 s' := by
  obtain ⟨k0, W, V, q, Ai, B, hk, hs, hl, hst⟩ := h
  intro t ht
  refine lt_of_le_of_lt ?_ (hs.flux_lt hk hd (hst trivial) t ht)
  refine le_trans (le_of_eq ?_) (hi _)
  rw [hs.s'_eq]
  simp only [mulVec_mulVec, Matrix.mul_assoc]

theorem Passes.keep {J : Matrix n n ℂ} {strict : Prop} {d : ℝ} {s0 s s' : TState n} (h : Passes J strict d s s') (hd : 0 ≤ d)
    (hi : FluxStrict J s0 s) : FluxStrict J s0 s' := by
  obtain ⟨k0, W, V, q, Ai, B, hk, hs, hl, -⟩ := h
  intro t ht
  refine lt_of_lt_of_le ?_ (hs.flux_le hk.le hd hl t)
  refine lt_of_eq_of_lt ?_ (hi _ (hs.amp_ne ht))
  rw [hs.s'_eq]
  simp only [mulVec_mulVec, Matrix.mul_assoc]

/-- The whole stack. -/
theorem runLayers_flux {C L : Type} {step : C → ℝ → TState n → Res (TState n × L)} {J : Matrix n n ℂ} {S : C → Prop} {s0 : TState n}
    (h0 : FluxDec J s0 s0) : ∀ (xs : List (C × ℝ)) (hd : ∀ x ∈ xs, 0 ≤ x.2)
      (hp : ∀ x ∈ xs, ∀ s r, step x.1 x.2 s = .ok r → Passes J (S x.1) x.2 s r.1) (l : List L) (r : TState n × List L)
      (h : runLayers step xs (s0, l) = .ok r),
    FluxDec J s0 r.1 ∧ ((∃ x ∈ xs, S x.1 ∧ 0 < x.2) → FluxStrict J s0 r.1) := by
  intro xs
  induction xs with
  | nil =>
    intro hd hp l r h
    simp only [runLayers, Except.ok.injEq] at h
    subst h
    exact ⟨h0, by simp⟩
  | cons x xs ih =>
    intro hd hp l r h
    simp only [runLayers, Except.bind_ok, Except.ok.injEq] at h
    obtain ⟨a, ha, b, hb, rfl⟩ := h
    obtain ⟨i1, i2⟩ := ih (fun y hy => hd y (List.mem_cons_of_mem _ hy)) (fun y hy => hp y (List.mem_cons_of_mem _ hy)) l a ha
    have hx := hp x (List.mem_cons_self ..) _ _ hb
    have hdx := hd x (List.mem_cons_self ..)
    refine ⟨hx.dec hdx i1, ?_⟩
    rintro ⟨y, hy, hS, hpos⟩
    rcases List.mem_cons.mp hy with rfl | hy
    · refine Passes.strict (d := y.2) ?_ hpos i1
      obtain ⟨k0, W, V, q, Ai, B, a1, a2, a3, a4⟩ := hx
      exact ⟨k0, W, V, q, Ai, B, a1, a2, a3, fun _ => a4 hS⟩
    · exact hx.keep hdx (i2 ⟨y, hy, hS, hpos⟩)

/-! ### Modes -/

theorem modes1d_sign {la : LinAlg} {pol : ℝ} {kx : n → ℂ} {c : Conv n} {m : Modes n} {σ : ℝ}
    (hk : ∀ i, star (kx i) = kx i) (hc : SignConv σ c) (h : transfer_1d_2 la pol kx c false = .ok m) :
    Dissipative ((σ : ℂ) • 1) m.W m.V m.q ∧ (SideConv ((σ : ℂ) * Complex.I) c → IsUnit m.W.det → IsUnit m.V.det →
      StrictOverlap (m.Wᴴ * ((σ : ℂ) • 1) * m.V) m.q) := by
  have hone : ∀ v : n → ℂ, (beta (1 : Matrix n n ℂ) v v).im = 0 := fun v => IsHermitian.beta_im isHermitian_one v
  have hJ : ((σ : ℂ) • (1 : Matrix n n ℂ))ᴴ = (σ : ℂ) • 1 := by
    rw [conjTranspose_smul, conjTranspose_one, Complex.star_def, Complex.conj_ofReal]
  have hs : ∀ (M : Matrix n n ℂ) v, (beta (((σ : ℂ) • (1 : Matrix n n ℂ)) * M) v v).im = σ * (beta M v v).im := by
    intro M v
    rw [smul_mul, Matrix.one_mul, beta_smul_mat, Complex.im_ofReal_mul]
  unfold transfer_1d_2 at h
  simp only at h
  split at h
  · simp only [Except.ok.injEq] at h
    subst h
    set A := diagonal (fun i => kx i ^ 2) - c.epy with hAd
    have hA := la.eig_law A
    have hR : A * (la.eig A).2 = (la.eig A).2 * diagonal (fun i => csqrt ((la.eig A).1 i)) * diagonal (fun i => csqrt ((la.eig A).1 i)) := by
      rw [hA, Matrix.mul_assoc, diag_csqrt_mul]
    have hd : Dissipative ((σ : ℂ) • 1) (la.eig A).2 ((la.eig A).2 * diagonal (fun i => csqrt ((la.eig A).1 i)))
        (fun i => csqrt ((la.eig A).1 i)) := by
      refine Dissipative.of_PR (P := 1) (R := A) ?_ hR ?_ ?_
      · simp
      · intro v
        rw [hs, hAd, im_A hk]
        have := hc.y v
        linarith
      · intro v
        rw [hJ, hs, hone, mul_zero]
    refine ⟨hd, fun hsd hW hV => StrictOverlap.of_R (P := 1) hd hR hW fun v hv => ?_⟩
    rw [hs, hAd, im_A hk]
    have := hsd.y.sgn hv
    linarith
  · split at h
    · simp only [Except.bind_ok, meeinv_false_ok] at h
      obtain ⟨M, ⟨hu, rfl⟩, e⟩ := h
      simp only [Except.ok.injEq] at e
      subst e
      set B := diagonal kx * c.epzi * diagonal kx - 1 with hB
      have hE := la.eig_law (c.epx * B)
      have hP : c.epx * (c.epx⁻¹ * (la.eig (c.epx * B)).2 * diagonal (fun i => csqrt ((la.eig (c.epx * B)).1 i)))
          = (la.eig (c.epx * B)).2 * diagonal (fun i => csqrt ((la.eig (c.epx * B)).1 i)) := by
        simp only [← Matrix.mul_assoc]
        rw [mul_nonsing_inv _ hu, Matrix.one_mul]
      have hd : Dissipative ((σ : ℂ) • 1) (la.eig (c.epx * B)).2
          (c.epx⁻¹ * (la.eig (c.epx * B)).2 * diagonal (fun i => csqrt ((la.eig (c.epx * B)).1 i)))
          (fun i => csqrt ((la.eig (c.epx * B)).1 i)) := by
        refine Dissipative.of_PR (P := c.epx) (R := B) hP ?_ ?_ ?_
        · simp only [Matrix.mul_assoc]
          rw [diag_csqrt_mul, ← hE, ← Matrix.mul_assoc, ← Matrix.mul_assoc, nonsing_inv_mul _ hu,
            Matrix.one_mul]
        · intro v
          rw [hs, hB, beta_B hk, Complex.sub_im, hone, sub_zero]
          have := hc.z (diagonal kx *ᵥ v)
          linarith
        · intro v
          rw [hJ, hs]
          exact hc.x v
      refine ⟨hd, fun hsd hW hV => StrictOverlap.of_P (R := B) hd hP hV fun v hv => ?_⟩
      rw [hJ, hs]
      exact hsd.x.sgn hv
    · cases h

end

section
variable {m : Type} [Fintype m] [DecidableEq m]

theorem ModePair.sign {kx ky : m → ℂ} {c : Conv m} {W V : Matrix (m ⊕ m) (m ⊕ m) ℂ} {σ : ℝ}
    {q : m ⊕ m → ℂ} (h : ModePair kx ky c W V q) (hkx : ∀ i, star (kx i) = kx i)
    (hky : ∀ i, star (ky i) = ky i) (hc : SignConv σ c) :
    Dissipative ((σ : ℂ) • jXY) W V q ∧ (SideConv ((σ : ℂ) * Complex.I) c → IsUnit W.det → IsUnit V.det →
      StrictOverlap (Wᴴ * ((σ : ℂ) • jXY) * V) q) := by
  have hJ : ((σ : ℂ) • (jXY : Matrix (m ⊕ m) (m ⊕ m) ℂ))ᴴ = (σ : ℂ) • jXYᴴ := by
    rw [conjTranspose_smul, Complex.star_def, Complex.conj_ofReal]
  have hs : ∀ (J M : Matrix (m ⊕ m) (m ⊕ m) ℂ) v, (beta (((σ : ℂ) • J) * M) v v).im = σ * (beta (J * M) v v).im := by
    intro J M v
    rw [smul_mul, beta_smul_mat, Complex.im_ofReal_mul]
  have hd : Dissipative ((σ : ℂ) • jXY) W V q := by
    refine Dissipative.of_PR h.left h.right ?_ ?_
    · intro v
      rw [hs, beta_jXY_omegaR c hkx hky]
      have h1 := hc.x (v ∘ Sum.inl)
      have h2 := hc.y (v ∘ Sum.inr)
      linarith
    · intro v
      rw [hJ, hs, beta_jXY_omegaL c hkx hky, Complex.sub_im, IsHermitian.beta_im isHermitian_one]
      have := hc.z (diagonal ky *ᵥ (v ∘ Sum.inl) - diagonal kx *ᵥ (v ∘ Sum.inr))
      linarith
  refine ⟨hd, fun hsd hW hV => StrictOverlap.of_R (P := omegaL kx ky c) hd h.right hW fun v hv => ?_⟩
  rw [hs, beta_jXY_omegaR c hkx hky]
  have h1 := hc.x (v ∘ Sum.inl)
  have h2 := hc.y (v ∘ Sum.inr)
  rcases pair_ne hv with h | h
  · have := hsd.x.sgn h; linarith
  · have := hsd.y.sgn h; linarith

theorem rot_overlap {varphi : m → ℂ} (h : ∀ i, star (varphi i) = varphi i) {W V : Matrix (m ⊕ m) (m ⊕ m) ℂ} (σ : ℝ) :
    (rotE varphi * W)ᴴ * ((σ : ℂ) • jSP) * (rotH varphi * V) = Wᴴ * ((σ : ℂ) • jXY) * V := by
  rw [← rot_jSP h, conjTranspose_mul]
  simp only [Matrix.mul_assoc, Matrix.smul_mul, Matrix.mul_smul]

theorem Passes.of_pair {kx ky varphi : m → ℂ} {c : Conv m} {W V : Matrix (m ⊕ m) (m ⊕ m) ℂ} {σ k0 d : ℝ} (hk0 : 0 < k0)
    {q : m ⊕ m → ℂ} (h : ModePair kx ky c W V q) (hkx : ∀ i, star (kx i) = kx i)
    (hky : ∀ i, star (ky i) = ky i) (hv : ∀ i, star (varphi i) = varphi i) (hc : SignConv σ c)
    {s s' : TState (m ⊕ m)} {Ai B : Matrix (m ⊕ m) (m ⊕ m) ℂ}
    (hs : StepData (phaseX k0 q d) (rotE varphi * W) (rotH varphi * V) s s' Ai B) :
    Passes ((σ : ℂ) • jSP) (SideConv ((σ : ℂ) * Complex.I) c) d s s' := by
  obtain ⟨h1, h2⟩ := h.sign hkx hky hc
  refine ⟨k0, _, _, q, Ai, B, hk0, hs, ⟨?_, ?_⟩, fun hsd => ?_⟩
  · rw [rot_overlap hv]; exact h1.nq
  · rw [rot_overlap hv]; exact h1.nhq
  · rw [rot_overlap hv]
    exact h2 hsd (isUnit_det_of_mul_right hs.hW) (isUnit_det_of_mul_right hs.hV)

end

/-! ### Whole solves -/

/-- The balance of a solve: with the sign `σ`, reflected plus transmitted power is on the right side of the incident power. -/
def Balance (σ : ℝ) (strict : Prop) (x : ℝ) : Prop := σ * x ≤ σ ∧ (strict → σ * x < σ)

theorem solve_1d_T1_ne {la : LinAlg} {p : Params} {wl nt th : ℝ}
    {convs : List (Conv (Fin (2 * p.fto.1 + 1)))} {o : Out1D (2 * p.fto.1 + 1)}
    (hp : p.use_pinv = false) (hphi : p.phi = none) (hi : RealIncidence p nt th)
    (h : solve_1d la p wl convs = .ok o) : o.T1 ≠ 0 := by
  unfold solve_1d at h
  simp only [Except.bind_ok, hp] at h
  obtain ⟨init, h1, r, hl, x, h4, e⟩ := h
  simp only [Except.ok.injEq] at e
  subst e
  intro h0
  simp only at h0
  obtain ⟨R, T, eF, -, -, hcase⟩ := transfer_1d_4_ok h4
  rw [h0, mulVec_zero] at eF
  have hcos := hi.cos_pos
  have hne : (nt : ℂ) ≠ 0 := by exact_mod_cast hi.hnt.ne'
  have hce : (Real.cos th : ℂ) ≠ 0 := by exact_mod_cast hcos.ne'
  have hR : R (ctr p.fto.1) = -1 := by
    have := congrFun eF (ctr p.fto.1)
    simp only [Pi.zero_apply, Pi.add_apply, deltaI0_eq, if_true] at this
    linear_combination -this
  unfold transfer_1d_1 at h1
  rcases hcase with ⟨hpol, eG, -⟩ | ⟨hpol, eG, -⟩
  · simp only [hpol, if_true, Except.ok.injEq] at h1
    subst h1
    have := congrFun eG (ctr p.fto.1)
    simp only [h0, mulVec_zero, Pi.zero_apply, deltaI0_eq, if_true, hR, hi.kz_ctr hphi wl, hi.cos_eq] at this
    rw [hi.hn] at this
    push_cast at this
    have h2 : 2 * Complex.I * ((nt : ℂ) * Complex.cos (th : ℂ)) = 0 := by linear_combination -this
    rw [← Complex.ofReal_cos] at h2
    simp [hne, hce, Complex.I_ne_zero] at h2
    exact absurd (by exact_mod_cast h2) hcos.ne'
  · simp only [hpol, one_ne_zero, if_true, if_false, Except.ok.injEq] at h1
    subst h1
    have := congrFun eG (ctr p.fto.1)
    simp only [h0, mulVec_zero, Pi.zero_apply, deltaI0_eq, if_true, hR, hi.kz_ctr hphi wl, hi.cos_eq] at this
    rw [hi.hn] at this
    push_cast at this
    have h2 : 2 * Complex.I * (Complex.cos (th : ℂ) / (nt : ℂ)) = 0 := by
      have e : (nt : ℂ) * Complex.cos (th : ℂ) / (nt : ℂ) ^ 2 = Complex.cos (th : ℂ) / (nt : ℂ) := by field_simp
      rw [e] at this
      linear_combination -this
    rw [← Complex.ofReal_cos] at h2
    simp [hne, hce, Complex.I_ne_zero] at h2
    exact absurd (by exact_mod_cast h2) hcos.ne'

theorem fluxDec_self {n : Type} [Fintype n] [DecidableEq n] (J : Matrix n n ℂ) {s0 : TState n} (h : s0.T = 1) : FluxDec J s0 s0 := by
  intro t; rw [h, one_mulVec]

theorem Balance.of_flux {n : Type} [Fintype n] [DecidableEq n] {J : Matrix n n ℂ} {σ y R T : ℝ} {s0 s : TState n} {S : Prop} (hy : 0 < y)
    (h : FluxDec ((σ : ℂ) • J) s0 s ∧ (S → FluxStrict ((σ : ℂ) • J) s0 s)) {t : n → ℂ} (ht : t ≠ 0)
    (e1 : flux J (s.F *ᵥ t) (s.G *ᵥ t) = y * (1 - R))
    (e2 : flux J (s0.F *ᵥ (s.T *ᵥ t)) (s0.G *ᵥ (s.T *ᵥ t)) = y * T) : Balance σ S (R + T) := by
  constructor
  · have := h.1 t
    rw [flux_smul_mat, flux_smul_mat, e1, e2] at this
    have : y * (σ * (R + T)) ≤ y * σ := by linarith
    exact le_of_mul_le_mul_left this hy
  · intro hS
    have := h.2 hS t ht
    rw [flux_smul_mat, flux_smul_mat, e1, e2] at this
    have : y * (σ * (R + T)) < y * σ := by linarith
    exact lt_of_mul_lt_mul_left this hy.le

/-- The 1D solver. -/
theorem solve_1d_sign {la : LinAlg} {p : Params} {wl nt th σ : ℝ}
    {convs : List (Conv (Fin (2 * p.fto.1 + 1)))} {o : Out1D (2 * p.fto.1 + 1)}
    (hp : p.use_pinv = false) (hphi : p.phi = none) (hi : RealIncidence p nt th) (hwl : 0 < wl)
    (hd : ∀ d ∈ p.thickness, 0 ≤ d)
    (hh : ∀ c ∈ convs, SignConv σ c)
    (h : solve_1d la p wl convs = .ok o) :
    Balance σ (∃ x ∈ convs.zip p.thickness, SideConv ((σ : ℂ) * Complex.I) x.1 ∧ 0 < x.2) (Spec.totalEfficiency o.res) := by
  obtain ⟨s0, s, l, y, hy, hl, hT, e1, e2⟩ := solve_1d_balance hp hphi hi h
  obtain ⟨l1, l2⟩ := layerLoop_ok_len hl
  rw [layerLoop_eq_run _ l1 l2, List.take_of_length_le (by simp)] at hl
  refine Balance.of_flux hy (runLayers_flux (S := fun c => SideConv ((σ : ℂ) * Complex.I) c) (fluxDec_self _ hT) _ ?_ ?_ _ _ hl)
    (solve_1d_T1_ne hp hphi hi h) e1 e2
  · intro x hx
    exact hd _ (List.of_mem_zip hx).2
  · intro x hx s r hs
    have hcl := hh _ (List.of_mem_zip hx).1
    unfold step1d at hs
    simp only [Except.bind_ok, hp] at hs
    obtain ⟨m, hm, r3, h3, e⟩ := hs
    simp only [Except.ok.injEq] at e
    subst e
    obtain ⟨h1, h2⟩ := modes1d_sign (hi.kx_real hphi wl) hcl hm
    have hsd := tmmStep_ok.mp h3
    exact ⟨_, _, _, _, _, _, by positivity, hsd, h1, fun hc => h2 hc hsd.hW hsd.hV⟩

theorem final_ne {m : Type} [Fintype m] [DecidableEq m] {nt th ps : ℝ} (hnt : 0 < nt) (hc : 0 < Real.cos th) {kzt δ : m → ℂ} {c : m}
    {s : TState (m ⊕ m)} {rt : (m ⊕ m) ⊕ (m ⊕ m) → ℂ} (hδ : δ c = 1) (hk : kzt c = ((nt * Real.cos th : ℝ) : ℂ))
    (h : finalA (nt : ℂ) kzt s *ᵥ rt = finalB δ (ps : ℂ) (th : ℂ) (nt : ℂ)) : (fun j => rt (.inr j)) ≠ 0 := by
  intro h0
  obtain ⟨h1, h2, h3, h4⟩ := final_eqs h
  have a1 := h1 c
  have a2 := h2 c
  have a3 := h3 c
  have a4 := h4 c
  rw [h0, mulVec_zero, Pi.zero_apply, hδ] at a1 a2 a3 a4
  rw [hk] at a2 a3
  have hne : (nt : ℂ) ≠ 0 := by exact_mod_cast hnt.ne'
  have hce : Complex.cos (th : ℂ) ≠ 0 := by rw [← Complex.ofReal_cos]; exact_mod_cast hc.ne'
  push_cast at a2 a3
  have b1 : Complex.sin (ps : ℂ) = 0 := by
    have : 2 * Complex.I * (nt : ℂ) * Complex.cos (th : ℂ) * Complex.sin (ps : ℂ) = 0 := by
      linear_combination (-1 : ℂ) * a3 - Complex.I * (nt : ℂ) * Complex.cos (th : ℂ) * a1
    simpa [hne, hce, Complex.I_ne_zero] using this
  have b2 : Complex.cos (ps : ℂ) = 0 := by
    have e : (nt : ℂ) * Complex.cos (th : ℂ) / (nt : ℂ) ^ 2 = Complex.cos (th : ℂ) / (nt : ℂ) := by field_simp
    rw [e] at a2
    have r : rt (.inl (.inr c)) = -(Complex.I * nt * Complex.cos (ps : ℂ)) := by linear_combination -a4
    rw [r] at a2
    have e2 : Complex.I * (Complex.cos (th : ℂ) / (nt : ℂ)) * -(Complex.I * nt * Complex.cos (ps : ℂ))
        = Complex.cos (th : ℂ) * Complex.cos (ps : ℂ) := by
      field_simp
      rw [Complex.I_sq]; ring
    rw [e2] at a2
    have : 2 * Complex.cos (th : ℂ) * Complex.cos (ps : ℂ) = 0 := by linear_combination a2
    simpa [hce] using this
  have := Complex.sin_sq_add_cos_sq (ps : ℂ)
  rw [b1, b2] at this
  norm_num at this

theorem out4_sign {fx fy : ℕ} {la : LinAlg} {s : TState (FlatIdx fx fy ⊕ FlatIdx fx fy)} {σ : ℝ} {S : Prop}
    {kzt kzb : FlatIdx fx fy → ℂ} {nt th ps : ℝ} (hnt : 0 < nt) (hc : 0 < Real.cos th) {nb : ℂ}
    (hk : kzt (ctr2 fx fy) = ((nt * Real.cos th : ℝ) : ℂ)) {o : Out4 fx fy} {s0 : TState (FlatIdx fx fy ⊕ FlatIdx fx fy)}
    (h0 : s0 = ⟨fromBlocks 1 0 0 (((1 : ℂ) / nb ^ 2) • (Complex.I • diagonal kzb)), fromBlocks (Complex.I • diagonal kzb) 0 0 1, 1⟩)
    (hinv : FluxDec ((σ : ℂ) • jSP) s0 s ∧ (S → FluxStrict ((σ : ℂ) • jSP) s0 s))
    (h : transfer_2d_4 la s kzt kzb (ps : ℂ) (th : ℂ) (nt : ℂ) nb false = .ok o) :
    Balance σ S (Spec.totalEfficiency o.res) ∧ Balance σ S (Spec.totalEfficiency o.res_te) ∧
      Balance σ S (Spec.totalEfficiency o.res_tm) := by
  unfold transfer_2d_4 at h
  simp only [Except.bind_ok, meeinv_false_ok, Except.ok.injEq] at h
  obtain ⟨N, ⟨hu, rfl⟩, rfl⟩ := h
  have main : ∀ ps : ℝ, Balance σ S (Spec.totalEfficiency (subResOf s kzt kzb (th : ℂ) (nt : ℂ) nb
      ((finalA (nt : ℂ) kzt s)⁻¹ *ᵥ finalB deltaI0 (ps : ℂ) (th : ℂ) (nt : ℂ)))) := by
    intro ps
    set rt := (finalA (nt : ℂ) kzt s)⁻¹ *ᵥ finalB deltaI0 (ps : ℂ) (th : ℂ) (nt : ℂ) with hrt
    have he : finalA (nt : ℂ) kzt s *ᵥ rt = finalB deltaI0 (ps : ℂ) (th : ℂ) (nt : ℂ) := by
      rw [hrt, mulVec_mulVec, mul_nonsing_inv _ hu, one_mulVec]
    obtain ⟨b1, b2⟩ := subRes_balance (kzb := kzb) (nb := nb) hnt hc hk he
    have hne := final_ne hnt hc (by rw [deltaI0_eq2, if_pos rfl]) hk he
    refine Balance.of_flux (mul_pos hnt hc) hinv hne b1 ?_
    rw [h0]
    exact b2
  refine ⟨main ps, main (Real.pi / 2), ?_⟩
  have := main 0
  simpa using this

/-- `solve_2d`. -/
theorem solve_2d_sign {la : LinAlg} {p : Params} {wl nt th ph ps σ : ℝ}
    {convs : List (Conv (FlatIdx p.fto.1 p.fto.2))} {o : Out2D p.fto.1 p.fto.2}
    (hp : p.use_pinv = false) (hphi : p.phi.getD 0 = (ph : ℂ)) (hpsi : p.psi = (ps : ℂ))
    (hi : RealIncidence p nt th) (hwl : 0 < wl) (hd : ∀ d ∈ p.thickness, 0 ≤ d)
    (hh : ∀ c ∈ convs, SignConv σ c)
    (h : solve_2d la p wl convs = .ok o) {S : Prop}
    (hS : S = ∃ x ∈ convs.zip p.thickness, SideConv ((σ : ℂ) * Complex.I) x.1 ∧ 0 < x.2) :
    Balance σ S (Spec.totalEfficiency o.out.res) ∧ Balance σ S (Spec.totalEfficiency o.out.res_te) ∧
      Balance σ S (Spec.totalEfficiency o.out.res_tm) := by
  obtain ⟨-, init, r, x, h1, hr, h4, rfl⟩ := (solve_2d_iff hp).mp h
  unfold transfer_2d_1 at h1
  simp only [Except.bind_ok, Except.ok.injEq] at h1
  obtain ⟨varphi, hv, rfl⟩ := h1
  have hreal := varphiAll_real (hi.kxF_real hphi wl) (hi.kyF_real hphi wl) hv
  simp only at hr h4
  rw [hpsi, hi.hth, hi.hn] at h4
  have hkz := hi.kz_ctr2 hphi wl
  rw [hi.hn] at hkz
  refine out4_sign hi.hnt hi.cos_pos hkz rfl ?_ h4
  rw [hS]
  refine runLayers_flux (S := fun c => SideConv ((σ : ℂ) * Complex.I) c) (fluxDec_self _ rfl) _ ?_ ?_ _ r hr
  · intro x hx
    exact hd _ (List.of_mem_zip hx).2
  · intro x hm s r' hs
    have hc := hh x.1 (List.of_mem_zip hm).1
    unfold step2d at hs
    simp only [Except.bind_ok, transfer_2d_3_eq, Except.ok.injEq] at hs
    obtain ⟨M, hM, r3, h3, rfl⟩ := hs
    rw [bigW2d_eq, bigV2d_eq] at h3
    exact Passes.of_pair (by positivity) (modePair_2d hM) (hi.kxF_star hphi wl) (hi.kyF_star hphi wl) hreal hc (tmmStep_ok.mp h3)

/-- `solve_1d_conical`. -/
theorem solve_con_sign {la : LinAlg} {p : Params} {wl nt th ph ps σ : ℝ}
    {convs : List (Conv (FlatIdx p.fto.1 p.fto.2))} {o : OutCon p.fto.1 p.fto.2}
    (hp : p.use_pinv = false) (hphi : p.phi.getD 0 = (ph : ℂ)) (hpsi : p.psi = (ps : ℂ))
    (hi : RealIncidence p nt th) (hwl : 0 < wl) (hd : ∀ d ∈ p.thickness, 0 ≤ d)
    (hh : ∀ c ∈ convs, SignConv σ c)
    (hz1 : p.fto.2 = 0 → ∀ c ∈ convs, c.epzi * c.epy = 1)
    (h : solve_1d_conical la p wl convs = .ok o) {S : Prop}
    (hS : S = ∃ x ∈ convs.zip p.thickness, SideConv ((σ : ℂ) * Complex.I) x.1 ∧ 0 < x.2) :
    Balance σ S (Spec.totalEfficiency o.out.res) ∧ Balance σ S (Spec.totalEfficiency o.out.res_te) ∧
      Balance σ S (Spec.totalEfficiency o.out.res_tm) := by
  obtain ⟨-, hf, init, r, x, h1, hr, h4, rfl⟩ := (solve_con_iff hp).mp h
  unfold transfer_2d_1 at h1
  simp only [Except.bind_ok, Except.ok.injEq] at h1
  obtain ⟨varphi, hv, rfl⟩ := h1
  have hreal := varphiAll_real (hi.kxF_real hphi wl) (hi.kyF_real hphi wl) hv
  simp only at hr h4
  rw [hpsi, hi.hth, hi.hn] at h4
  have hkz := hi.kz_ctr2 hphi wl
  rw [hi.hn] at hkz
  have hky : ∃ k : ℂ, kyF p wl = fun _ => k := by
    refine ⟨kyF p wl (ctr2 _ _), ?_⟩
    funext i
    unfold kyF tileY
    congr 1
    ext
    have h1 := (i.divNat (m := 2 * p.fto.2 + 1) (n := 2 * p.fto.1 + 1)).isLt
    have h2 := ((ctr2 p.fto.1 p.fto.2).divNat (m := 2 * p.fto.2 + 1) (n := 2 * p.fto.1 + 1)).isLt
    omega
  obtain ⟨k, hk⟩ := hky
  have hks := hi.kyF_star hphi wl
  refine out4_sign hi.hnt hi.cos_pos hkz rfl ?_ h4
  rw [hS]
  refine runLayers_flux (S := fun c => SideConv ((σ : ℂ) * Complex.I) c) (fluxDec_self _ rfl) _ ?_ ?_ _ r hr
  · intro x hx
    exact hd _ (List.of_mem_zip hx).2
  · intro x hm s r' hs
    have hc := hh x.1 (List.of_mem_zip hm).1
    have hz1 := hz1 hf x.1 (List.of_mem_zip hm).1
    unfold stepCon at hs
    simp only [Except.bind_ok, transfer_1d_conical_3_eq, Except.ok.injEq] at hs
    obtain ⟨M, hM, r3, h3, rfl⟩ := hs
    rw [conW_eq, conV_eq] at h3
    rw [hk] at hM hks
    exact Passes.of_pair (by positivity) (modePair_con hz1 hM) (hi.kxF_star hphi wl) hks hreal hc (tmmStep_ok.mp h3)

end Meent
