import Verif.Lemmas.Passive
import Verif.Lemmas.Loop
import Mathlib.Analysis.SpecificLimits.Normed

/-!
# Strictly absorbing layers (helper lemmas)
-/

open Matrix

namespace Meent

set_option linter.unusedSectionVars false
set_option linter.unusedSimpArgs false
set_option linter.unusedVariables false

section
variable {n : Type} [Fintype n] [DecidableEq n]

/-- An overlap matrix whose layer takes flux out of every field. -/
structure StrictOverlap (N : Matrix n n ℂ) (q : n → ℂ) : Prop where
  nq : Gainy (N * diagonal q)
  nhq : Lossy (Nᴴ * diagonal q)
  strict : (∀ v, v ≠ 0 → 0 < (beta (N * diagonal q) v v).im) ∨ (∀ v, v ≠ 0 → (beta (Nᴴ * diagonal q) v v).im < 0)

variable {N : Matrix n n ℂ} {q : n → ℂ}

theorem StrictOverlap.q_ne (h : StrictOverlap N q) (i : n) : q i ≠ 0 := by
  intro h0
  have e : ∀ M : Matrix n n ℂ, beta (M * diagonal q) (Pi.single i 1) (Pi.single i 1) = 0 := by
    intro M
    rw [← beta_mulVec_right]
    have : diagonal q *ᵥ (Pi.single i 1 : n → ℂ) = 0 := by
      funext j
      rw [mulVec_diagonal]
      by_cases hj : j = i
      · subst hj; simp [h0]
      · simp [hj]
    rw [this]
    simp [beta]
  have hne : (Pi.single i 1 : n → ℂ) ≠ 0 := by simp
  rcases h.strict with h | h
  · have := h _ hne; rw [e] at this; simp at this
  · have := h _ hne; rw [e] at this; simp at this

/-- A layer of positive thickness takes flux out of every field that does not vanish. -/
theorem StrictOverlap.flux_lt (h : StrictOverlap N q) {k0 d : ℝ} (hk : 0 < k0) (hd : 0 < d) (a b : n → ℂ) (hab : a ≠ 0) :
    (beta N (phaseX k0 q d *ᵥ a + b) (phaseX k0 q d *ᵥ a - b)).im
      < (beta N (a + phaseX k0 q d *ᵥ b) (a - phaseX k0 q d *ᵥ b)).im := by
  refine lt_of_le_of_ne (flux_decreases N q hk.le hd.le h.nq h.nhq a b) fun heq => hab ?_
  let x : ℝ → n → ℂ := waveX k0 q a
  let y : ℝ → n → ℂ := waveY k0 q b d
  let φ : ℝ → ℝ := fun z => (beta N (x z + y z) (x z - y z)).im
  have hφ : ∀ z, HasDerivAt φ _ z := flux_deriv N q k0 d a b
  have hanti : Antitone φ := antitone_of_deriv_nonpos (fun z => (hφ z).differentiableAt) (fun z => by
    rw [(hφ z).deriv]
    have a1 := h.nhq (x z - y z)
    have a2 := h.nq (x z + y z)
    exact mul_nonpos_of_nonneg_of_nonpos hk.le (by linarith))
  have e0 : φ 0 = (beta N (a + phaseX k0 q d *ᵥ b) (a - phaseX k0 q d *ᵥ b)).im := by
    have ex : x 0 = a := by funext i; simp [x, waveX]
    have ey : y 0 = phaseX k0 q d *ᵥ b := by funext i; simp [y, waveY, phaseX, mulVec_diagonal]
    simp only [φ, ex, ey]
  have ed : φ d = (beta N (phaseX k0 q d *ᵥ a + b) (phaseX k0 q d *ᵥ a - b)).im := by
    have ex : x d = phaseX k0 q d *ᵥ a := by funext i; simp [x, waveX, phaseX, mulVec_diagonal]
    have ey : y d = b := by funext i; simp [y, waveY]
    simp only [φ, ex, ey]
  have hconst : ∀ z ∈ Set.Ioo 0 d, φ z = φ 0 := by
    intro z hz
    have h1 := hanti hz.1.le
    have h2 := hanti hz.2.le
    rw [ed, heq, ← e0] at h2
    exact le_antisymm h1 h2
  have hzero : ∀ z ∈ Set.Ioo 0 d, (beta (Nᴴ * diagonal q) (x z - y z) (x z - y z)).im = 0 ∧
      (beta (N * diagonal q) (x z + y z) (x z + y z)).im = 0 := by
    intro z hz
    have hev : φ =ᶠ[nhds z] fun _ => φ 0 := by
      filter_upwards [Ioo_mem_nhds hz.1 hz.2] with w hw using hconst w hw
    have := ((hφ z).congr_of_eventuallyEq hev.symm).unique (hasDerivAt_const z (φ 0))
    have a1 := h.nhq (x z - y z)
    have a2 := h.nq (x z + y z)
    rcases mul_eq_zero.mp this with h0 | h0
    · exact absurd h0 hk.ne'
    · exact ⟨by linarith, by linarith⟩
  have kq : ∀ i, (k0 : ℂ) * q i ≠ 0 := fun i => mul_ne_zero (by exact_mod_cast hk.ne') (h.q_ne i)
  have hm : d / 2 ∈ Set.Ioo 0 d := ⟨by linarith, by linarith⟩
  have hxz : x (d / 2) = 0 := by
    funext i
    rcases h.strict with hs | hs
    · have hu : ∀ z ∈ Set.Ioo 0 d, x z + y z = 0 := by
        intro z hz
        by_contra hne
        have := hs _ hne
        rw [(hzero z hz).2] at this
        exact lt_irrefl _ this
      have hev : (fun z => x z i + y z i) =ᶠ[nhds (d / 2)] fun _ => 0 := by
        filter_upwards [Ioo_mem_nhds hm.1 hm.2] with w hw using congrFun (hu w hw) i
      have h1 := (((waveX_deriv k0 q a (d / 2) i).add (waveY_deriv k0 q b d (d / 2) i)).congr_of_eventuallyEq hev.symm).unique
        (hasDerivAt_const (d / 2) (0 : ℂ))
      have h2 : x (d / 2) i + y (d / 2) i = 0 := congrFun (hu _ hm) i
      have h3 : (k0 : ℂ) * q i * (y (d / 2) i - x (d / 2) i) = 0 := by
        rw [← h1]; simp only [x, y]; ring
      have h4 := (mul_eq_zero.mp h3).resolve_left (kq i)
      show x (d / 2) i = 0
      linear_combination (h2 - h4) / 2
    · have hu : ∀ z ∈ Set.Ioo 0 d, x z - y z = 0 := by
        intro z hz
        by_contra hne
        have := hs _ hne
        rw [(hzero z hz).1] at this
        exact lt_irrefl _ this
      have hev : (fun z => x z i - y z i) =ᶠ[nhds (d / 2)] fun _ => 0 := by
        filter_upwards [Ioo_mem_nhds hm.1 hm.2] with w hw using congrFun (hu w hw) i
      have h1 := (((waveX_deriv k0 q a (d / 2) i).sub (waveY_deriv k0 q b d (d / 2) i)).congr_of_eventuallyEq hev.symm).unique
        (hasDerivAt_const (d / 2) (0 : ℂ))
      have h2 : x (d / 2) i - y (d / 2) i = 0 := congrFun (hu _ hm) i
      have h3 : (k0 : ℂ) * q i * (-(x (d / 2) i + y (d / 2) i)) = 0 := by
        rw [← h1]; simp only [x, y]; ring
      have h4 := (mul_eq_zero.mp h3).resolve_left (kq i)
      show x (d / 2) i = 0
      linear_combination (h2 - h4) / 2
  funext i
  have := congrFun hxz i
  simp only [x, waveX, Pi.zero_apply, mul_eq_zero, Complex.exp_ne_zero, false_or] at this
  exact this

theorem StrictOverlap.re_pos (h : StrictOverlap N q) (hq : ∀ i, 0 ≤ (q i).re) (i : n) : 0 < (q i).re := by
  refine lt_of_le_of_ne (hq i) fun h0 => ?_
  have hne : (Pi.single i 1 : n → ℂ) ≠ 0 := by simp
  have := h.flux_lt one_pos one_pos (Pi.single i 1) 0 hne
  simp only [add_zero, sub_zero, mulVec_zero] at this
  have e : phaseX 1 q 1 *ᵥ (Pi.single i 1 : n → ℂ) = Complex.exp (-(q i)) • (Pi.single i 1 : n → ℂ) := by
    funext j
    rw [phaseX, mulVec_diagonal]
    by_cases hj : j = i
    · subst hj; simp
    · simp [hj]
  rw [e] at this
  have e2 : ∀ (z : ℂ) (v : n → ℂ), beta N (z • v) (z • v) = (Complex.normSq z : ℂ) * beta N v v := by
    intro z v
    unfold beta
    rw [star_smul, mulVec_smul, smul_dotProduct, dotProduct_smul, smul_eq_mul, smul_eq_mul, Complex.normSq_eq_conj_mul_self,
      Complex.star_def]
    ring
  rw [e2, Complex.im_ofReal_mul] at this
  have e3 : Complex.normSq (Complex.exp (-(q i))) = 1 := by
    rw [Complex.normSq_eq_norm_sq, Complex.norm_exp, Complex.neg_re, ← h0]
    simp
  rw [e3, one_mul] at this
  exact lt_irrefl _ this

/-- The modes that decay downwards carry flux downwards. -/
theorem StrictOverlap.pos (h : StrictOverlap N q) (hq : ∀ i, 0 ≤ (q i).re) {a : n → ℂ} (ha : a ≠ 0) : 0 < (beta N a a).im := by
  have hre := h.re_pos hq
  have nonneg : ∀ a : n → ℂ, 0 ≤ (beta N a a).im := by
    intro a
    have hle : ∀ k : ℕ, (beta N (phaseX 1 q k *ᵥ a) (phaseX 1 q k *ᵥ a)).im ≤ (beta N a a).im := by
      intro k
      have := flux_decreases N q (zero_le_one) (Nat.cast_nonneg k) h.nq h.nhq a 0
      simpa using this
    have hlim : Filter.Tendsto (fun k : ℕ => (beta N (phaseX 1 q k *ᵥ a) (phaseX 1 q k *ᵥ a)).im) Filter.atTop (nhds 0) := by
      have hv : Filter.Tendsto (fun k : ℕ => phaseX 1 q k *ᵥ a) Filter.atTop (nhds 0) := by
        rw [tendsto_pi_nhds]
        intro i
        have e : (fun k : ℕ => (phaseX 1 q k *ᵥ a) i) = fun k : ℕ => Complex.exp (-(q i)) ^ k * a i := by
          funext k
          rw [phaseX, mulVec_diagonal, ← Complex.exp_nat_mul]
          congr 2
          push_cast; ring
        rw [e]
        have := (tendsto_pow_atTop_nhds_zero_of_norm_lt_one (x := Complex.exp (-(q i))) (by
          rw [Complex.norm_exp, Complex.neg_re]
          rw [← Real.exp_zero]; exact Real.exp_lt_exp.mpr (by linarith [hre i]))).mul_const (a i)
        simpa using this
      have hc : Continuous fun v : n → ℂ => (beta N v v).im := by
        simp only [beta_expand]
        fun_prop
      have := (hc.tendsto 0).comp hv
      have e0 : (beta N (0 : n → ℂ) 0).im = 0 := by simp [beta]
      rw [e0] at this
      exact this
    exact le_of_tendsto' hlim hle
  have := h.flux_lt one_pos one_pos a 0 ha
  simp only [add_zero, sub_zero, mulVec_zero] at this
  exact lt_of_le_of_lt (nonneg _) this

/-! ### The layer loop -/

/-- No field below takes flux from nowhere, and fields determine amplitudes. -/
structure WeakState (J : Matrix n n ℂ) (s : TState n) : Prop where
  flux : ∀ t, 0 ≤ flux J (s.F *ᵥ t) (s.G *ᵥ t)
  inj : ∀ t, s.F *ᵥ t = 0 → s.G *ᵥ t = 0 → t = 0

/-- Every field takes flux. -/
def StrictState (J : Matrix n n ℂ) (s : TState n) : Prop := ∀ t, t ≠ 0 → 0 < flux J (s.F *ᵥ t) (s.G *ᵥ t)

theorem StrictState.weak {J : Matrix n n ℂ} {s : TState n} (h : StrictState J s) : WeakState J s := by
  constructor
  · intro t
    by_cases ht : t = 0
    · subst ht; simp [Meent.flux, beta]
    · exact (h t ht).le
  · intro t h1 h2
    by_contra ht
    have := h t ht
    rw [h1, h2] at this
    simp [Meent.flux, beta] at this

theorem strict_step {J W V : Matrix n n ℂ} {q : n → ℂ} {s : TState n} {k0 d : ℝ} (hk : 0 < k0) (hd : 0 < d)
    (hW : IsUnit W.det) (hV : IsUnit V.det) (h : StrictOverlap (Wᴴ * J * V) q) (hq : ∀ i, 0 ≤ (q i).re) (hs : WeakState J s) :
    ∃ s' Ai B, StepData (phaseX k0 q d) W V s s' Ai B ∧ StrictState J s' := by
  have hA : IsUnit (stepA W V s).det := by
    rw [isUnit_iff_ne_zero]
    intro h0
    obtain ⟨v, hv, e⟩ := Matrix.exists_mulVec_eq_zero_iff.mpr h0
    apply hv
    set u := W⁻¹ *ᵥ (s.F *ᵥ v) with hu
    have e1 : s.F *ᵥ v = W *ᵥ u := by rw [hu, mulVec_mulVec, mul_nonsing_inv _ hW, one_mulVec]
    have e2 : s.G *ᵥ v = V *ᵥ (-u) := by
      have : u + V⁻¹ *ᵥ (s.G *ᵥ v) = 0 := by
        unfold stepA at e
        rw [smul_mulVec, add_mulVec, ← mulVec_mulVec, ← mulVec_mulVec] at e
        exact (smul_eq_zero.mp e).resolve_left (by norm_num)
      have : V⁻¹ *ᵥ (s.G *ᵥ v) = -u := by rw [eq_neg_iff_add_eq_zero, add_comm]; exact this
      rw [← this, mulVec_mulVec, mul_nonsing_inv _ hV, one_mulVec]
    have hf := hs.flux v
    have hu0 : u = 0 := by
      by_contra hne
      have hp := h.pos hq hne
      unfold flux at hf
      rw [e1, e2, beta_mulVec_left, beta_mulVec_right] at hf
      have : beta (Wᴴ * J * V) u (-u) = -beta (Wᴴ * J * V) u u := by simp [beta, mulVec_neg]
      rw [this, Complex.neg_im] at hf
      linarith
    rw [hu0] at e1 e2
    exact hs.inj v (by rw [e1]; simp) (by rw [e2]; simp)
  set Ai := (stepA W V s)⁻¹ with hAi
  set B := (1 / 2 : ℂ) • (W⁻¹ * s.F - V⁻¹ * s.G) with hB
  set X := phaseX k0 q d with hX
  have hD : StepData X W V s ⟨W * (1 + X * B * Ai * X), V * (1 - X * B * Ai * X), s.T * Ai * X⟩ Ai B := ⟨hW, hV, hA, rfl, rfl, rfl⟩
  refine ⟨_, Ai, B, hD, ?_⟩
  intro t ht
  set b : n → ℂ := (B * Ai * X) *ᵥ t with hb
  have b1 : s.F *ᵥ ((Ai * X) *ᵥ t) = W *ᵥ (X *ᵥ t + b) := by
    rw [mulVec_mulVec, ← Matrix.mul_assoc, hD.F_Ai]
    simp only [hb, mulVec_mulVec, Matrix.mul_add, Matrix.add_mul, Matrix.mul_one, Matrix.one_mul,
      Matrix.mul_assoc, add_mulVec, mulVec_add]
  have b2 : s.G *ᵥ ((Ai * X) *ᵥ t) = V *ᵥ (X *ᵥ t - b) := by
    rw [mulVec_mulVec, ← Matrix.mul_assoc, hD.G_Ai]
    simp only [hb, mulVec_mulVec, Matrix.mul_sub, Matrix.sub_mul, Matrix.mul_one, Matrix.one_mul,
      Matrix.mul_assoc, sub_mulVec, mulVec_sub]
  have t1 : (W * (1 + X * B * Ai * X)) *ᵥ t = W *ᵥ (t + X *ᵥ b) := by
    simp only [hb, mulVec_mulVec, ← mulVec_add, Matrix.mul_add, Matrix.mul_one, Matrix.mul_assoc,
      add_mulVec, mulVec_add]
  have t2 : (V * (1 - X * B * Ai * X)) *ᵥ t = V *ᵥ (t - X *ᵥ b) := by
    simp only [hb, mulVec_mulVec, Matrix.mul_sub, Matrix.mul_one, Matrix.mul_assoc,
      sub_mulVec, mulVec_sub]
  have key := h.flux_lt hk hd t b ht
  rw [← hX] at key
  have hf := hs.flux ((Ai * X) *ᵥ t)
  unfold flux at hf ⊢
  simp only
  rw [b1, b2] at hf
  rw [t1, t2]
  simp only [beta_mulVec_left, beta_mulVec_right, ← Matrix.mul_assoc] at hf ⊢
  exact lt_of_le_of_lt hf key

/-- A loop over at least one absorbing layer succeeds, and its fields take flux. -/
theorem runLayers_strict {C L : Type} {step : C → ℝ → TState n → Res (TState n × L)} {J : Matrix n n ℂ} (P : C × ℝ → Prop)
    (hstep : ∀ x s, P x → WeakState J s → ∃ r, step x.1 x.2 s = .ok r ∧ StrictState J r.1) :
    ∀ (xs : List (C × ℝ)) (s : TState n × List L), (∀ x ∈ xs, P x) → WeakState J s.1 →
      ∃ r, runLayers step xs s = .ok r ∧ WeakState J r.1 ∧ (xs ≠ [] → StrictState J r.1)
  | [], s, _, hs => ⟨s, rfl, hs, by simp⟩
  | x :: xs, s, h, hs => by
    obtain ⟨r, hr, hw, -⟩ := runLayers_strict P hstep xs s (fun y hy => h y (List.mem_cons_of_mem _ hy)) hs
    obtain ⟨r', hr', hs'⟩ := hstep x r.1 (h x List.mem_cons_self) hw
    refine ⟨(r'.1, r.2 ++ [r'.2]), ?_, hs'.weak, fun _ => hs'⟩
    simp only [runLayers, Except.bind_ok, Except.ok.injEq]
    exact ⟨r, hr, r', hr', rfl⟩

end

end Meent
