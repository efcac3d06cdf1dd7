import Verif.Lemmas.Flat
import Verif.Spec.Fresnel

/-!
# A bare interface (helper lemmas)
-/

open Matrix

namespace Meent

set_option linter.unusedSectionVars false
set_option linter.unusedSimpArgs false

/-- A square root in the closed fourth quadrant is the one the code takes. -/
theorem star_csqrt_unique {x : ℝ} {z : ℂ} (h : z ^ 2 = (x : ℂ)) (hr : 0 ≤ z.re) (hi : z.im ≤ 0) :
    star (csqrt (x : ℂ)) = z := by
  have h1 : z.re ^ 2 - z.im ^ 2 = x := by
    have := congrArg Complex.re h
    simpa [pow_two] using this
  have h2 : z.re * z.im = 0 := by
    have := congrArg Complex.im h
    simp [pow_two] at this
    linarith
  rcases mul_eq_zero.mp h2 with h0 | h0
  · rw [h0] at h1
    rcases eq_or_lt_of_le hi with hz | hz
    · have : x = 0 := by rw [← h1, hz]; ring
      have hz0 : z = 0 := Complex.ext h0 hz
      rw [this, hz0]
      simp [csqrt]
    · rw [csqrt_ofReal_neg (by nlinarith), show -x = (-z.im) ^ 2 by rw [← h1]; ring, Real.sqrt_sq (by linarith)]
      apply Complex.ext <;> simp [h0]
  · rw [h0] at h1
    rw [csqrt_ofReal_nonneg (by nlinarith), show x = z.re ^ 2 by rw [← h1]; ring, Real.sqrt_sq hr,
      Complex.star_def, Complex.conj_ofReal]
    exact Complex.ext rfl h0.symm

/-- `kz` behind the interface, from the refraction angle. -/
theorem kz_refraction {n₁ n₂ θ : ℝ} {c₂ : ℂ} (hn : 0 < n₂) (h : Spec.RefractionCos n₁ n₂ θ c₂) {x : ℝ}
    (hx : x = n₂ ^ 2 - (n₁ * Real.sin θ) ^ 2) : star (csqrt (x : ℂ)) = n₂ * c₂ := by
  refine star_csqrt_unique ?_ ?_ ?_
  · rw [mul_pow, h.1, hx, ← Complex.ofReal_pow, ← Complex.ofReal_mul]
    congr 1
    field_simp
  · rw [Complex.re_ofReal_mul]; exact mul_nonneg hn.le h.2.1
  · rw [Complex.im_ofReal_mul]; exact mul_nonpos_of_nonneg_of_nonpos hn.le h.2.2

theorem add_ne_zero_of_re {a b : ℂ} (ha : 0 < a.re) (hb : 0 ≤ b.re) : a + b ≠ 0 := by
  intro h
  have := congrArg Complex.re h
  simp at this
  linarith

section
variable {p : Params}

/-- In-plane wavenumber of the specular order. -/
theorem inPlane_zero (p : Params) : Spec.inPlaneSq p 0 0 = (p.n_top.re * Real.sin p.theta.re) ^ 2 := by
  unfold Spec.inPlaneSq Spec.orderKx Spec.orderKy
  simp only [Int.cast_zero, zero_mul, add_zero]
  have := Real.sin_sq_add_cos_sq (p.phi.getD 0).re
  linear_combination (p.n_top.re * Real.sin p.theta.re) ^ 2 * this

theorem colOrder_zero {fx : ℕ} {i : Fin (2 * fx + 1)} : Spec.colOrder i = 0 ↔ i = ctr fx := by
  unfold Spec.colOrder ctr
  rw [Fin.ext_iff]
  simp only
  omega

theorem rowOrder_zero {fy : ℕ} {j : Fin (2 * fy + 1)} : Spec.rowOrder j = 0 ↔ j = ctr fy := colOrder_zero

theorem deltaI0_order {fx fy : ℕ} (j : Fin (2 * fy + 1)) (i : Fin (2 * fx + 1)) :
    (deltaI0 (finProdFinEquiv (j, i) : FlatIdx fx fy) : ℂ)
      = if Spec.colOrder i = 0 ∧ Spec.rowOrder j = 0 then 1 else 0 := by
  rw [deltaI0_eq2]
  have : (finProdFinEquiv (j, i) : FlatIdx fx fy) = ctr2 fx fy ↔ Spec.colOrder i = 0 ∧ Spec.rowOrder j = 0 := by
    unfold ctr2
    rw [finProdFinEquiv.apply_eq_iff_eq, Prod.mk.injEq, and_comm, colOrder_zero, rowOrder_zero]
  simp only [this]

end

/-! ### The equations of a bare interface -/

theorem bare_1d {la : LinAlg} {p : Params} {wl : ℝ} {convs} {o : Out1D (2 * p.fto.1 + 1)}
    (hp : p.use_pinv = false) (ht : p.thickness = []) (h : solve_1d la p wl convs = .ok o) :
    ∃ R T : Fin (2 * p.fto.1 + 1) → ℂ, T = R + deltaI0 ∧
      ((p.pol = 0 ∧ (∀ j, o.res.R_s j = R) ∧ (∀ j, o.res.T_s j = T) ∧
        (∀ i, kz1d p.n_bot (kxVec p wl) i * T i = p.n_top * Complex.cos p.theta * deltaI0 i
          - kz1d p.n_top (kxVec p wl) i * R i)) ∨
       (p.pol = 1 ∧ (∀ j, o.res.R_p j = R) ∧ (∀ j, o.res.T_p j = T) ∧
        (∀ i, kz1d p.n_bot (kxVec p wl) i / p.n_bot ^ 2 * T i = Complex.cos p.theta / p.n_top * deltaI0 i
          - kz1d p.n_top (kxVec p wl) i / p.n_top ^ 2 * R i))) := by
  obtain ⟨hl, init, r, x, hi, hr, hx, rfl⟩ := (solve_1d_iff hp).mp h
  rw [ht, List.zip_nil_right] at hr
  obtain rfl : (init.2.2, []) = r := Except.ok.inj hr
  obtain ⟨e1, e2⟩ := transfer_1d_1_kz hi
  obtain ⟨R, T, hF, hT, -, hc⟩ := transfer_1d_4_ok hx
  have hst : init.2.2.F = 1 ∧ init.2.2.T = 1 ∧ (p.pol = 0 → init.2.2.G = Complex.I • diagonal (kz1d p.n_bot (kxVec p wl))) ∧
      (p.pol = 1 → init.2.2.G = Complex.I • diagonal (fun i => kz1d p.n_bot (kxVec p wl) i / p.n_bot ^ 2)) := by
    unfold transfer_1d_1 at hi
    by_cases h0 : p.pol = 0
    · simp only [h0, if_true, Except.ok.injEq] at hi
      subst hi
      simp [h0]
    · by_cases h1 : p.pol = 1
      · simp only [h1, one_ne_zero, if_true, if_false, Except.ok.injEq] at hi
        subst hi
        simp [h1]
      · simp [h0, h1] at hi
  obtain ⟨s1, s2, s3, s4⟩ := hst
  rw [s1, one_mulVec] at hF
  rw [s2, one_mulVec] at hT
  refine ⟨R, T, by rw [hT, hF], ?_⟩
  rcases hc with ⟨h0, hG, -, hR, hTs, -, -⟩ | ⟨h0, hG, -, hR, hTs, -, -⟩
  · refine .inl ⟨h0, hR, hTs, fun i => ?_⟩
    have := congrFun hG i
    rw [s3 h0, smul_mulVec, Pi.smul_apply, mulVec_diagonal, ← hT, e1, smul_eq_mul] at this
    have hI := Complex.I_ne_zero
    refine mul_left_cancel₀ hI ?_
    linear_combination this
  · refine .inr ⟨h0, hR, hTs, fun i => ?_⟩
    have := congrFun hG i
    rw [s4 h0, smul_mulVec, Pi.smul_apply, mulVec_diagonal, ← hT, e1, smul_eq_mul] at this
    have hI := Complex.I_ne_zero
    refine mul_left_cancel₀ hI ?_
    linear_combination this

/-- The relations between the amplitudes of one order at a bare interface, conical and 2D solvers. -/
def BareEqs (p : Params) (psi : ℂ) (kzt kzb : FlatIdx p.fto.1 p.fto.2 → ℂ)
    (x : SubRes (2 * p.fto.2 + 1) (2 * p.fto.1 + 1)) : Prop :=
  ∀ j i, let k : FlatIdx p.fto.1 p.fto.2 := finProdFinEquiv (j, i)
    x.T_s j i = x.R_s j i + Complex.sin psi * deltaI0 k ∧
    kzb k * x.T_s j i = -(kzt k * x.R_s j i) + Complex.sin psi * p.n_top * Complex.cos p.theta * deltaI0 k ∧
    x.T_p j i = x.R_p j i + Complex.I * p.n_top * Complex.cos psi * deltaI0 k ∧
    kzb k / p.n_bot ^ 2 * x.T_p j i = -(kzt k / p.n_top ^ 2 * x.R_p j i)
      + Complex.I * Complex.cos psi * Complex.cos p.theta * deltaI0 k

theorem bare_subRes {p : Params} {wl : ℝ} {init} (psi : ℂ)
    (hi : transfer_2d_1 (kxF p wl) (kyF p wl) p.n_top p.n_bot = .ok init) {rt}
    (hrt : finalA p.n_top init.1 init.2.2.2 *ᵥ rt = finalB deltaI0 psi p.theta p.n_top) :
    BareEqs p psi (kz2d p.n_top (kxF p wl) (kyF p wl)) (kz2d p.n_bot (kxF p wl) (kyF p wl))
      (subResOf init.2.2.2 init.1 init.2.1 p.theta p.n_top p.n_bot rt) := by
  unfold transfer_2d_1 at hi
  simp only [Except.bind_ok, Except.ok.injEq] at hi
  obtain ⟨vp, -, rfl⟩ := hi
  obtain ⟨q1, q2, q3, q4⟩ := final_eqs hrt
  intro j i k
  have c1 : ∀ (A B : Matrix (FlatIdx p.fto.1 p.fto.2) (FlatIdx p.fto.1 p.fto.2) ℂ) (v : FlatIdx p.fto.1 p.fto.2 ⊕ FlatIdx p.fto.1 p.fto.2 → ℂ),
      (fromBlocks A 0 0 B *ᵥ v) = Sum.elim (A *ᵥ (v ∘ Sum.inl)) (B *ᵥ (v ∘ Sum.inr)) := by
    intro A B v
    rw [fromBlocks_mulVec]; simp
  have q1 := q1 k; have q2 := q2 k; have q3 := q3 k; have q4 := q4 k
  simp only [c1, Sum.elim_inl, Sum.elim_inr, one_mulVec, smul_mulVec, Pi.smul_apply, mulVec_diagonal, smul_eq_mul,
    Function.comp_apply] at q1 q2 q3 q4
  have hI := Complex.I_ne_zero
  have hII := Complex.I_mul_I
  simp only [subResOf, one_mulVec]
  refine ⟨q1, ?_, ?_, ?_⟩
  · refine mul_left_cancel₀ hI ?_
    linear_combination q3
  · linear_combination q4
  · refine mul_left_cancel₀ hI ?_
    linear_combination q2 - Complex.cos psi * Complex.cos p.theta * deltaI0 k * hII

theorem bare_2d {la : LinAlg} {s : Settings} {sol : Solved s.p.fto.1 s.p.fto.2} (hp : s.p.use_pinv = false)
    (ht : s.p.thickness = []) (ha : s.algo = .tmm) (hg : gratingType s ≠ 0) (h : conv_solve la s = .ok sol) :
    ∃ x xe xm, sol.result = ⟨some x, some xe, some xm⟩ ∧
      BareEqs s.p s.p.psi (kz2d s.p.n_top (kxF s.p s.p.wavelength) (kyF s.p s.p.wavelength))
        (kz2d s.p.n_bot (kxF s.p s.p.wavelength) (kyF s.p s.p.wavelength)) x := by
  have main : ∀ {init x}, transfer_2d_1 (kxF s.p s.p.wavelength) (kyF s.p s.p.wavelength) s.p.n_top s.p.n_bot = .ok init →
      transfer_2d_4 la init.2.2.2 init.1 init.2.1 s.p.psi s.p.theta s.p.n_top s.p.n_bot false = .ok x →
      BareEqs s.p s.p.psi (kz2d s.p.n_top (kxF s.p s.p.wavelength) (kyF s.p s.p.wavelength))
        (kz2d s.p.n_bot (kxF s.p s.p.wavelength) (kyF s.p s.p.wavelength)) x.res := by
    intro init x hi hx
    unfold transfer_2d_4 at hx
    simp only [Except.bind_ok, meeinv_false_ok, Except.ok.injEq] at hx
    obtain ⟨N, ⟨hu, rfl⟩, rfl⟩ := hx
    refine bare_subRes s.p.psi hi ?_
    rw [mulVec_mulVec, mul_nonsing_inv _ hu, one_mulVec]
  rcases conv_solve_cases h with ⟨h1, -⟩ | ⟨h1, ⟨o, rfl⟩ | rfl⟩ | ⟨h1, o, rfl⟩
  · exact absurd h1 hg
  · obtain ⟨cs, -, -, -, hs⟩ := conv_solve_conical.mp h
    obtain ⟨hl, -, init, r, x, hi, hr, hx, rfl⟩ := (solve_con_iff hp).mp hs
    rw [ht, List.zip_nil_right] at hr
    obtain rfl : (init.2.2.2, []) = r := Except.ok.inj hr
    exact ⟨_, _, _, rfl, main hi hx⟩
  · obtain ⟨cs, -, h2⟩ := conv_solve_ok.mp h
    rw [solve_for_conv_smm] at h2
    rw [h2.2] at ha
    cases ha
  · obtain ⟨cs, -, -, -, hs⟩ := conv_solve_twoD.mp h
    obtain ⟨hl, init, r, x, hi, hr, hx, rfl⟩ := (solve_2d_iff hp).mp hs
    rw [ht, List.zip_nil_right] at hr
    obtain rfl : (init.2.2.2, []) = r := Except.ok.inj hr
    exact ⟨_, _, _, rfl, main hi hx⟩

/-- Solution of the two linear equations of one polarization. -/
theorem fresnel_solve {a b r t u : ℂ} (hab : a + b ≠ 0) (h1 : t = r + u) (h2 : b * t = -(a * r) + u * a) :
    r = u * ((a - b) / (a + b)) ∧ t = u * (2 * a / (a + b)) := by
  subst h1
  constructor
  · field_simp
    linear_combination h2
  · field_simp
    linear_combination h2

theorem fresnel_tm {n₁ n₂ c₁ c₂ : ℂ} (h1 : n₁ ≠ 0) (h2 : n₂ ≠ 0) (h : n₂ * c₁ + n₁ * c₂ ≠ 0) :
    (c₁ / n₁ + c₂ / n₂ ≠ 0) ∧ (c₁ / n₁ - c₂ / n₂) / (c₁ / n₁ + c₂ / n₂) = Spec.rTM n₁ n₂ c₁ c₂ ∧
      2 * (c₁ / n₁) / (c₁ / n₁ + c₂ / n₂) = Spec.tTM n₁ n₂ c₁ c₂ := by
  have e : c₁ / n₁ + c₂ / n₂ = (n₂ * c₁ + n₁ * c₂) / (n₁ * n₂) := by field_simp
  have e' : c₁ / n₁ - c₂ / n₂ = (n₂ * c₁ - n₁ * c₂) / (n₁ * n₂) := by field_simp
  refine ⟨by rw [e]; exact div_ne_zero h (mul_ne_zero h1 h2), ?_, ?_⟩
  · rw [e, e', Spec.rTM, div_div_div_cancel_right₀ (mul_ne_zero h1 h2)]
  · rw [e, Spec.tTM]
    field_simp

end Meent
