import Verif.Lemmas.AbsorbSpec
import Verif.Lemmas.AbsorbTE
import Mathlib.Analysis.Matrix.PosDef

/-!
# Transparent layers above something that absorbs (helper lemmas)
-/

open Matrix

namespace Meent

set_option linter.unusedSectionVars false
set_option linter.unusedSimpArgs false
set_option linter.unusedVariables false

section
variable {n : Type} [Fintype n] [DecidableEq n]

/-- What the loop needs from a transparent layer. -/
structure ClearModes (J W V : Matrix n n ℂ) (q : n → ℂ) : Prop where
  hW : IsUnit W.det
  hV : IsUnit V.det
  hN : Lossless J W V q
  hf : ∀ a, 0 ≤ (beta (Wᴴ * J * V) a a).im

/-- The matrix of a step is invertible. -/
theorem stepA_unit {J W V : Matrix n n ℂ} {s : TState n} (hW : IsUnit W.det) (hV : IsUnit V.det)
    (hf : ∀ a, 0 ≤ (beta (Wᴴ * J * V) a a).im) (hs : StrictState J s) : IsUnit (stepA W V s).det := by
  rw [isUnit_iff_ne_zero]
  intro h0
  obtain ⟨v, hv, e⟩ := Matrix.exists_mulVec_eq_zero_iff.mpr h0
  set u := W⁻¹ *ᵥ (s.F *ᵥ v) with hu
  have e1 : s.F *ᵥ v = W *ᵥ u := by rw [hu, mulVec_mulVec, mul_nonsing_inv _ hW, one_mulVec]
  have e2 : s.G *ᵥ v = V *ᵥ (-u) := by
    have : u + V⁻¹ *ᵥ (s.G *ᵥ v) = 0 := by
      unfold stepA at e
      rw [smul_mulVec, add_mulVec, ← mulVec_mulVec, ← mulVec_mulVec] at e
      exact (smul_eq_zero.mp e).resolve_left (by norm_num)
    have : V⁻¹ *ᵥ (s.G *ᵥ v) = -u := by rw [eq_neg_iff_add_eq_zero, add_comm]; exact this
    rw [← this, mulVec_mulVec, mul_nonsing_inv _ hV, one_mulVec]
  have hp := hs v hv
  unfold flux at hp
  rw [e1, e2, beta_mulVec_left, beta_mulVec_right] at hp
  have : beta (Wᴴ * J * V) u (-u) = -beta (Wᴴ * J * V) u u := by simp [beta, mulVec_neg]
  rw [this, Complex.neg_im] at hp
  have := hf u
  linarith

theorem phaseX_unit (k0 : ℝ) (q : n → ℂ) (d : ℝ) : IsUnit (phaseX k0 q d).det := by
  unfold phaseX
  exact isUnit_diag fun i => Complex.exp_ne_zero _

/-- A transparent layer passes strictness on. -/
theorem ClearModes.step {J W V : Matrix n n ℂ} {q : n → ℂ} (h : ClearModes J W V q) {la : LinAlg} {k0 d : ℝ}
    {s : TState n} (hs : StrictState J s) : ∃ r, tmmStep la false (phaseX k0 q d) W V s = .ok r ∧ StrictState J r.1 := by
  have hA := stepA_unit h.hW h.hV h.hf hs
  set Ai := (stepA W V s)⁻¹ with hAi
  set B := (1 / 2 : ℂ) • (W⁻¹ * s.F - V⁻¹ * s.G) with hB
  set X := phaseX k0 q d with hX
  have hD : StepData X W V s ⟨W * (1 + X * B * Ai * X), V * (1 - X * B * Ai * X), s.T * Ai * X⟩ Ai B :=
    ⟨h.hW, h.hV, hA, rfl, rfl, rfl⟩
  refine ⟨_, tmmStep_ok.mpr hD, fun t ht => ?_⟩
  rw [hX] at hD
  rw [hD.flux_eq h.hN]
  refine hs _ fun h0 => ht ?_
  have hu : IsUnit (Ai * phaseX k0 q d).det := by
    rw [det_mul]
    exact (isUnit_nonsing_inv_det _ hA).mul (phaseX_unit _ _ _)
  have e : t = (Ai * phaseX k0 q d)⁻¹ *ᵥ ((Ai * phaseX k0 q d) *ᵥ t) := by rw [mulVec_mulVec, nonsing_inv_mul _ hu, one_mulVec]
  rw [e, h0, mulVec_zero]

/-- A loop over absorbing and transparent layers that stands on something absorbing. -/
theorem runLayers_mixed {C L : Type} {step : C → ℝ → TState n → Res (TState n × L)} {J : Matrix n n ℂ} (P Q : C × ℝ → Prop)
    (hP : ∀ x s, P x → WeakState J s → ∃ r, step x.1 x.2 s = .ok r ∧ StrictState J r.1)
    (hQ : ∀ x s, Q x → StrictState J s → ∃ r, step x.1 x.2 s = .ok r ∧ StrictState J r.1) :
    ∀ (xs : List (C × ℝ)) (s : TState n × List L), (∀ x ∈ xs, P x ∨ Q x) →
      (StrictState J s.1 ∨ WeakState J s.1 ∧ ∃ x, xs.getLast? = some x ∧ P x) →
      ∃ r, runLayers step xs s = .ok r ∧ StrictState J r.1
  | [], s, _, hs => by
    rcases hs with hs | ⟨-, x, hx, -⟩
    · exact ⟨s, rfl, hs⟩
    · cases hx
  | x :: xs, s, h, hs => by
    by_cases hxs : xs = [] ∧ ¬ StrictState J s.1
    · obtain ⟨rfl, hn⟩ := hxs
      obtain ⟨hw, y, hy, hPy⟩ := hs.resolve_left hn
      obtain rfl : x = y := by simpa using hy
      obtain ⟨r, hr, hst⟩ := hP x s.1 hPy hw
      refine ⟨(r.1, s.2 ++ [r.2]), ?_, hst⟩
      simp only [runLayers, Except.bind_ok, Except.ok.injEq]
      exact ⟨s, rfl, r, hr, rfl⟩
    · have hs' : StrictState J s.1 ∨ WeakState J s.1 ∧ ∃ x, xs.getLast? = some x ∧ P x := by
        rcases hs with hs | ⟨hw, y, hy, hPy⟩
        · exact Or.inl hs
        · by_cases hst : StrictState J s.1
          · exact Or.inl hst
          · have hne : xs ≠ [] := fun h0 => hxs ⟨h0, hst⟩
            refine Or.inr ⟨hw, y, ?_, hPy⟩
            rwa [List.getLast?_cons_of_ne_nil hne] at hy
      obtain ⟨r, hr, hst⟩ := runLayers_mixed P Q hP hQ xs s (fun y hy => h y (List.mem_cons_of_mem _ hy)) hs'
      have : ∃ r', step x.1 x.2 r.1 = .ok r' ∧ StrictState J r'.1 := by
        rcases h x List.mem_cons_self with h | h
        · exact hP x r.1 h hst.weak
        · exact hQ x r.1 h hst
      obtain ⟨r', hr', hst'⟩ := this
      refine ⟨(r'.1, r.2 ++ [r'.2]), ?_, hst'⟩
      simp only [runLayers, Except.bind_ok, Except.ok.injEq]
      exact ⟨r, hr, r', hr', rfl⟩

/-- The modes of a definite Hermitian problem, weighted by a function with non-negative imaginary part of their eigenvalues. -/
theorem overlap_fun {G : Matrix n n ℂ} {l : n → ℂ} (hG : G.IsHermitian) (hp : Side 1 G) (hl : (G * diagonal l).IsHermitian)
    (φ : ℂ → ℂ) (hφ : ∀ x : ℝ, 0 ≤ (φ x).im) (a : n → ℂ) : 0 ≤ (beta (G * diagonal fun i => φ (l i)) a a).im := by
  have e : ∀ i j, G i j * l j = star (l i) * G i j := by
    intro i j
    have := congrFun (congrFun hl.eq i) j
    rw [conjTranspose_apply, mul_diagonal, mul_diagonal, star_mul'] at this
    have h2 := congrFun (congrFun hG.eq i) j
    rw [conjTranspose_apply] at h2
    rw [h2] at this
    rw [← this]; ring
  have hd : ∀ i, G i i ≠ 0 := by
    intro i h0
    have := hp (Pi.single i 1) (by simp)
    rw [one_mul, beta_expand] at this
    simp [Pi.single_apply, h0, apply_ite] at this
  have hre : ∀ i, (l i).im = 0 := by
    intro i
    have := e i i
    rw [mul_comm] at this
    have := mul_right_cancel₀ (hd i) this
    exact Complex.conj_eq_iff_im.mp this.symm
  have hij : ∀ i j, G i j ≠ 0 → l i = l j := by
    intro i j h0
    have := e i j
    rw [mul_comm] at this
    have := mul_right_cancel₀ h0 this
    rw [this, Complex.star_def, Complex.conj_eq_iff_im.mpr (hre i)]
  set q : n → ℂ := fun i => φ (l i) with hq
  set w : n → ℂ := fun i => ((Real.sqrt (q i).im : ℝ) : ℂ) with hw
  have hqi : ∀ i, 0 ≤ (q i).im := fun i => by
    have e : l i = (((l i).re : ℝ) : ℂ) := Complex.ext rfl (by rw [hre i, Complex.ofReal_im])
    simp only [hq]
    rw [e]
    exact hφ _
  -- the imaginary part
  have e1 : (G * diagonal q) - (G * diagonal q)ᴴ = (2 * Complex.I) • (diagonal w * G * diagonal w) := by
    ext i j
    rw [Matrix.sub_apply, conjTranspose_apply, mul_diagonal, mul_diagonal, Matrix.smul_apply, mul_diagonal, diagonal_mul, star_mul']
    have h2 := congrFun (congrFun hG.eq i) j
    rw [conjTranspose_apply] at h2
    rw [h2]
    by_cases h0 : G i j = 0
    · rw [h0]; simp
    · have hll := hij i j h0
      have hqq : q i = q j := by simp only [hq, hll]
      have hww : w i = w j := by simp only [hw, hqq]
      have hw2 : w j * w j = ((q j).im : ℂ) := by
        simp only [hw]
        rw [← Complex.ofReal_mul, Real.mul_self_sqrt (hqi j)]
      have him : q j - star (q j) = 2 * Complex.I * ((q j).im : ℂ) := by
        rw [Complex.star_def, Complex.sub_conj]; push_cast; ring
      rw [hqq, hww, smul_eq_mul]
      linear_combination G i j * him - 2 * Complex.I * G i j * hw2
  have e2 : (beta (G * diagonal q) a a).im = (beta (diagonal w * G * diagonal w) a a).re := by
    have h1 : beta (G * diagonal q) a a - beta ((G * diagonal q)ᴴ) a a = (2 * Complex.I) * beta (diagonal w * G * diagonal w) a a := by
      rw [← beta_sub_mat, e1]
      unfold beta
      rw [smul_mulVec, dotProduct_smul, smul_eq_mul]
    have h2 := congrArg Complex.im h1
    rw [Complex.sub_im, beta_im_conj] at h2
    have h3 : (2 * Complex.I * beta (diagonal w * G * diagonal w) a a).im = 2 * (beta (diagonal w * G * diagonal w) a a).re := by
      rw [mul_assoc]
      simp
    rw [h3] at h2
    linarith
  rw [e2]
  have hwh : (diagonal w)ᴴ = diagonal w := by
    rw [diagonal_conjTranspose]
    congr 1
    funext i
    simp [hw]
  have := beta_sandwich (diagonal w) G a
  rw [hwh] at this
  rw [this]
  have := side_re_nonneg hp (diagonal w *ᵥ a)
  rwa [one_mul] at this

/-- The modes of a definite Hermitian problem carry flux in the direction in which their phase moves. -/
theorem overlap_nonneg {G : Matrix n n ℂ} {l : n → ℂ} (hG : G.IsHermitian) (hp : Side 1 G) (hl : (G * diagonal l).IsHermitian)
    (a : n → ℂ) : 0 ≤ (beta (G * diagonal fun i => csqrt (l i)) a a).im :=
  overlap_fun hG hp hl csqrt (fun x => csqrt_im_nonneg (Complex.ofReal_im x).ge) a

/-- The convolution matrices of a transparent layer. -/
structure ClearConv (c : Conv n) : Prop where
  x : c.epx.IsHermitian
  y : c.epy.IsHermitian
  z : c.epzi.IsHermitian
  px : Side 1 c.epx

/-- No mode of the layer is at cut-off. -/
def NoCutoff (pol : ℝ) (kx : n → ℂ) (c : Conv n) : Prop :=
  IsUnit (if pol = 0 then diagonal (fun i => kx i ^ 2) - c.epy else diagonal kx * c.epzi * diagonal kx - 1).det

open scoped ComplexOrder in
theorem one_side (v : n → ℂ) (hv : v ≠ 0) : 0 < (beta 1 v v).re := by
  have h1 := dotProduct_star_self_pos_iff.mpr hv
  have : beta (1 : Matrix n n ℂ) v v = star v ⬝ᵥ v := by rw [beta, one_mulVec]
  rw [this]
  exact (Complex.pos_iff.mp h1).1

theorem eig_of_hermitian {H : Matrix n n ℂ} (hH : H.IsHermitian) : H * (hH.eigenvectorUnitary : Matrix n n ℂ)
    = (hH.eigenvectorUnitary : Matrix n n ℂ) * diagonal fun i => (hH.eigenvalues i : ℂ) := by
  ext i j
  rw [mul_diagonal, mul_apply]
  have h2 := congrFun (hH.mulVec_eigenvectorBasis j) i
  simp only [mulVec, dotProduct, Pi.smul_apply, Complex.real_smul] at h2
  simp only [IsHermitian.eigenvectorUnitary_apply]
  rw [h2, mul_comm]

open scoped ComplexOrder in
theorem side_posDef {A : Matrix n n ℂ} (h : A.IsHermitian) (hp : Side 1 A) : A.PosDef := by
  refine Matrix.PosDef.of_dotProduct_mulVec_pos h fun v hv => ?_
  have h1 := hp v hv
  rw [one_mul] at h1
  have h2 := IsHermitian.beta_im h v
  exact Complex.pos_iff.mpr ⟨h1, h2.symm⟩

/-- A positive definite matrix times a Hermitian one has a basis of eigenvectors. -/
theorem diagonalisable_posDef_mul {A B : Matrix n n ℂ} (hA : A.IsHermitian) (hp : Side 1 A) (hB : B.IsHermitian) :
    Spec.Diagonalisable (A * B) := by
  set U : Matrix n n ℂ := (hA.eigenvectorUnitary : Matrix n n ℂ) with hU
  have h1 : U * Uᴴ = 1 := Unitary.coe_mul_star_self hA.eigenvectorUnitary
  have h2 : Uᴴ * U = 1 := Unitary.coe_star_mul_self hA.eigenvectorUnitary
  have hAU : A * U = U * diagonal fun i => (hA.eigenvalues i : ℂ) := by
    have := eig_of_hermitian hA
    exact this
  have hpos := (side_posDef hA hp).eigenvalues_pos
  set r : n → ℂ := fun i => ((Real.sqrt (hA.eigenvalues i) : ℝ) : ℂ) with hr
  have hrr : diagonal r * diagonal r = diagonal fun i => (hA.eigenvalues i : ℂ) := by
    rw [diagonal_mul_diagonal]
    congr 1
    funext i
    simp only [hr]
    rw [← Complex.ofReal_mul, Real.mul_self_sqrt (hpos i).le]
  set C : Matrix n n ℂ := U * diagonal r * Uᴴ with hC
  have hCC : C * C = A := by
    calc C * C = U * diagonal r * (Uᴴ * U) * diagonal r * Uᴴ := by simp only [hC, Matrix.mul_assoc]
      _ = U * (diagonal r * diagonal r) * Uᴴ := by rw [h2, Matrix.mul_one, Matrix.mul_assoc U]
      _ = A := by rw [hrr, ← hAU, Matrix.mul_assoc, h1, Matrix.mul_one]
  have hCh : C.IsHermitian := by
    have : (diagonal r).IsHermitian := isHermitian_diagonal_real fun i => by simp [hr]
    have := isHermitian_conjTranspose_mul_mul Uᴴ this
    rwa [conjTranspose_conjTranspose] at this
  have hCu : IsUnit C.det := by
    have : IsUnit (C * C).det := by rw [hCC]; exact hp.isUnit
    rw [det_mul] at this
    exact isUnit_of_mul_isUnit_left this
  have hH : (C * B * C).IsHermitian := by
    have := isHermitian_conjTranspose_mul_mul C hB
    rwa [hCh.eq] at this
  obtain ⟨W, l, hW, he⟩ := diagonalisable_shift hH 0
  rw [zero_smul, sub_zero] at he
  refine ⟨C * W, l, by rw [det_mul]; exact hCu.mul hW, ?_⟩
  calc A * B * (C * W) = C * (C * B * C * W) := by rw [← hCC]; simp only [Matrix.mul_assoc]
    _ = C * W * diagonal l := by rw [he, ← Matrix.mul_assoc C W]

theorem clearModes_1d {la : LinAlg} {pol : ℝ} (hpol : pol = 0 ∨ pol = 1) {kx : n → ℂ} {c : Conv n} (hk : ∀ i, star (kx i) = kx i)
    (hc : ClearConv c) (hn : NoCutoff pol kx c) (hb : IsUnit (la.eig (eigMat1d pol kx c)).2.det) :
    ∃ m, transfer_1d_2 la pol kx c false = .ok m ∧ ClearModes 1 m.W m.V m.q := by
  rcases hpol with rfl | rfl
  · rw [eigMat1d, if_pos rfl] at hb
    rw [NoCutoff, if_pos rfl] at hn
    set A := diagonal (fun i => kx i ^ 2) - c.epy with hA
    have hq := isUnit_diag (eig_ne hn hb)
    have hd : transfer_1d_2 la 0 kx c false = .ok ⟨(la.eig A).2, (la.eig A).2 * diagonal (fun i => csqrt ((la.eig A).1 i)),
      fun i => csqrt ((la.eig A).1 i)⟩ := by rw [transfer_1d_2, if_pos rfl]
    have hAh : A.IsHermitian := by
      rw [hA]
      exact (isHermitian_diagonal_real (fun i => by rw [star_pow, hk])).sub hc.y
    refine ⟨_, hd, hb, by simp only; rw [det_mul]; exact hb.mul hq, modes1d_lossless hk hc.x hc.y hc.z hd, fun a => ?_⟩
    simp only
    rw [Matrix.mul_one, ← Matrix.mul_assoc]
    refine overlap_nonneg (l := (la.eig A).1) (isHermitian_conjTranspose_mul_self _) ?_ ?_ a
    · intro v hv
      have hne : (la.eig A).2 *ᵥ v ≠ 0 := fun h0 => hv (by
        have e : v = (la.eig A).2⁻¹ *ᵥ ((la.eig A).2 *ᵥ v) := by rw [mulVec_mulVec, nonsing_inv_mul _ hb, one_mulVec]
        rw [e, h0, mulVec_zero])
      have := beta_sandwich (la.eig A).2 1 v
      rw [Matrix.mul_one] at this
      rw [this, one_mul]
      exact one_side _ hne
    · rw [Matrix.mul_assoc, ← la.eig_law A, ← Matrix.mul_assoc]
      exact isHermitian_conjTranspose_mul_mul _ hAh
  · rw [eigMat1d, if_neg one_ne_zero] at hb
    rw [NoCutoff, if_neg one_ne_zero] at hn
    set B := diagonal kx * c.epzi * diagonal kx - 1 with hB
    have hx := hc.px.isUnit
    have hu : IsUnit (c.epx * B).det := by rw [det_mul]; exact hx.mul hn
    have hq := isUnit_diag (eig_ne hu hb)
    have hd : transfer_1d_2 la 1 kx c false = .ok ⟨(la.eig (c.epx * B)).2, c.epx⁻¹ * (la.eig (c.epx * B)).2 *
      diagonal (fun i => csqrt ((la.eig (c.epx * B)).1 i)), fun i => csqrt ((la.eig (c.epx * B)).1 i)⟩ := by
      rw [transfer_1d_2, if_neg one_ne_zero, if_pos rfl]
      exact Except.bind_ok.mpr ⟨_, meeinv_false_ok.mpr ⟨hx, rfl⟩, rfl⟩
    have hV : IsUnit (c.epx⁻¹ * (la.eig (c.epx * B)).2 * diagonal (fun i => csqrt ((la.eig (c.epx * B)).1 i))).det := by
      rw [det_mul, det_mul]
      exact ((isUnit_nonsing_inv_det _ hx).mul hb).mul hq
    have hBh : B.IsHermitian := by
      have hK := (isHermitian_diagonal_real hk).eq
      have := isHermitian_conjTranspose_mul_mul (diagonal kx) hc.z
      rw [hK] at this
      exact this.sub isHermitian_one
    refine ⟨_, hd, hb, hV, modes1d_lossless hk hc.x hc.y hc.z hd, fun a => ?_⟩
    simp only
    rw [Matrix.mul_one, ← Matrix.mul_assoc, ← Matrix.mul_assoc]
    set W := (la.eig (c.epx * B)).2 with hW
    refine overlap_nonneg (l := (la.eig (c.epx * B)).1) (isHermitian_conjTranspose_mul_mul _ hc.x.inv) ?_ ?_ a
    · intro v hv
      have hne : W *ᵥ v ≠ 0 := fun h0 => hv (by
        have e : v = W⁻¹ *ᵥ (W *ᵥ v) := by rw [mulVec_mulVec, nonsing_inv_mul _ hb, one_mulVec]
        rw [e, h0, mulVec_zero])
      rw [beta_sandwich]
      have := hc.px.inv _ hne
      rwa [star_one] at this
    · rw [Matrix.mul_assoc, ← la.eig_law (c.epx * B)]
      have : Wᴴ * c.epx⁻¹ * (c.epx * B * W) = Wᴴ * B * W := by
        rw [show c.epx * B * W = c.epx * (B * W) by rw [Matrix.mul_assoc], Matrix.mul_assoc, nonsing_inv_mul_cancel_left _ _ hx,
          Matrix.mul_assoc]
      rw [← hW, this]
      exact isHermitian_conjTranspose_mul_mul _ hBh

end

end Meent
