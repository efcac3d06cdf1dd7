import Verif.Lemmas.Energy2D
import Verif.Lemmas.CfsConv
import Verif.Lemmas.ConvMats
import Mathlib.Analysis.Calculus.MeanValue
import Mathlib.Analysis.SpecialFunctions.ExpDeriv
import Mathlib.Analysis.Calculus.Deriv.Star

/-!
# Absorbing layers take flux out of the field (helper lemmas)
-/

open Matrix

namespace Meent

set_option linter.unusedSectionVars false
set_option linter.unusedSimpArgs false

section
variable {n : Type} [Fintype n] [DecidableEq n]

/-- The imaginary part of the quadratic form is never positive. -/
def Lossy (M : Matrix n n ℂ) : Prop := ∀ v, (beta M v v).im ≤ 0

/-- The imaginary part of the quadratic form is never negative. -/
def Gainy (M : Matrix n n ℂ) : Prop := ∀ v, 0 ≤ (beta M v v).im

theorem beta_im_conj (M : Matrix n n ℂ) (v : n → ℂ) : (beta Mᴴ v v).im = -(beta M v v).im := by
  rw [← star_beta, Complex.star_def, Complex.conj_im]

theorem Lossy.inv {M : Matrix n n ℂ} (h : Lossy M) (hu : IsUnit M.det) : Gainy M⁻¹ := by
  intro v
  have e : v = M *ᵥ (M⁻¹ *ᵥ v) := by rw [mulVec_mulVec, mul_nonsing_inv _ hu, one_mulVec]
  have : beta M⁻¹ v v = beta Mᴴ (M⁻¹ *ᵥ v) (M⁻¹ *ᵥ v) := by
    conv_lhs => rw [e]
    rw [beta_mulVec_left, beta_mulVec_right, Matrix.mul_assoc, nonsing_inv_mul _ hu, Matrix.mul_one]
  rw [this, beta_im_conj]
  linarith [h (M⁻¹ *ᵥ v)]

theorem Gainy.inv {M : Matrix n n ℂ} (h : Gainy M) (hu : IsUnit M.det) : Lossy M⁻¹ := by
  intro v
  have e : v = M *ᵥ (M⁻¹ *ᵥ v) := by rw [mulVec_mulVec, mul_nonsing_inv _ hu, one_mulVec]
  have : beta M⁻¹ v v = beta Mᴴ (M⁻¹ *ᵥ v) (M⁻¹ *ᵥ v) := by
    conv_lhs => rw [e]
    rw [beta_mulVec_left, beta_mulVec_right, Matrix.mul_assoc, nonsing_inv_mul _ hu, Matrix.mul_one]
  rw [this, beta_im_conj]
  linarith [h (M⁻¹ *ᵥ v)]

theorem beta_neg_mat (M : Matrix n n ℂ) (u v : n → ℂ) : beta (-M) u v = -beta M u v := by
  simp [beta, neg_mulVec]

theorem IsHermitian.beta_im {M : Matrix n n ℂ} (h : M.IsHermitian) (v : n → ℂ) : (beta M v v).im = 0 := by
  have := beta_im_conj M v
  rw [h.eq] at this
  linarith

theorem beta_sandwich (K M : Matrix n n ℂ) (v : n → ℂ) : beta (Kᴴ * M * K) v v = beta M (K *ᵥ v) (K *ᵥ v) := by
  rw [beta_mulVec_left, beta_mulVec_right]

/-- Modes of a layer that only takes flux out. -/
structure Dissipative (J W V : Matrix n n ℂ) (q : n → ℂ) : Prop where
  nq : Gainy (Wᴴ * J * V * diagonal q)
  nhq : Lossy ((Wᴴ * J * V)ᴴ * diagonal q)

theorem Dissipative.of_PR {J P R W V : Matrix n n ℂ} {q : n → ℂ}
    (hP : P * V = W * diagonal q) (hR : R * W = V * diagonal q)
    (hJR : Gainy (J * R)) (hJP : Lossy (Jᴴ * P)) : Dissipative J W V q := by
  constructor
  · have : Wᴴ * J * V * diagonal q = Wᴴ * (J * R) * W := by
      rw [Matrix.mul_assoc _ V, ← hR]; simp only [Matrix.mul_assoc]
    intro v
    rw [this, beta_sandwich]
    exact hJR _
  · have : (Wᴴ * J * V)ᴴ * diagonal q = Vᴴ * (Jᴴ * P) * V := by
      simp only [conjTranspose_mul, conjTranspose_conjTranspose, Matrix.mul_assoc]
      rw [← hP]
    intro v
    rw [this, beta_sandwich]
    exact hJP _

/-- The downward waves of a layer at depth `z`. -/
noncomputable def waveX (k0 : ℝ) (q a : n → ℂ) (z : ℝ) (i : n) : ℂ := Complex.exp (-(k0 : ℂ) * q i * (z : ℂ)) * a i

/-- The upward waves of a layer of thickness `d` at depth `z`. -/
noncomputable def waveY (k0 : ℝ) (q b : n → ℂ) (d z : ℝ) (i : n) : ℂ := Complex.exp (-(k0 : ℂ) * q i * ((d - z : ℝ) : ℂ)) * b i

theorem waveX_deriv (k0 : ℝ) (q a : n → ℂ) (z : ℝ) (i : n) :
    HasDerivAt (fun z => waveX k0 q a z i) (-(k0 : ℂ) * q i * waveX k0 q a z i) z := by
  have h0 : HasDerivAt (fun z : ℝ => -(k0 : ℂ) * q i * (z : ℂ)) (-(k0 : ℂ) * q i) z := by
    simpa using (Complex.ofRealCLM.hasDerivAt (x := z)).const_mul (-(k0 : ℂ) * q i)
  have := (h0.cexp).mul_const (a i)
  refine this.congr_deriv ?_
  simp only [waveX]; ring

theorem waveY_deriv (k0 : ℝ) (q b : n → ℂ) (d z : ℝ) (i : n) :
    HasDerivAt (fun z => waveY k0 q b d z i) ((k0 : ℂ) * q i * waveY k0 q b d z i) z := by
  have h0 : HasDerivAt (fun z : ℝ => -(k0 : ℂ) * q i * ((d - z : ℝ) : ℂ)) ((k0 : ℂ) * q i) z := by
    have hz : HasDerivAt (fun z : ℝ => ((d - z : ℝ) : ℂ)) (-1) z := by
      have := ((hasDerivAt_id z).const_sub d).ofReal_comp
      simpa using this
    have := hz.const_mul (-(k0 : ℂ) * q i)
    simpa using this
  have := (h0.cexp).mul_const (b i)
  refine this.congr_deriv ?_
  simp only [waveY]; ring

/-- How the flux changes with depth. -/
theorem flux_deriv (N : Matrix n n ℂ) (q : n → ℂ) (k0 d : ℝ) (a b : n → ℂ) (z : ℝ) :
    HasDerivAt (fun z => (beta N (waveX k0 q a z + waveY k0 q b d z) (waveX k0 q a z - waveY k0 q b d z)).im)
      (k0 * ((beta (Nᴴ * diagonal q) (waveX k0 q a z - waveY k0 q b d z) (waveX k0 q a z - waveY k0 q b d z)).im
      - (beta (N * diagonal q) (waveX k0 q a z + waveY k0 q b d z) (waveX k0 q a z + waveY k0 q b d z)).im)) z := by
  have hx := waveX_deriv k0 q a
  have hy := waveY_deriv k0 q b d
  set x := waveX k0 q a
  set y := waveY k0 q b d
  have hu : ∀ i, HasDerivAt (fun z => (x z + y z) i) (-(k0 : ℂ) * q i * (x z - y z) i) z := by
    intro i
    refine ((hx z i).add (hy z i)).congr_deriv ?_
    simp only [Pi.sub_apply]; ring
  have hv : ∀ i, HasDerivAt (fun z => (x z - y z) i) (-(k0 : ℂ) * q i * (x z + y z) i) z := by
    intro i
    refine ((hx z i).sub (hy z i)).congr_deriv ?_
    simp only [Pi.add_apply]; ring
  have hb : HasDerivAt (fun z => beta N (x z + y z) (x z - y z))
      (∑ i, (star (-(k0 : ℂ) * q i * (x z - y z) i) * (N *ᵥ (x z - y z)) i
        + star ((x z + y z) i) * ∑ j, N i j * (-(k0 : ℂ) * q j * (x z + y z) j))) z := by
    unfold beta dotProduct
    refine HasDerivAt.fun_sum fun i _ => ?_
    refine HasDerivAt.mul (hu i).star ?_
    unfold mulVec dotProduct
    refine HasDerivAt.fun_sum fun j _ => ?_
    exact (hv j).const_mul _
  have him := Complex.imCLM.hasFDerivAt.comp_hasDerivAt z hb
  refine him.congr_deriv ?_
  have e1 : beta (Nᴴ * diagonal q) (x z - y z) (x z - y z)
      = star (∑ i, star (q i * (x z - y z) i) * (N *ᵥ (x z - y z)) i) := by
    have : (∑ i, star (q i * (x z - y z) i) * (N *ᵥ (x z - y z)) i) = beta N (diagonal q *ᵥ (x z - y z)) (x z - y z) := by
      unfold beta dotProduct
      refine Finset.sum_congr rfl fun i _ => ?_
      simp only [Pi.star_apply, mulVec_diagonal]
    rw [this, star_beta, beta_mulVec_right]
  have e2 : beta (N * diagonal q) (x z + y z) (x z + y z)
      = ∑ i, star ((x z + y z) i) * ∑ j, N i j * (q j * (x z + y z) j) := by
    rw [← beta_mulVec_right]
    unfold beta dotProduct
    refine Finset.sum_congr rfl fun i _ => ?_
    simp only [Pi.star_apply, mulVec, dotProduct, diagonal_apply, ite_mul, zero_mul, Finset.sum_ite_eq, Finset.mem_univ, if_true]
  have e3 : (∑ i, (star (-(k0 : ℂ) * q i * (x z - y z) i) * (N *ᵥ (x z - y z)) i
        + star ((x z + y z) i) * ∑ j, N i j * (-(k0 : ℂ) * q j * (x z + y z) j)))
      = -(k0 : ℂ) * ((∑ i, star (q i * (x z - y z) i) * (N *ᵥ (x z - y z)) i)
        + ∑ i, star ((x z + y z) i) * ∑ j, N i j * (q j * (x z + y z) j)) := by
    rw [← Finset.sum_add_distrib, Finset.mul_sum]
    refine Finset.sum_congr rfl fun i _ => ?_
    have hs : star (-(k0 : ℂ) * q i * (x z - y z) i) = -(k0 : ℂ) * star (q i * (x z - y z) i) := by
      rw [mul_assoc, star_mul', star_neg]
      rw [show star (k0 : ℂ) = (k0 : ℂ) from Complex.conj_ofReal k0]
    have hm : ∑ j, N i j * (-(k0 : ℂ) * q j * (x z + y z) j) = -(k0 : ℂ) * ∑ j, N i j * (q j * (x z + y z) j) := by
      rw [Finset.mul_sum]
      refine Finset.sum_congr rfl fun j _ => ?_
      ring
    rw [hs, hm]
    ring
  show (Complex.imCLM : ℂ → ℝ) _ = _
  rw [e3, e1, e2, Complex.imCLM_apply, ← Complex.ofReal_neg, Complex.im_ofReal_mul]
  rw [Complex.star_def, Complex.conj_im, Complex.add_im]
  ring

/-- The field of a layer, as a function of depth. -/
theorem flux_decreases (N : Matrix n n ℂ) (q : n → ℂ) {k0 d : ℝ} (hk : 0 ≤ k0) (hd : 0 ≤ d)
    (h1 : Gainy (N * diagonal q)) (h2 : Lossy (Nᴴ * diagonal q)) (a b : n → ℂ) :
    (beta N (phaseX k0 q d *ᵥ a + b) (phaseX k0 q d *ᵥ a - b)).im
      ≤ (beta N (a + phaseX k0 q d *ᵥ b) (a - phaseX k0 q d *ᵥ b)).im := by
  let x : ℝ → n → ℂ := waveX k0 q a
  let y : ℝ → n → ℂ := waveY k0 q b d
  let φ : ℝ → ℝ := fun z => (beta N (x z + y z) (x z - y z)).im
  have hφ := flux_deriv N q k0 d a b
  have hanti : Antitone φ := antitone_of_deriv_nonpos (fun z => (hφ z).differentiableAt) (fun z => by
    rw [(hφ z).deriv]
    have a1 := h2 (x z - y z)
    have a2 := h1 (x z + y z)
    exact mul_nonpos_of_nonneg_of_nonpos hk (by linarith))
  have := hanti hd
  have e0 : φ 0 = (beta N (a + phaseX k0 q d *ᵥ b) (a - phaseX k0 q d *ᵥ b)).im := by
    have ex : x 0 = a := by funext i; simp [x, waveX]
    have ey : y 0 = phaseX k0 q d *ᵥ b := by funext i; simp [y, waveY, phaseX, mulVec_diagonal]
    simp only [φ, ex, ey]
  have ed : φ d = (beta N (phaseX k0 q d *ᵥ a + b) (phaseX k0 q d *ᵥ a - b)).im := by
    have ex : x d = phaseX k0 q d *ᵥ a := by funext i; simp [x, waveX, phaseX, mulVec_diagonal]
    have ey : y d = b := by funext i; simp [y, waveY]
    simp only [φ, ex, ey]
  rwa [e0, ed] at this

/-- All flux below the stack is at most what enters it. -/
def FluxDec (J : Matrix n n ℂ) (s0 s : TState n) : Prop :=
  ∀ t, flux J (s0.F *ᵥ (s.T *ᵥ t)) (s0.G *ᵥ (s.T *ᵥ t)) ≤ flux J (s.F *ᵥ t) (s.G *ᵥ t)

theorem StepData.flux_le {J W V : Matrix n n ℂ} {s s' : TState n} {Ai B : Matrix n n ℂ}
    {q : n → ℂ} {k0 d : ℝ} (hk : 0 ≤ k0) (hd : 0 ≤ d) (h : StepData (phaseX k0 q d) W V s s' Ai B)
    (hl : Dissipative J W V q) (t : n → ℂ) :
    flux J (s.F *ᵥ ((Ai * phaseX k0 q d) *ᵥ t)) (s.G *ᵥ ((Ai * phaseX k0 q d) *ᵥ t))
      ≤ flux J (s'.F *ᵥ t) (s'.G *ᵥ t) := by
  set X := phaseX k0 q d with hX
  set b : n → ℂ := (B * Ai * X) *ᵥ t with hb
  have t1 : s'.F *ᵥ t = W *ᵥ (t + X *ᵥ b) := by
    rw [h.s'_eq]
    simp only [hb, mulVec_mulVec, ← mulVec_add, Matrix.mul_add, Matrix.mul_one, Matrix.mul_assoc,
      add_mulVec, mulVec_add]
  have t2 : s'.G *ᵥ t = V *ᵥ (t - X *ᵥ b) := by
    rw [h.s'_eq]
    simp only [hb, mulVec_mulVec, Matrix.mul_sub, Matrix.mul_one, Matrix.mul_assoc,
      sub_mulVec, mulVec_sub]
  have b1 : s.F *ᵥ ((Ai * X) *ᵥ t) = W *ᵥ (X *ᵥ t + b) := by
    rw [mulVec_mulVec, ← Matrix.mul_assoc, h.F_Ai]
    simp only [hb, mulVec_mulVec, Matrix.mul_add, Matrix.add_mul, Matrix.mul_one, Matrix.one_mul,
      Matrix.mul_assoc, add_mulVec, mulVec_add]
  have b2 : s.G *ᵥ ((Ai * X) *ᵥ t) = V *ᵥ (X *ᵥ t - b) := by
    rw [mulVec_mulVec, ← Matrix.mul_assoc, h.G_Ai]
    simp only [hb, mulVec_mulVec, Matrix.mul_sub, Matrix.sub_mul, Matrix.mul_one, Matrix.one_mul,
      Matrix.mul_assoc, sub_mulVec, mulVec_sub]
  have key := flux_decreases (Wᴴ * J * V) q hk hd hl.nq hl.nhq t b
  rw [← hX] at key
  simp only [flux]
  rw [t1, t2, b1, b2]
  simp only [beta_mulVec_left, beta_mulVec_right, ← Matrix.mul_assoc]
  exact key

theorem StepData.fluxDec {J W V : Matrix n n ℂ} {s0 s s' : TState n} {Ai B : Matrix n n ℂ}
    {q : n → ℂ} {k0 d : ℝ} (hk : 0 ≤ k0) (hd : 0 ≤ d) (h : StepData (phaseX k0 q d) W V s s' Ai B)
    (hl : Dissipative J W V q) (hi : FluxDec J s0 s) : FluxDec J s0 s' := by
  intro t
  refine le_trans ?_ (h.flux_le hk hd hl t)
  refine le_trans (le_of_eq ?_) (hi _)
  rw [h.s'_eq]
  simp only [mulVec_mulVec, Matrix.mul_assoc]

end

/-! ### Convolution matrices -/

/-- A coefficient functional with positive weights: Toeplitz matrices of lossy blocks are lossy, those of gainy blocks
are gainy. -/
structure PosFun {N : ℕ} (L : (Fin N → ℂ) → ℤ → ℂ) : Prop where
  lossy : ∀ (f : ℕ) (m : Type) [Fintype m] [DecidableEq m] (a : Fin N → Matrix m m ℂ),
    (∀ x, Lossy (a x)) → Lossy (btoepL L f a)
  gainy : ∀ (f : ℕ) (m : Type) [Fintype m] [DecidableEq m] (a : Fin N → Matrix m m ℂ),
    (∀ x, Gainy (a x)) → Gainy (btoepL L f a)

/-- The field at a point with phase factors `e`. -/
noncomputable def sample {m : Type} {k : ℕ} (e : Fin k → ℂ) (v : m × Fin k → ℂ) (i : m) : ℂ := ∑ c, e c * v (i, c)

theorem beta_sample {m : Type} [Fintype m] [DecidableEq m] {k : ℕ} (A : Matrix m m ℂ) (e : Fin k → ℂ) (v : m × Fin k → ℂ) :
    beta A (sample e v) (sample e v)
      = ∑ r : m × Fin k, ∑ c : m × Fin k, star (v r) * (A r.1 c.1 * (star (e r.2) * e c.2)) * v c := by
  unfold beta sample dotProduct mulVec dotProduct
  simp only [Fintype.sum_prod_type, Pi.star_apply, star_sum, star_mul', Finset.sum_mul, Finset.mul_sum]
  refine Finset.sum_congr rfl fun i _ => ?_
  rw [Finset.sum_comm' (t' := Finset.univ) (s' := fun _ => Finset.univ) (by simp)]
  conv_rhs => rw [Finset.sum_congr rfl fun x _ => Finset.sum_comm]
  conv_rhs => rw [Finset.sum_comm]
  refine Finset.sum_congr rfl fun c _ => ?_
  rw [Finset.sum_comm]
  refine Finset.sum_congr rfl fun r _ => ?_
  refine Finset.sum_congr rfl fun j _ => ?_
  ring

theorem beta_expand {n : Type} [Fintype n] [DecidableEq n] (M : Matrix n n ℂ) (v : n → ℂ) :
    beta M v v = ∑ r, ∑ c, star (v r) * M r c * v c := by
  unfold beta dotProduct mulVec dotProduct
  simp only [Pi.star_apply, Finset.mul_sum, mul_assoc]

theorem exp_conj_prod (z : ℝ) (c r : ℤ) :
    Complex.exp (-(2 * Real.pi * Complex.I * ((c - r : ℤ) : ℂ) * (z : ℂ)))
      = star (Complex.exp (-(2 * Real.pi * Complex.I * (r : ℂ) * (z : ℂ)))) * Complex.exp (-(2 * Real.pi * Complex.I * (c : ℂ) * (z : ℂ))) := by
  rw [Complex.star_def, ← Complex.exp_conj, ← Complex.exp_add]
  congr 1
  simp only [map_neg, map_mul, Complex.conj_I, Complex.conj_ofReal, map_ofNat, map_intCast]
  push_cast
  ring

theorem beta_dft {N f : ℕ} {m : Type} [Fintype m] [DecidableEq m] (a : Fin N → Matrix m m ℂ) (v : m × Fin (2 * f + 1) → ℂ) :
    beta (btoepL Spec.dftCoeff f a) v v = (1 / (N : ℝ) : ℝ) * ∑ x : Fin N,
      beta (a x) (sample (fun c => Complex.exp (-(2 * Real.pi * Complex.I * ((c.val : ℤ) : ℂ) * ((x.val / N : ℝ) : ℂ)))) v)
        (sample (fun c => Complex.exp (-(2 * Real.pi * Complex.I * ((c.val : ℤ) : ℂ) * ((x.val / N : ℝ) : ℂ)))) v) := by
  rw [beta_expand]
  simp only [beta_sample, btoepL, of_apply, Spec.dftCoeff, ← exp_conj_prod]
  rw [Finset.sum_comm, Finset.mul_sum]
  simp only [Finset.mul_sum]
  conv_rhs =>
    rw [Finset.sum_comm]
  rw [Finset.sum_comm]
  refine Finset.sum_congr rfl fun r _ => ?_
  conv_rhs =>
    rw [Finset.sum_comm]
  refine Finset.sum_congr rfl fun c _ => ?_
  rw [Finset.sum_div, Finset.mul_sum, Finset.sum_mul]
  refine Finset.sum_congr rfl fun x _ => ?_
  have : (2 * Real.pi * Complex.I * ((((c.2.val : ℤ) - (r.2.val : ℤ) : ℤ)) : ℂ) * (x.val : ℂ) / (N : ℂ))
      = 2 * Real.pi * Complex.I * ((((c.2.val : ℤ) - (r.2.val : ℤ) : ℤ)) : ℂ) * ((x.val / N : ℝ) : ℂ) := by
    push_cast; ring
  rw [this]
  push_cast
  ring

theorem posFun_dft {N : ℕ} : PosFun (N := N) Spec.dftCoeff := by
  constructor
  · intro f m _ _ a ha v
    rw [beta_dft, Complex.im_ofReal_mul, Complex.im_sum]
    exact mul_nonpos_of_nonneg_of_nonpos (by positivity) (Finset.sum_nonpos fun x _ => ha x _)
  · intro f m _ _ a ha v
    rw [beta_dft, Complex.im_ofReal_mul, Complex.im_sum]
    exact mul_nonneg (by positivity) (Finset.sum_nonneg fun x _ => ha x _)

theorem beta_cfs {k f : ℕ} [NeZero k] {x : Fin k → ℝ} (hp : x (-1) ≠ 0) {m : Type} [Fintype m] [DecidableEq m]
    (a : Fin k → Matrix m m ℂ) (v : m × Fin (2 * f + 1) → ℂ) :
    beta (btoepL (cfsC x (x (-1))) f a) v v = (1 / x (-1) : ℝ) * ∑ j : Fin k, ∫ t in (Spec.leftEnd x j)..x j,
      beta (a j) (sample (fun c => Complex.exp (-(2 * Real.pi * Complex.I * ((c.val : ℤ) : ℂ) * ((t / x (-1) : ℝ) : ℂ)))) v)
        (sample (fun c => Complex.exp (-(2 * Real.pi * Complex.I * ((c.val : ℤ) : ℂ) * ((t / x (-1) : ℝ) : ℂ)))) v) := by
  rw [beta_expand]
  simp only [beta_sample, btoepL, of_apply, cfsC_eq_pieces hp, ← exp_conj_prod]
  have h1 : ∀ j : Fin k, (∫ t in (Spec.leftEnd x j)..x j, ∑ r : m × Fin (2 * f + 1), ∑ c : m × Fin (2 * f + 1), star (v r) *
      (a j r.1 c.1 * Complex.exp (-(2 * Real.pi * Complex.I * ((((c.2.val : ℤ) - (r.2.val : ℤ) : ℤ)) : ℂ) * ((t / x (-1) : ℝ) : ℂ)))) * v c)
      = ∑ r : m × Fin (2 * f + 1), ∑ c : m × Fin (2 * f + 1), star (v r) * (a j r.1 c.1 * ∫ t in (Spec.leftEnd x j)..x j,
        Complex.exp (-(2 * Real.pi * Complex.I * ((((c.2.val : ℤ) - (r.2.val : ℤ) : ℤ)) : ℂ) * (t : ℂ) / ((x (-1) : ℝ) : ℂ)))) * v c := by
    intro j
    rw [intervalIntegral.integral_finsetSum]
    · refine Finset.sum_congr rfl fun r _ => ?_
      rw [intervalIntegral.integral_finsetSum]
      · refine Finset.sum_congr rfl fun c _ => ?_
        rw [intervalIntegral.integral_mul_const, intervalIntegral.integral_const_mul, intervalIntegral.integral_const_mul]
        congr 4
        funext t
        congr 2
        push_cast
        ring
      · intro c _
        apply Continuous.intervalIntegrable
        fun_prop
    · intro r _
      apply Continuous.intervalIntegrable
      fun_prop
  simp only [h1]
  rw [Finset.mul_sum]
  simp only [Finset.mul_sum]
  conv_rhs =>
    rw [Finset.sum_comm]
  refine Finset.sum_congr rfl fun r _ => ?_
  conv_rhs =>
    rw [Finset.sum_comm]
  refine Finset.sum_congr rfl fun c _ => ?_
  rw [Finset.sum_mul]
  refine Finset.sum_congr rfl fun j _ => ?_
  push_cast
  ring

theorem posFun_cfsC {k : ℕ} [NeZero k] {x : Fin k → ℝ} (ho : Spec.Ordered x) (hp : 0 < x (-1)) :
    PosFun (cfsC x (x (-1))) := by
  have him : ∀ (f : ℕ) (m : Type) [Fintype m] [DecidableEq m] (a : Fin k → Matrix m m ℂ) (v : m × Fin (2 * f + 1) → ℂ) (j : Fin k),
      (∫ t in (Spec.leftEnd x j)..x j,
      beta (a j) (sample (fun c => Complex.exp (-(2 * Real.pi * Complex.I * ((c.val : ℤ) : ℂ) * ((t / x (-1) : ℝ) : ℂ)))) v)
        (sample (fun c => Complex.exp (-(2 * Real.pi * Complex.I * ((c.val : ℤ) : ℂ) * ((t / x (-1) : ℝ) : ℂ)))) v)).im
      = ∫ t in (Spec.leftEnd x j)..x j,
      (beta (a j) (sample (fun c => Complex.exp (-(2 * Real.pi * Complex.I * ((c.val : ℤ) : ℂ) * ((t / x (-1) : ℝ) : ℂ)))) v)
        (sample (fun c => Complex.exp (-(2 * Real.pi * Complex.I * ((c.val : ℤ) : ℂ) * ((t / x (-1) : ℝ) : ℂ)))) v)).im := by
    intro f m _ _ a v j
    have := Complex.imCLM.intervalIntegral_comp_comm (μ := MeasureTheory.volume) (a := Spec.leftEnd x j) (b := x j) (f := fun t =>
      beta (a j) (sample (fun c => Complex.exp (-(2 * Real.pi * Complex.I * ((c.val : ℤ) : ℂ) * ((t / x (-1) : ℝ) : ℂ)))) v)
        (sample (fun c => Complex.exp (-(2 * Real.pi * Complex.I * ((c.val : ℤ) : ℂ) * ((t / x (-1) : ℝ) : ℂ)))) v)) (by
      apply Continuous.intervalIntegrable
      simp only [beta_sample, ← exp_conj_prod]
      fun_prop)
    exact this.symm
  constructor
  · intro f m _ _ a ha v
    rw [beta_cfs hp.ne', Complex.im_ofReal_mul, Complex.im_sum]
    refine mul_nonpos_of_nonneg_of_nonpos (by positivity) (Finset.sum_nonpos fun j _ => ?_)
    rw [him]
    have := intervalIntegral.integral_nonneg (μ := MeasureTheory.volume) (a := Spec.leftEnd x j) (b := x j) (f := fun t =>
      -(beta (a j) (sample (fun c => Complex.exp (-(2 * Real.pi * Complex.I * ((c.val : ℤ) : ℂ) * ((t / x (-1) : ℝ) : ℂ)))) v)
        (sample (fun c => Complex.exp (-(2 * Real.pi * Complex.I * ((c.val : ℤ) : ℂ) * ((t / x (-1) : ℝ) : ℂ)))) v)).im) (ho j)
      (fun t _ => by linarith [ha j (sample (fun c => Complex.exp (-(2 * Real.pi * Complex.I * ((c.val : ℤ) : ℂ) * ((t / x (-1) : ℝ) : ℂ)))) v)])
    rw [intervalIntegral.integral_neg] at this
    linarith
  · intro f m _ _ a ha v
    rw [beta_cfs hp.ne', Complex.im_ofReal_mul, Complex.im_sum]
    refine mul_nonneg (by positivity) (Finset.sum_nonneg fun j _ => ?_)
    rw [him]
    exact intervalIntegral.integral_nonneg (ho j) (fun t _ => ha j _)

/-! ### One layer -/

theorem beta_submatrix {n n' : Type} [Fintype n] [DecidableEq n] [Fintype n'] [DecidableEq n'] (M : Matrix n n ℂ) (e : n' → n)
    (v : n' → ℂ) : beta (M.submatrix e e) v v
      = beta M (fun i => ∑ j, if e j = i then v j else 0) (fun i => ∑ j, if e j = i then v j else 0) := by
  have h1 : ∀ (w : n' → ℂ) (g : n → ℂ), ∑ r, (∑ j, if e j = r then w j else 0) * g r = ∑ j, w j * g (e j) := by
    intro w g
    simp only [Finset.sum_mul, ite_mul, zero_mul]
    rw [Finset.sum_comm]
    refine Finset.sum_congr rfl fun j _ => ?_
    simp
  unfold beta dotProduct mulVec dotProduct
  simp only [Pi.star_apply, star_sum, apply_ite star, star_zero, submatrix_apply]
  rw [h1]
  refine Finset.sum_congr rfl fun i _ => ?_
  congr 1
  have := h1 v (fun c => M (e i) c)
  simp only [mul_comm _ (M _ _)] at this
  exact this.symm

theorem Lossy.submatrix {n n' : Type} [Fintype n] [DecidableEq n] [Fintype n'] [DecidableEq n'] {M : Matrix n n ℂ} (h : Lossy M)
    (e : n' → n) : Lossy (M.submatrix e e) := by
  intro v
  rw [beta_submatrix]
  exact h _

theorem Gainy.submatrix {n n' : Type} [Fintype n] [DecidableEq n] [Fintype n'] [DecidableEq n'] {M : Matrix n n ℂ} (h : Gainy M)
    (e : n' → n) : Gainy (M.submatrix e e) := by
  intro v
  rw [beta_submatrix]
  exact h _

theorem lossy_scalar {z : ℂ} (h : z.im ≤ 0) : Lossy (Matrix.of fun _ _ : Unit => z) := by
  intro v
  rw [beta_expand]
  simp only [Finset.univ_unique, Finset.sum_singleton, of_apply]
  have : star (v default) * z * v default = (Complex.normSq (v default) : ℂ) * z := by
    rw [Complex.star_def, Complex.normSq_eq_conj_mul_self]; ring
  rw [this, Complex.im_ofReal_mul]
  exact mul_nonpos_of_nonneg_of_nonpos (Complex.normSq_nonneg _) h

theorem gainy_scalar {z : ℂ} (h : 0 ≤ z.im) : Gainy (Matrix.of fun _ _ : Unit => z) := by
  intro v
  rw [beta_expand]
  simp only [Finset.univ_unique, Finset.sum_singleton, of_apply]
  have : star (v default) * z * v default = (Complex.normSq (v default) : ℂ) * z := by
    rw [Complex.star_def, Complex.normSq_eq_conj_mul_self]; ring
  rw [this, Complex.im_ofReal_mul]
  exact mul_nonneg (Complex.normSq_nonneg _) h

theorem toepL_as_btoepL {N f : ℕ} (L : (Fin N → ℂ) → ℤ → ℂ) (a : Fin N → ℂ) :
    toepL L f a = (btoepL L f (fun x => Matrix.of fun _ _ : Unit => a x)).submatrix (Equiv.punitProd _).symm (Equiv.punitProd _).symm := rfl

theorem PosFun.toepL_lossy {N : ℕ} {L : (Fin N → ℂ) → ℤ → ℂ} (hL : PosFun L) (f : ℕ) {a : Fin N → ℂ} (ha : ∀ x, (a x).im ≤ 0) :
    Lossy (toepL L f a) := by
  rw [toepL_as_btoepL]
  exact (hL.lossy f Unit _ fun x => lossy_scalar (ha x)).submatrix _

theorem PosFun.toepL_gainy {N : ℕ} {L : (Fin N → ℂ) → ℤ → ℂ} (hL : PosFun L) (f : ℕ) {a : Fin N → ℂ} (ha : ∀ x, 0 ≤ (a x).im) :
    Gainy (toepL L f a) := by
  rw [toepL_as_btoepL]
  exact (hL.gainy f Unit _ fun x => gainy_scalar (ha x)).submatrix _

/-- The convolution matrices of an absorbing layer. -/
structure LossyConv {m : Type} [Fintype m] [DecidableEq m] (c : Conv m) : Prop where
  x : Lossy c.epx
  y : Lossy c.epy
  z : Gainy c.epzi

theorem inv_im_nonneg {z : ℂ} (h : z.im ≤ 0) : 0 ≤ (1 / z).im := by
  rw [one_div, Complex.inv_im]
  exact div_nonneg (by linarith) (Complex.normSq_nonneg _)

theorem FromCell.lossy {fx fy Nx Ny : ℕ} {Lx : (Fin Nx → ℂ) → ℤ → ℂ}
    {Ly : (Fin Ny → ℂ) → ℤ → ℂ} {cell : Fin Nx → Fin Ny → ℂ} {c : Conv (FlatIdx fx fy)}
    {epz : Matrix (FlatIdx fx fy) (FlatIdx fx fy) ℂ}
    (hLx : PosFun Lx) (hLy : PosFun Ly) (h : FromCell Lx Ly cell c epz)
    (hr : ∀ i j, (cell i j).im ≤ 0) : LossyConv c := by
  constructor
  · have hz := h.hx
    unfold genConv at hz
    simp only [Except.bind_ok, invRuleY_ok, invIf_ok] at hz
    obtain ⟨c', hc, a, ha, e⟩ := hz
    rcases hc with ⟨-, rfl⟩ | ⟨h, -⟩
    · rcases ha with ⟨h, -⟩ | ⟨-, hu, rfl⟩
      · simp at h
      · simp only [Bool.false_eq_true, if_false, npInv_ok] at e
        obtain ⟨hd, e⟩ := e
        rw [e]
        refine Gainy.inv ?_ hd
        exact (hLx.gainy fx _ _ fun x => (hLy.toepL_lossy fy (hr x)).inv (hu x)).submatrix finProdFinEquiv.symm
    · simp at h
  · have hz := h.hy
    unfold genConv at hz
    simp only [Except.bind_ok, invRuleY_ok, invIf_ok] at hz
    obtain ⟨c', hc, a, ha, e⟩ := hz
    rcases hc with ⟨h, -⟩ | ⟨-, hne, rfl⟩
    · simp at h
    · rcases ha with ⟨h, -⟩ | ⟨-, hu, rfl⟩
      · simp at h
      · simp only [if_true, Except.ok.injEq] at e
        rw [← e]
        exact (hLx.lossy fx _ _ fun x => (hLy.toepL_gainy fy fun y => inv_im_nonneg (hr x y)).inv (hu x)).submatrix finProdFinEquiv.symm
  · have hz := h.hz
    unfold genConv at hz
    simp only [Except.bind_ok, invRuleY_ok, invIf_ok] at hz
    obtain ⟨c', hc, a, ha, e⟩ := hz
    rcases hc with ⟨-, rfl⟩ | ⟨h, -⟩
    · rcases ha with ⟨-, rfl⟩ | ⟨h, -⟩
      · simp only [if_true, Except.ok.injEq] at e
        rw [h.hi]
        refine Lossy.inv ?_ h.hu
        rw [← e]
        exact (hLx.lossy fx _ _ fun x => hLy.toepL_lossy fy (hr x)).submatrix finProdFinEquiv.symm
      · simp at h
    · simp at h

end Meent
