import Verif.Lemmas.Gradient
import Mathlib.Analysis.Calculus.Deriv.Mul
import Mathlib.Analysis.Calculus.Deriv.Prod
import Mathlib.Analysis.Calculus.Deriv.Comp

/-!
# Derivatives of eigenvalues and eigenvectors along a curve (helper lemmas)
-/

set_option linter.unusedSectionVars false
set_option linter.unusedSimpArgs false
set_option linter.unusedVariables false

open Matrix
open scoped Matrix.Norms.Operator

namespace Meent

variable {n : Type} [Fintype n] [DecidableEq n]

/-- Entrywise form of the differentiated eigen-equation. -/
theorem eig_curve {A W : ℝ → Matrix n n ℂ} {l : ℝ → n → ℂ} {A' W' : Matrix n n ℂ} {l' : n → ℂ} {t₀ : ℝ}
    (he : ∀ᶠ t in nhds t₀, A t * W t = W t * diagonal (l t)) (hA : HasDerivAt A A' t₀)
    (hW : HasDerivAt W W' t₀) (hl : HasDerivAt l l' t₀) (hu : IsUnit (W t₀).det) (i j : n) :
    ((W t₀)⁻¹ * A' * W t₀) i j + l t₀ i * ((W t₀)⁻¹ * W') i j
      = ((W t₀)⁻¹ * W') i j * l t₀ j + if i = j then l' i else 0 := by
  have hd : HasDerivAt (fun t => diagonal (l t)) (diagonal l') t₀ := by
    have := ((Matrix.diagonalLinearMap n ℝ ℂ).toContinuousLinearMap.hasFDerivAt (x := l t₀)).comp_hasDerivAt t₀ hl
    exact this
  have h1 := hA.mul hW
  have h2 := hW.mul hd
  have h3 := h1.congr_of_eventuallyEq (f₁ := fun t => W t * diagonal (l t)) (by
    filter_upwards [he] with t ht using ht.symm)
  have h4 := h3.unique h2
  have h0 := he.self_of_nhds
  have hAW : (W t₀)⁻¹ * A t₀ = diagonal (l t₀) * (W t₀)⁻¹ := by
    have := congrArg (fun M => (W t₀)⁻¹ * M * (W t₀)⁻¹) h0
    rw [Matrix.mul_assoc, Matrix.mul_assoc (A t₀), Matrix.mul_nonsing_inv _ hu, Matrix.mul_one,
      ← Matrix.mul_assoc (W t₀)⁻¹ (W t₀), Matrix.nonsing_inv_mul _ hu, Matrix.one_mul] at this
    exact this
  have h5 := congrArg (fun M => ((W t₀)⁻¹ * M) i j) h4
  simp only [Matrix.mul_add, ← Matrix.mul_assoc, Matrix.nonsing_inv_mul _ hu, Matrix.one_mul, hAW] at h5
  rw [Matrix.add_apply, Matrix.add_apply, mul_diagonal, Matrix.mul_assoc (diagonal (l t₀)), diagonal_mul, diagonal_apply] at h5
  exact h5

theorem change_entries {W H M : Matrix n n ℂ} (hu : IsUnit W.det) :
    Spec.change ((Wᴴ)⁻¹ * H * Wᴴ) M = (∑ i, ∑ j, star (H i j) * (W⁻¹ * M * W) i j).re := by
  have : (∑ i, ∑ j, star (H i j) * (W⁻¹ * M * W) i j).re = Spec.change H (W⁻¹ * M * W) := rfl
  rw [this, change_eq, change_eq]
  simp only [conjTranspose_mul, conjTranspose_conjTranspose, conjTranspose_nonsing_inv]
  congr 1
  rw [Matrix.mul_assoc, Matrix.trace_mul_comm]
  simp only [Matrix.mul_assoc]

theorem change_vec {W G M : Matrix n n ℂ} (hu : IsUnit W.det) :
    Spec.change G M = (∑ i, ∑ j, star ((Wᴴ * G) i j) * (W⁻¹ * M) i j).re := by
  have : (∑ i, ∑ j, star ((Wᴴ * G) i j) * (W⁻¹ * M) i j).re = Spec.change (Wᴴ * G) (W⁻¹ * M) := rfl
  rw [this, change_eq, change_eq]
  simp only [conjTranspose_mul, conjTranspose_conjTranspose]
  rw [Matrix.mul_assoc, ← Matrix.mul_assoc W, Matrix.mul_nonsing_inv _ hu, Matrix.one_mul]

theorem eigBackward_ok {e : ℝ} {l : n → ℂ} {W G : Matrix n n ℂ} {g : n → ℂ} (hu : IsUnit W.det) :
    eigBackward e l W g G = .ok ((Wᴴ)⁻¹ * (diagonal g + eigF e l ⊙ (Wᴴ * G)) * Wᴴ) := by
  have : IsUnit (Wᴴ).det := by
    rw [det_conjTranspose]; exact hu.star
  unfold eigBackward npInv
  simp only [if_pos this]
  rfl

/-- The damping of one off-diagonal entry. -/
theorem eigF_err {e : ℝ} (he : 0 ≤ e) {d : ℂ} (hd : d ≠ 0) :
    ‖1 / d - star (d / ((‖d‖ ^ 2 + e : ℝ) : ℂ))‖ ≤ e / ‖d‖ ^ 3 := by
  have hp : 0 < ‖d‖ := norm_pos_iff.mpr hd
  have hs : (0 : ℝ) < ‖d‖ ^ 2 + e := by positivity
  have hs' : ((‖d‖ ^ 2 + e : ℝ) : ℂ) ≠ 0 := by exact_mod_cast hs.ne'
  have hn : star d * d = ((‖d‖ ^ 2 : ℝ) : ℂ) := by
    rw [Complex.star_def, ← Complex.normSq_eq_conj_mul_self, Complex.normSq_eq_norm_sq]
  have h1 : 1 / d - star (d / ((‖d‖ ^ 2 + e : ℝ) : ℂ)) = (e : ℂ) / (d * ((‖d‖ ^ 2 + e : ℝ) : ℂ)) := by
    rw [star_div₀, Complex.star_def, Complex.conj_ofReal, ← Complex.star_def, div_sub_div _ _ hd hs', mul_comm d (star d), hn]
    congr 1
    push_cast
    ring
  rw [h1, norm_div, norm_mul, Complex.norm_real, Complex.norm_real, Real.norm_of_nonneg he, Real.norm_of_nonneg hs.le]
  apply div_le_div_of_nonneg_left he (by positivity)
  nlinarith [mul_nonneg hp.le he]

/-- A loss that ignores the normalisation of the columns has no diagonal component. -/
theorem gauge_diag {L : (n → ℂ) × Matrix n n ℂ → ℝ} {v : n → ℂ} {W : Matrix n n ℂ} {g : n → ℂ}
    {G : Matrix n n ℂ} (hL : Spec.IsGradient2 L v W g G)
    (hg : ∀ c : n → ℂ, (∀ i, c i ≠ 0) → L (v, W * diagonal c) = L (v, W)) (i : n) : (Wᴴ * G) i i = 0 := by
  obtain ⟨L', h1, h2⟩ := hL
  have key : ∀ z : ℂ, (star z * (Gᴴ * W) i i).re = 0 := by
    intro z
    let e : n → ℂ := Pi.single i (star z)
    have hc : HasDerivAt (fun t : ℝ => (v, W + t • (W * diagonal e))) ((0 : n → ℂ), W * diagonal e) 0 := by
      refine (hasDerivAt_const _ _).prodMk ?_
      have := ((hasDerivAt_id (0 : ℝ)).smul_const (W * diagonal e)).const_add W
      simpa using this
    have h3 : HasDerivAt (fun t : ℝ => L (v, W + t • (W * diagonal e))) (L' (0, W * diagonal e)) 0 := by
      have h1' : HasFDerivAt L L' ((fun t : ℝ => (v, W + t • (W * diagonal e))) 0) := by simpa using h1
      exact h1'.comp_hasDerivAt 0 hc
    have h4 : HasDerivAt (fun t : ℝ => L (v, W + t • (W * diagonal e))) 0 0 := by
      refine (hasDerivAt_const (0 : ℝ) (L (v, W))).congr_of_eventuallyEq ?_
      have hev : ∀ᶠ t : ℝ in nhds 0, ∀ j, 1 + (t : ℂ) * e j ≠ 0 := by
        rw [Filter.eventually_all]
        intro j
        have hcont : Continuous fun t : ℝ => 1 + (t : ℂ) * e j := by fun_prop
        exact hcont.continuousAt.eventually_ne (by simp)
      filter_upwards [hev] with t ht
      have := hg (fun j => 1 + (t : ℂ) * e j) ht
      rw [← this]
      congr 2
      have : diagonal (fun j => 1 + (t : ℂ) * e j) = 1 + t • diagonal e := by
        ext a b
        by_cases hab : a = b
        · subst hab; simp
        · simp [hab, Matrix.one_apply]
      rw [this, Matrix.mul_add, Matrix.mul_one, Matrix.mul_smul]
    have h5 := h3.unique h4
    rw [h2] at h5
    have h6 : Spec.changeVec g 0 = 0 := by simp [Spec.changeVec]
    rw [h6, zero_add, change_eq, ← Matrix.mul_assoc, trace] at h5
    simp only [diag_apply, mul_diagonal] at h5
    rw [Finset.sum_eq_single i] at h5
    · simpa [e, mul_comm] using h5
    · intro j _ hj; simp [e, hj]
    · simp
  have h0 : (Gᴴ * W) i i = 0 := by
    have := key ((Gᴴ * W) i i)
    rw [Complex.star_def, ← Complex.normSq_eq_conj_mul_self, Complex.ofReal_re] at this
    exact Complex.normSq_eq_zero.mp this
  have : (Wᴴ * G) = (Gᴴ * W)ᴴ := by simp [conjTranspose_mul]
  rw [this, conjTranspose_apply, h0, star_zero]

end Meent
