import Verif.Props.C46
import Verif.Lemmas.Engine
import Verif.Model.JaxPrimitives
import Verif.Spec.JaxGradient

/-!
# C60: the derivative rule of the JAX eigen-decomposition, and the direction of an optimisation step

As in C46, the eigenvalues `l` and eigenvectors `W` follow a curve of matrices `A`; the loss is any real function of
`(l, W)`, now with JAX gradient `(g, G)`.
-/

open Matrix
open scoped Matrix.Norms.Operator

set_option linter.unusedSectionVars false

namespace Meent

variable {n : Type} [Fintype n] [DecidableEq n]

private theorem eigBwd_eq (e : ℝ) (l : n → ℂ) (W : Matrix n n ℂ) (g : n → ℂ) (G x : Matrix n n ℂ)
    (h : eigBackward e l W (star g) (G.map star) = .ok x) (isC : Bool) :
    Jax.eigBwd e isC l W g G = .ok (if isC then x.map star else (x.map star).map fun z => (z.re : ℂ)) := by
  unfold eigBackward at h
  obtain ⟨inv, h1, h2⟩ := Except.bind_ok.mp h
  obtain ⟨hu, rfl⟩ := npInv_ok.mp h1
  cases h2
  have hW : Wᵀ.map star = Wᴴ := rfl
  unfold Jax.eigBwd
  rw [hW]
  dsimp only
  unfold Jax.inv
  rw [if_pos hu, diagonal_map (star_zero ℂ)]
  rfl

private theorem jaxChange_star (x D : Matrix n n ℂ) : Spec.jaxChange (x.map star) D = Spec.change x D := rfl

private theorem jaxChange_re (x D : Matrix n n ℂ) (hD : ∀ i j, (D i j).im = 0) :
    Spec.jaxChange (x.map fun z => (z.re : ℂ)) D = Spec.jaxChange x D := by
  simp [Spec.jaxChange, hD]

private theorem gradient2_star {L : (n → ℂ) × Matrix n n ℂ → ℝ} {v : n → ℂ} {W : Matrix n n ℂ} {g : n → ℂ}
    {G : Matrix n n ℂ} (h : Spec.IsJaxGradient2 L v W g G) : Spec.IsGradient2 L v W (star g) (G.map star) := by
  obtain ⟨L', h1, h2⟩ := h
  refine ⟨L', h1, fun d D => ?_⟩
  rw [h2]
  simp [Spec.jaxChangeVec, Spec.changeVec, Spec.jaxChange, Spec.change]

private theorem deriv_real {A : ℝ → Matrix n n ℂ} {A' : Matrix n n ℂ} {t₀ : ℝ} (hA : HasDerivAt A A' t₀)
    (hr : ∀ t i j, (A t i j).im = 0) (i j : n) : (A' i j).im = 0 := by
  let f : Matrix n n ℂ →ₗ[ℝ] ℝ :=
    { toFun := fun M => (M i j).im
      map_add' := fun x y => by simp
      map_smul' := fun c x => by simp }
  have h := f.toContinuousLinearMap.hasFDerivAt.comp_hasDerivAt t₀ hA
  have h0 : (f.toContinuousLinearMap ∘ A) = fun _ => (0 : ℝ) := by
    funext t
    exact hr t i j
  rw [h0] at h
  exact h.unique (hasDerivAt_const t₀ (0 : ℝ))

private theorem jaxChange_out (x D : Matrix n n ℂ) (isC : Bool) (hD : isC = false → ∀ i j, (D i j).im = 0) :
    Spec.jaxChange (if isC then x.map star else (x.map star).map fun z => (z.re : ℂ)) D = Spec.change x D := by
  cases isC with
  | true => rfl
  | false => exact (jaxChange_re _ _ (hD rfl)).trans (jaxChange_star x D)

/-- **C60, losses of the eigenvalues.**  If the loss has no gradient with respect to the eigenvectors, the matrix returned by the
rule is its exact JAX gradient along every curve, for every perturbation and even when eigenvalues coincide.  For real
matrices the rule returns the real part, and the curve is one of real matrices. -/
theorem C60_eigenvalues (e : ℝ) (A W : ℝ → Matrix n n ℂ) (l : ℝ → n → ℂ) (A' W' : Matrix n n ℂ) (l' : n → ℂ)
    (t₀ : ℝ) (he : ∀ᶠ t in nhds t₀, A t * W t = W t * diagonal (l t)) (hA : HasDerivAt A A' t₀)
    (hW : HasDerivAt W W' t₀) (hl : HasDerivAt l l' t₀) (hu : IsUnit (W t₀).det)
    (L : (n → ℂ) × Matrix n n ℂ → ℝ) (g : n → ℂ) (hL : Spec.IsJaxGradient2 L (l t₀) (W t₀) g 0)
    (isC : Bool) (hr : isC = false → ∀ t i j, (A t i j).im = 0) :
    ∃ x, Jax.eigBwd e isC (l t₀) (W t₀) g 0 = .ok x ∧
      HasDerivAt (fun t => L (l t, W t)) (Spec.jaxChange x A') t₀ := by
  have hL' := gradient2_star hL
  rw [show (0 : Matrix n n ℂ).map star = 0 from by ext; simp] at hL'
  obtain ⟨x, h1, h2⟩ := C46_eigenvalues e A W l A' W' l' t₀ he hA hW hl hu L (star g) hL'
  refine ⟨_, eigBwd_eq e _ _ g 0 x (by rw [show (0 : Matrix n n ℂ).map star = 0 from by ext; simp]; exact h1) isC, ?_⟩
  rw [jaxChange_out x A' isC fun h => deriv_real hA (hr h)]
  exact h2

/-- **C60, losses of eigenvalues and eigenvectors.**  If the eigenvalues are distinct and the loss does not depend on the
normalisation of the eigenvectors, the derivative of the loss along every curve differs from the one computed by the rule by at
most `perturbation · Σ |…| / |λ_j − λ_i|³`; in particular the rule is exact for perturbation zero. -/
theorem C60_eigenvectors (e : ℝ) (hpert : 0 ≤ e) (A W : ℝ → Matrix n n ℂ) (l : ℝ → n → ℂ)
    (A' W' : Matrix n n ℂ) (l' : n → ℂ)
    (t₀ : ℝ) (he : ∀ᶠ t in nhds t₀, A t * W t = W t * diagonal (l t)) (hA : HasDerivAt A A' t₀)
    (hW : HasDerivAt W W' t₀) (hl : HasDerivAt l l' t₀) (hu : IsUnit (W t₀).det)
    (hdist : Function.Injective (l t₀))
    (L : (n → ℂ) × Matrix n n ℂ → ℝ) (g : n → ℂ) (G : Matrix n n ℂ)
    (hL : Spec.IsJaxGradient2 L (l t₀) (W t₀) g G)
    (hgauge : ∀ c : n → ℂ, (∀ i, c i ≠ 0) → L (l t₀, W t₀ * diagonal c) = L (l t₀, W t₀))
    (isC : Bool) (hr : isC = false → ∀ t i j, (A t i j).im = 0) :
    ∃ x dL, Jax.eigBwd e isC (l t₀) (W t₀) g G = .ok x ∧ HasDerivAt (fun t => L (l t, W t)) dL t₀ ∧
      |dL - Spec.jaxChange x A'| ≤ e * ∑ i, ∑ j, if i = j then 0 else
        ‖((W t₀)ᵀ * G) i j‖ * ‖((W t₀)⁻¹ * A' * W t₀) i j‖ / ‖l t₀ j - l t₀ i‖ ^ 3 := by
  obtain ⟨x, dL, h1, h2, h3⟩ := C46_eigenvectors e hpert A W l A' W' l' t₀ he hA hW hl hu hdist L (star g) (G.map star)
    (gradient2_star hL) hgauge
  refine ⟨_, dL, eigBwd_eq e _ _ g G x h1 isC, h2, ?_⟩
  rw [jaxChange_out x A' isC fun h => deriv_real hA (hr h)]
  refine h3.trans (le_of_eq ?_)
  congr 1
  refine Finset.sum_congr rfl fun i _ => Finset.sum_congr rfl fun j _ => ?_
  have : ‖((W t₀)ᴴ * G.map star) i j‖ = ‖((W t₀)ᵀ * G) i j‖ := by
    rw [← norm_star (((W t₀)ᵀ * G) i j)]
    congr 1
    simp [Matrix.mul_apply]
  rw [this]

/-- Non-vacuity: the curve `[[1, t], [0, 2]]` of real matrices with eigenvectors `[[1, t], [0, 1]]` and the loss
`Im (W 1 1 - W 0 1)`, whose JAX gradient `∂L/∂Re - i ∂L/∂Im` with respect to the eigenvectors is not real. -/
example : let A : ℝ → Matrix (Fin 2) (Fin 2) ℂ := fun t => !![1, t; 0, 2]
    let W : ℝ → Matrix (Fin 2) (Fin 2) ℂ := fun t => !![1, t; 0, 1]
    let l : ℝ → Fin 2 → ℂ := fun _ => ![1, 2]
    let L : (Fin 2 → ℂ) × Matrix (Fin 2) (Fin 2) ℂ → ℝ := fun x => (x.2 1 1 - x.2 0 1).im
    (∀ t, A t * W t = W t * diagonal (l t)) ∧ (∃ A' W' l', HasDerivAt A A' 1 ∧ HasDerivAt W W' 1 ∧ HasDerivAt l l' 1) ∧
    IsUnit (W 1).det ∧ Function.Injective (l 1) ∧ Spec.IsJaxGradient2 L (l 1) (W 1) 0 !![0, Complex.I; 0, -Complex.I] ∧
    (∀ t i j, (A t i j).im = 0) ∧
    ∀ c : Fin 2 → ℂ, (∀ i, c i ≠ 0) → L (l 1, W 1 * diagonal c) = L (l 1, W 1) := by
  intro A W l L
  have hlin : ∀ a b c : ℂ, ∃ M', HasDerivAt (fun t : ℝ => (!![a, t; b, c] : Matrix (Fin 2) (Fin 2) ℂ)) M' 1 := by
    intro a b c
    have he : (fun t : ℝ => (!![a, t; b, c] : Matrix (Fin 2) (Fin 2) ℂ))
        = fun t : ℝ => (!![a, 0; b, c] : Matrix (Fin 2) (Fin 2) ℂ) + t • !![0, 1; 0, 0] := by
      funext t; ext i j; fin_cases i <;> fin_cases j <;> simp
    rw [he]
    exact ⟨_, ((hasDerivAt_id (1 : ℝ)).smul_const _).const_add _⟩
  refine ⟨fun t => ?_, ?_, ?_, ?_, ?_, ?_, ?_⟩
  · ext i j
    fin_cases i <;> fin_cases j <;> simp [A, W, l, Matrix.mul_apply, Fin.sum_univ_two] <;> ring
  · obtain ⟨A', hA'⟩ := hlin 1 0 2
    obtain ⟨W', hW'⟩ := hlin 1 0 1
    exact ⟨A', W', 0, hA', hW', hasDerivAt_const _ _⟩
  · simp [W, det_fin_two]
  · intro i j h
    fin_cases i <;> fin_cases j <;> simp_all [l]
  · let f : ((Fin 2 → ℂ) × Matrix (Fin 2) (Fin 2) ℂ) →ₗ[ℝ] ℝ :=
      { toFun := L
        map_add' := fun x y => by simp [L]; ring
        map_smul' := fun c x => by simp [L]; ring }
    refine ⟨f.toContinuousLinearMap, f.toContinuousLinearMap.hasFDerivAt, fun d D => ?_⟩
    show (D 1 1 - D 0 1).im = _
    simp [Spec.jaxChangeVec, Spec.jaxChange, Fin.sum_univ_two]
    ring
  · intro t i j
    fin_cases i <;> fin_cases j <;> simp [A]
  · intro c _
    simp only [L, mul_diagonal]
    simp [W]

/-- **C60, the step of `fit`.**  `grad` is what `jax.grad` returns for the loss `L` at the parameter `A`.  `fit` hands its
conjugate to the optimizer.  Moving against that direction changes the loss at the rate `-Σ |grad|²`, so the loss decreases
unless the gradient vanishes, and no direction of the same length does better. -/
theorem C60_step (L : Matrix n n ℂ → ℝ) (A grad : Matrix n n ℂ) (h : Spec.IsJaxGradient L A grad) :
    HasDerivAt (fun t : ℝ => L (A - t • Jax.fitGrad grad)) (-∑ i, ∑ j, ‖grad i j‖ ^ 2) 0 ∧
    ∀ D dL, (∑ i, ∑ j, ‖D i j‖ ^ 2) = ∑ i, ∑ j, ‖grad i j‖ ^ 2 → HasDerivAt (fun t : ℝ => L (A + t • D)) dL 0 →
      -∑ i, ∑ j, ‖grad i j‖ ^ 2 ≤ dL := by
  obtain ⟨L', h1, h2⟩ := h
  have key : ∀ D : Matrix n n ℂ, HasDerivAt (fun t : ℝ => L (A + t • D)) (L' D) 0 := by
    intro D
    have h3 : HasDerivAt (fun t : ℝ => A + t • D) D 0 := by
      have := ((hasDerivAt_id (0 : ℝ)).smul_const D).const_add A
      rw [one_smul] at this
      exact this
    refine HasFDerivAt.comp_hasDerivAt (f := fun t : ℝ => A + t • D) 0 ?_ h3
    rw [show A + (0 : ℝ) • D = A by rw [zero_smul, add_zero]]
    exact h1
  constructor
  · have h3 := key (-Jax.fitGrad grad)
    have e1 : (fun t : ℝ => L (A + t • -Jax.fitGrad grad)) = fun t : ℝ => L (A - t • Jax.fitGrad grad) := by
      funext t
      rw [smul_neg, sub_eq_add_neg]
    have e2 : L' (-Jax.fitGrad grad) = -∑ i, ∑ j, ‖grad i j‖ ^ 2 := by
      rw [map_neg, h2, Spec.jaxChange]
      congr 1
      rw [Complex.re_sum]
      refine Finset.sum_congr rfl fun i _ => ?_
      rw [Complex.re_sum]
      refine Finset.sum_congr rfl fun j _ => ?_
      simp only [Jax.fitGrad, Matrix.map_apply]
      rw [← Complex.normSq_eq_norm_sq]
      have := Complex.mul_conj (grad i j)
      rw [show star (grad i j) = (starRingEnd ℂ) (grad i j) from rfl, this, Complex.ofReal_re]
    rw [e1, e2] at h3
    exact h3
  · intro D dL hD hd
    rw [hd.unique (key D), h2, Spec.jaxChange, Complex.re_sum]
    have hp : ∀ i j, -((‖grad i j‖ ^ 2 + ‖D i j‖ ^ 2) / 2) ≤ (grad i j * D i j).re := by
      intro i j
      have a1 := Complex.abs_re_le_norm (grad i j * D i j)
      rw [norm_mul] at a1
      have a2 := neg_abs_le (grad i j * D i j).re
      nlinarith [sq_nonneg (‖grad i j‖ - ‖D i j‖)]
    calc -∑ i, ∑ j, ‖grad i j‖ ^ 2 = ∑ i, ∑ j, -((‖grad i j‖ ^ 2 + ‖D i j‖ ^ 2) / 2) := by
          simp only [Finset.sum_neg_distrib, ← Finset.sum_div, Finset.sum_add_distrib, hD]
          ring
      _ ≤ ∑ i, (∑ j, grad i j * D i j).re := by
          refine Finset.sum_le_sum fun i _ => ?_
          rw [Complex.re_sum]
          exact Finset.sum_le_sum fun j _ => hp i j

/-- Non-vacuity: the loss `Im M₀₀` has the JAX gradient `-i`; the optimizer gets `i`, and the loss falls at rate 1. -/
example : Spec.IsJaxGradient (n := Fin 1) (fun M => (M 0 0).im) 0 (fun _ _ => -Complex.I) ∧
    Jax.fitGrad (n := Fin 1) (fun _ _ => -Complex.I) = fun _ _ => Complex.I := by
  constructor
  · let f : Matrix (Fin 1) (Fin 1) ℂ →ₗ[ℝ] ℝ :=
      { toFun := fun M => (M 0 0).im
        map_add' := fun x y => by simp
        map_smul' := fun c x => by simp }
    refine ⟨f.toContinuousLinearMap, f.toContinuousLinearMap.hasFDerivAt, fun D => ?_⟩
    show (D 0 0).im = _
    simp [Spec.jaxChange]
  · ext i j
    show star (-Complex.I) = Complex.I
    simp

#print axioms C60_eigenvalues
#print axioms C60_eigenvectors
#print axioms C60_step

end Meent
