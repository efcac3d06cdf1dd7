import Verif.Lemmas.EigGradient

/-!
# C46: the backward pass of the PyTorch eigen-decomposition

The eigenvalues `l` and eigenvectors `W` follow a curve of matrices `A` (any differentiable family with
`A W = W diag(l)`); the loss is any real function of `(l, W)` with gradient `(g, G)`.
-/

open Matrix
open scoped Matrix.Norms.Operator

namespace Meent

variable {n : Type} [Fintype n] [DecidableEq n]

/-- **C46, losses of the eigenvalues.**  If the loss has no gradient with respect to the eigenvectors, the
matrix returned by `Eig.backward` is its exact gradient along every curve, for every perturbation and even
when eigenvalues coincide. -/
theorem C46_eigenvalues (e : ℝ) (A W : ℝ → Matrix n n ℂ) (l : ℝ → n → ℂ) (A' W' : Matrix n n ℂ) (l' : n → ℂ)
    (t₀ : ℝ) (he : ∀ᶠ t in nhds t₀, A t * W t = W t * diagonal (l t)) (hA : HasDerivAt A A' t₀)
    (hW : HasDerivAt W W' t₀) (hl : HasDerivAt l l' t₀) (hu : IsUnit (W t₀).det)
    (L : (n → ℂ) × Matrix n n ℂ → ℝ) (g : n → ℂ) (hL : Spec.IsGradient2 L (l t₀) (W t₀) g 0) :
    ∃ x, eigBackward e (l t₀) (W t₀) g 0 = .ok x ∧
      HasDerivAt (fun t => L (l t, W t)) (Spec.change x A') t₀ := by
  refine ⟨_, eigBackward_ok hu, ?_⟩
  obtain ⟨L', h1, h2⟩ := hL
  have h3 : HasDerivAt (fun t => L (l t, W t)) (L' (l', W')) t₀ :=
    HasFDerivAt.comp_hasDerivAt (f := fun t => (l t, W t)) t₀ h1 (hl.prodMk hW)
  convert h3 using 1
  · rw [h2, change_entries hu]
    have hz : Spec.change (0 : Matrix n n ℂ) W' = 0 := by simp [Spec.change]
    rw [hz, add_zero, Spec.changeVec]
    congr 1
    symm
    refine Finset.sum_congr rfl fun i _ => ?_
    rw [Finset.sum_eq_single i]
    · have := eig_curve he hA hW hl hu i i
      have h5 : ((W t₀)⁻¹ * A' * W t₀) i i = l' i := by
        rw [if_pos rfl, mul_comm] at this
        linear_combination this
      rw [h5]
      simp
    · intro j _ hj
      simp [hj.symm]
    · simp

/-- **C46, losses of eigenvalues and eigenvectors.**  If the eigenvalues are distinct and the loss does not
depend on the normalisation of the eigenvectors, the derivative of the loss along every curve differs from the
one computed by `Eig.backward` by at most `perturbation · Σ |…| / |λ_j − λ_i|³`; in particular the backward
pass is exact for perturbation zero. -/
theorem C46_eigenvectors (e : ℝ) (hpert : 0 ≤ e) (A W : ℝ → Matrix n n ℂ) (l : ℝ → n → ℂ)
    (A' W' : Matrix n n ℂ) (l' : n → ℂ)
    (t₀ : ℝ) (he : ∀ᶠ t in nhds t₀, A t * W t = W t * diagonal (l t)) (hA : HasDerivAt A A' t₀)
    (hW : HasDerivAt W W' t₀) (hl : HasDerivAt l l' t₀) (hu : IsUnit (W t₀).det)
    (hdist : Function.Injective (l t₀))
    (L : (n → ℂ) × Matrix n n ℂ → ℝ) (g : n → ℂ) (G : Matrix n n ℂ)
    (hL : Spec.IsGradient2 L (l t₀) (W t₀) g G)
    (hgauge : ∀ c : n → ℂ, (∀ i, c i ≠ 0) → L (l t₀, W t₀ * diagonal c) = L (l t₀, W t₀)) :
    ∃ x dL, eigBackward e (l t₀) (W t₀) g G = .ok x ∧ HasDerivAt (fun t => L (l t, W t)) dL t₀ ∧
      |dL - Spec.change x A'| ≤ e * ∑ i, ∑ j, if i = j then 0 else
        ‖((W t₀)ᴴ * G) i j‖ * ‖((W t₀)⁻¹ * A' * W t₀) i j‖ / ‖l t₀ j - l t₀ i‖ ^ 3 := by
  have hd := gauge_diag hL hgauge
  refine ⟨_, Spec.changeVec g l' + Spec.change G W', eigBackward_ok hu, ?_, ?_⟩
  · obtain ⟨L', h1, h2⟩ := hL
    rw [← h2]
    exact HasFDerivAt.comp_hasDerivAt (f := fun t => (l t, W t)) t₀ h1 (hl.prodMk hW)
  · rw [change_entries hu, change_vec (W := W t₀) hu, Spec.changeVec, ← Complex.add_re, ← Complex.sub_re]
    refine (Complex.abs_re_le_norm _).trans ?_
    have hsum : (∑ i, star (g i) * l' i) + (∑ i, ∑ j, star (((W t₀)ᴴ * G) i j) * ((W t₀)⁻¹ * W') i j)
        - ∑ i, ∑ j, star ((diagonal g + eigF e (l t₀) ⊙ ((W t₀)ᴴ * G)) i j) * ((W t₀)⁻¹ * A' * W t₀) i j
        = ∑ i, ∑ j, if i = j then 0 else star (((W t₀)ᴴ * G) i j) * ((W t₀)⁻¹ * A' * W t₀) i j *
          (1 / (l t₀ j - l t₀ i) - star (eigF e (l t₀) i j)) := by
      have hg : ∀ i, star (g i) * l' i = ∑ j, if i = j then star (g i) * l' i else 0 := by
        intro i; simp
      rw [Finset.sum_congr rfl fun i _ => hg i, ← Finset.sum_add_distrib, ← Finset.sum_sub_distrib]
      refine Finset.sum_congr rfl fun i _ => ?_
      rw [← Finset.sum_add_distrib, ← Finset.sum_sub_distrib]
      refine Finset.sum_congr rfl fun j _ => ?_
      have hc := eig_curve he hA hW hl hu i j
      by_cases hij : i = j
      · subst hij
        rw [if_pos rfl] at hc
        have h5 : ((W t₀)⁻¹ * A' * W t₀) i i = l' i := by
          rw [mul_comm] at hc
          linear_combination hc
        simp [hd i, h5]
      · rw [if_neg hij, add_zero] at hc
        have hne : l t₀ j - l t₀ i ≠ 0 := sub_ne_zero.mpr fun h => hij (hdist h.symm)
        have h6 : ((W t₀)⁻¹ * W') i j = ((W t₀)⁻¹ * A' * W t₀) i j * (1 / (l t₀ j - l t₀ i)) := by
          rw [mul_one_div, eq_div_iff hne]
          linear_combination -hc
        rw [h6, if_neg hij, if_neg hij]
        simp only [Matrix.add_apply, diagonal_apply_ne _ hij, hadamard_apply, zero_add, star_mul']
        ring
    rw [hsum, Finset.mul_sum]
    refine (norm_sum_le _ _).trans (Finset.sum_le_sum fun i _ => ?_)
    rw [Finset.mul_sum]
    refine (norm_sum_le _ _).trans (Finset.sum_le_sum fun j _ => ?_)
    by_cases hij : i = j
    · simp [hij]
    · rw [if_neg hij, if_neg hij, norm_mul, norm_mul, norm_star]
      have hne : l t₀ j - l t₀ i ≠ 0 := sub_ne_zero.mpr fun h => hij (hdist h.symm)
      have h7 := eigF_err hpert hne
      have h8 : eigF e (l t₀) i j = (l t₀ j - l t₀ i) / ((‖l t₀ j - l t₀ i‖ ^ 2 + e : ℝ) : ℂ) := by
        simp [eigF, hij]
      rw [h8]
      calc _ ≤ ‖((W t₀)ᴴ * G) i j‖ * ‖((W t₀)⁻¹ * A' * W t₀) i j‖ * (e / ‖l t₀ j - l t₀ i‖ ^ 3) := by gcongr
        _ = _ := by ring

/-- Non-vacuity: the curve `[[1, t], [0, 2]]` with eigenvectors `[[1, t], [0, 1]]` and the loss
`Re (W 0 1 - W 1 1)`, whose gradient with respect to the eigenvectors is not zero. -/
example : let A : ℝ → Matrix (Fin 2) (Fin 2) ℂ := fun t => !![1, t; 0, 2]
    let W : ℝ → Matrix (Fin 2) (Fin 2) ℂ := fun t => !![1, t; 0, 1]
    let l : ℝ → Fin 2 → ℂ := fun _ => ![1, 2]
    let L : (Fin 2 → ℂ) × Matrix (Fin 2) (Fin 2) ℂ → ℝ := fun x => (x.2 0 1 - x.2 1 1).re
    (∀ t, A t * W t = W t * diagonal (l t)) ∧ (∃ A' W' l', HasDerivAt A A' 1 ∧ HasDerivAt W W' 1 ∧ HasDerivAt l l' 1) ∧
    IsUnit (W 1).det ∧ Function.Injective (l 1) ∧ Spec.IsGradient2 L (l 1) (W 1) 0 !![0, 1; 0, -1] ∧
    ∀ c : Fin 2 → ℂ, (∀ i, c i ≠ 0) → L (l 1, W 1 * diagonal c) = L (l 1, W 1) := by
  intro A W l L
  have hlin : ∀ a b c : ℂ, ∃ M', HasDerivAt (fun t : ℝ => (!![a, t; b, c] : Matrix (Fin 2) (Fin 2) ℂ)) M' 1 := by
    intro a b c
    have he : (fun t : ℝ => (!![a, t; b, c] : Matrix (Fin 2) (Fin 2) ℂ))
        = fun t : ℝ => (!![a, 0; b, c] : Matrix (Fin 2) (Fin 2) ℂ) + t • !![0, 1; 0, 0] := by
      funext t; ext i j; fin_cases i <;> fin_cases j <;> simp
    rw [he]
    exact ⟨_, ((hasDerivAt_id (1 : ℝ)).smul_const _).const_add _⟩
  refine ⟨fun t => ?_, ?_, ?_, ?_, ?_, ?_⟩
  · ext i j
    fin_cases i <;> fin_cases j <;> simp [A, W, l, Matrix.mul_apply, Fin.sum_univ_two] <;> ring
  · obtain ⟨A', hA'⟩ := hlin 1 0 2
    obtain ⟨W', hW'⟩ := hlin 1 0 1
    exact ⟨A', W', 0, hA', hW', hasDerivAt_const _ _⟩
  · simp [W, det_fin_two]
  · intro i j h
    fin_cases i <;> fin_cases j <;> simp_all [l]
  · let f : ((Fin 2 → ℂ) × Matrix (Fin 2) (Fin 2) ℂ) →ₗ[ℝ] ℝ :=
      { toFun := L
        map_add' := fun x y => by simp [L]; ring
        map_smul' := fun c x => by simp [L]; ring }
    refine ⟨f.toContinuousLinearMap, f.toContinuousLinearMap.hasFDerivAt, fun d D => ?_⟩
    show (D 0 1 - D 1 1).re = _
    simp [Spec.changeVec, Spec.change, Fin.sum_univ_two]
    ring
  · intro c _
    simp only [L, mul_diagonal]
    simp [W]

end Meent

#print axioms Meent.C46_eigenvalues
#print axioms Meent.C46_eigenvectors
