import Verif.Lemmas.Gradient

/-!
# C43: the backward pass of the PyTorch pseudo-inverse
-/

open Matrix
open scoped Matrix.Norms.Operator

namespace Meent

variable {n : Type} [Fintype n] [DecidableEq n]

/-- **C43.**  Let the pseudo-inverse be applied to an invertible matrix `A` and let a real loss be computed
from the result, with gradient `g` there.  Then the hand-written backward pass returns exactly the gradient of
the loss with respect to `A`.  (The forward pass is any function that agrees with matrix inversion on
invertible matrices.) -/
theorem C43_backward (la : LinAlg) (A g : Matrix n n ℂ) (hA : IsUnit A.det) (L : Matrix n n ℂ → ℝ)
    (hL : Spec.IsGradient L (robustPinvForward la A) g) :
    Spec.IsGradient (fun M => L (robustPinvForward la M)) A
      (robustPinvBackward (robustPinvForward la A) g) := by
  obtain ⟨L', h1, h2⟩ := hL
  obtain ⟨f, h3, h4⟩ := pinv_fderiv la hA
  refine ⟨L'.comp f, h1.comp A h3, fun D => ?_⟩
  rw [ContinuousLinearMap.comp_apply, h2, h4, robustPinvForward, la.pinv_law A hA, change_backward]

/-- **C43, uniqueness.**  The first-order change determines the gradient, so no other matrix would be right. -/
theorem C43_unique (g g' : Matrix n n ℂ) (h : ∀ D, Spec.change g D = Spec.change g' D) : g = g' := by
  have key : ∀ D : Matrix n n ℂ, (∑ i, ∑ j, star ((g - g') i j) * D i j).re = 0 := by
    intro D
    have := h D
    unfold Spec.change at this
    simp only [Matrix.sub_apply, star_sub, sub_mul, Finset.sum_sub_distrib, Complex.sub_re]
    linarith
  have h0 := key (g - g')
  have hn : ∀ z : ℂ, (star z * z) = ((‖z‖ ^ 2 : ℝ) : ℂ) := by
    intro z
    rw [Complex.star_def, ← Complex.normSq_eq_conj_mul_self, Complex.normSq_eq_norm_sq]
  simp only [hn, ← Complex.ofReal_sum, Complex.ofReal_re] at h0
  ext i j
  have h1 := (Finset.sum_eq_zero_iff_of_nonneg (fun i _ => Finset.sum_nonneg fun j _ => by positivity)).mp h0 i
    (Finset.mem_univ i)
  have h2 := (Finset.sum_eq_zero_iff_of_nonneg (fun j _ => by positivity)).mp h1 j (Finset.mem_univ j)
  have h3 : (g - g') i j = 0 := by simpa using h2
  exact sub_eq_zero.mp h3

/-- Non-vacuity: the linear loss `Re Σ conj(g) M` has gradient `g` everywhere. -/
example (g A : Matrix n n ℂ) : Spec.IsGradient (fun M => Spec.change g M) A g := by
  let f : Matrix n n ℂ →ₗ[ℝ] ℝ :=
    { toFun := Spec.change g
      map_add' := fun x y => by simp [Spec.change, mul_add, Finset.sum_add_distrib]
      map_smul' := fun c x => by
        simp [Spec.change, mul_left_comm, ← Finset.mul_sum] }
  exact ⟨f.toContinuousLinearMap, f.toContinuousLinearMap.hasFDerivAt, fun D => rfl⟩

end Meent

#print axioms Meent.C43_backward
#print axioms Meent.C43_unique
