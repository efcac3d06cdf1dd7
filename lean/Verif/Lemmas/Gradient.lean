import Verif.Spec.Gradient
import Verif.Model.TorchPrimitives

/-!
# Gradients (helper lemmas)
-/

set_option linter.unusedSectionVars false
set_option linter.unusedSimpArgs false

open Matrix
open scoped Matrix.Norms.Operator

namespace Meent

variable {n : Type} [Fintype n] [DecidableEq n]

theorem change_eq (g D : Matrix n n ℂ) : Spec.change g D = (trace (gᴴ * D)).re := by
  unfold Spec.change trace
  congr 1
  rw [Finset.sum_comm]
  refine Finset.sum_congr rfl fun j _ => ?_
  simp [Matrix.mul_apply, conjTranspose_apply]

theorem change_backward (B g D : Matrix n n ℂ) :
    Spec.change g (-(B * D * B)) = Spec.change (robustPinvBackward B g) D := by
  rw [change_eq, change_eq, robustPinvBackward]
  simp only [conjTranspose_mul, conjTranspose_neg, conjTranspose_conjTranspose, Matrix.mul_neg, Matrix.neg_mul, trace_neg]
  congr 2
  rw [← Matrix.mul_assoc, Matrix.trace_mul_comm]
  simp only [Matrix.mul_assoc]

theorem pinv_fderiv (la : LinAlg) {A : Matrix n n ℂ} (h : IsUnit A.det) :
    ∃ f : Matrix n n ℂ →L[ℝ] Matrix n n ℂ, HasFDerivAt (fun M : Matrix n n ℂ => la.pinv M) f A ∧
      ∀ D, f D = -(A⁻¹ * D * A⁻¹) := by
  have hu : IsUnit A := (Matrix.isUnit_iff_isUnit_det A).mpr h
  obtain ⟨u, rfl⟩ := hu
  have hd := hasFDerivAt_ringInverse (𝕜 := ℝ) u
  refine ⟨_, hd.congr_of_eventuallyEq ?_, fun D => ?_⟩
  · filter_upwards [Units.nhds u] with M hM
    rw [la.pinv_law M ((Matrix.isUnit_iff_isUnit_det M).mp hM), Matrix.nonsing_inv_eq_ringInverse]
  · have : (((u⁻¹ : (Matrix n n ℂ)ˣ) : Matrix n n ℂ)) = (u : Matrix n n ℂ)⁻¹ := by
      rw [Matrix.coe_units_inv]
    rw [this]
    rfl

end Meent
