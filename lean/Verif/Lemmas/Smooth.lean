import Mathlib.Analysis.Normed.Algebra.MatrixExponential
import Mathlib.Analysis.Calculus.ContDiff.Operations
import Mathlib.Analysis.Calculus.ContDiff.FiniteDimension
import Mathlib.Analysis.Analytic.Basic
import Mathlib.Analysis.Calculus.FDeriv.Analytic
import Mathlib.Analysis.Complex.Basic
import Mathlib.LinearAlgebra.Matrix.NonsingularInverse

/-!
# Matrices with smooth entries (helper lemmas)
-/

open Matrix
open scoped ContDiff Topology

namespace Meent

set_option linter.unusedSectionVars false
set_option linter.unusedSimpArgs false

variable {E : Type} [NormedAddCommGroup E] [NormedSpace ℝ E]

/-- Every entry is a smooth function at `x₀`. -/
def MSm {m n : Type} (f : E → Matrix m n ℂ) (x₀ : E) : Prop :=
  ∀ i j, ContDiffAt ℝ ∞ (fun x => f x i j) x₀

/-- Every component is a smooth function at `x₀`. -/
def VSm {n : Type} (f : E → n → ℂ) (x₀ : E) : Prop := ∀ i, ContDiffAt ℝ ∞ (fun x => f x i) x₀

variable {m n o : Type} {x₀ : E}

theorem MSm.const (A : Matrix m n ℂ) : MSm (fun _ : E => A) x₀ := fun _ _ => contDiffAt_const

theorem VSm.const (a : n → ℂ) : VSm (fun _ : E => a) x₀ := fun _ => contDiffAt_const

theorem MSm.add {f g : E → Matrix m n ℂ} (hf : MSm f x₀) (hg : MSm g x₀) : MSm (fun x => f x + g x) x₀ :=
  fun i j => (hf i j).add (hg i j)

theorem MSm.sub {f g : E → Matrix m n ℂ} (hf : MSm f x₀) (hg : MSm g x₀) : MSm (fun x => f x - g x) x₀ :=
  fun i j => (hf i j).sub (hg i j)

theorem MSm.neg {f : E → Matrix m n ℂ} (hf : MSm f x₀) : MSm (fun x => -f x) x₀ :=
  fun i j => (hf i j).neg

theorem MSm.smul {a : E → ℂ} {f : E → Matrix m n ℂ} (ha : ContDiffAt ℝ ∞ a x₀) (hf : MSm f x₀) :
    MSm (fun x => a x • f x) x₀ :=
  fun i j => ha.mul (hf i j)

theorem MSm.mul [Fintype n] {f : E → Matrix m n ℂ} {g : E → Matrix n o ℂ} (hf : MSm f x₀) (hg : MSm g x₀) :
    MSm (fun x => f x * g x) x₀ := by
  intro i j
  simp only [Matrix.mul_apply]
  exact ContDiffAt.sum fun k _ => (hf i k).mul (hg k j)

theorem MSm.mulVec [Fintype n] {f : E → Matrix m n ℂ} {g : E → n → ℂ} (hf : MSm f x₀) (hg : VSm g x₀) :
    VSm (fun x => f x *ᵥ g x) x₀ := by
  intro i
  simp only [Matrix.mulVec, dotProduct]
  exact ContDiffAt.sum fun k _ => (hf i k).mul (hg k)

theorem VSm.sub {f g : E → n → ℂ} (hf : VSm f x₀) (hg : VSm g x₀) : VSm (fun x => f x - g x) x₀ :=
  fun i => (hf i).sub (hg i)

theorem MSm.fromBlocks {l : Type} {A : E → Matrix n l ℂ} {B : E → Matrix n m ℂ} {C : E → Matrix o l ℂ}
    {D : E → Matrix o m ℂ} (hA : MSm A x₀) (hB : MSm B x₀) (hC : MSm C x₀) (hD : MSm D x₀) :
    MSm (fun x => Matrix.fromBlocks (A x) (B x) (C x) (D x)) x₀ := by
  rintro (i | i) (j | j)
  · exact hA i j
  · exact hB i j
  · exact hC i j
  · exact hD i j

theorem MSm.reindex {p q : Type} {f : E → Matrix m n ℂ} (hf : MSm f x₀) (r : p → m) (c : q → n) :
    MSm (fun x => (f x).submatrix r c) x₀ := fun i j => hf (r i) (c j)

theorem MSm.congr {f g : E → Matrix m n ℂ} (hf : MSm f x₀) (h : ∀ᶠ x in 𝓝 x₀, g x = f x) : MSm g x₀ :=
  fun i j => (hf i j).congr_of_eventuallyEq (h.mono fun x e => congrFun (congrFun e i) j)

/-! ### Determinants and inverses -/

section
variable [Fintype n] [DecidableEq n]

theorem MSm.det {f : E → Matrix n n ℂ} (hf : MSm f x₀) : ContDiffAt ℝ ∞ (fun x => (f x).det) x₀ := by
  simp only [Matrix.det_apply]
  refine ContDiffAt.sum fun σ _ => ContDiffAt.const_smul (Equiv.Perm.sign σ) ?_
  exact contDiffAt_prod fun i _ => hf (σ i) i

theorem MSm.isUnit {f : E → Matrix n n ℂ} (hf : MSm f x₀) (hu : IsUnit (f x₀).det) :
    ∀ᶠ x in 𝓝 x₀, IsUnit (f x).det := by
  have h := (MSm.det hf).continuousAt.eventually_ne hu.ne_zero
  exact h.mono fun x hx => isUnit_iff_ne_zero.mpr hx

theorem MSm.adjugate {f : E → Matrix n n ℂ} (hf : MSm f x₀) : MSm (fun x => (f x).adjugate) x₀ := by
  intro i j
  simp only [Matrix.adjugate_apply]
  refine MSm.det ?_
  intro a b
  by_cases h : a = j
  · subst h
    simp only [Matrix.updateRow_self]
    exact contDiffAt_const
  · simp only [Matrix.updateRow_ne h]
    exact hf a b

theorem MSm.inv {f : E → Matrix n n ℂ} (hf : MSm f x₀) (hu : IsUnit (f x₀).det) : MSm (fun x => (f x)⁻¹) x₀ := by
  have h : MSm (fun x => ((f x).det)⁻¹ • (f x).adjugate) x₀ :=
    MSm.smul ((MSm.det hf).inv hu.ne_zero) hf.adjugate
  refine h.congr (Filter.Eventually.of_forall fun x => ?_)
  rw [Matrix.inv_def, Ring.inverse_eq_inv']

/-! ### Exponential -/

open scoped Matrix.Norms.Operator in
theorem MSm.exp {f : E → Matrix n n ℂ} (hf : MSm f x₀) : MSm (fun x => NormedSpace.exp (f x)) x₀ := by
  have h1 : ContDiffAt ℝ ∞ f x₀ := by
    have e : f = fun x => ∑ i, ∑ j, (f x i j) • (Matrix.single i j (1 : ℂ)) := by
      funext x
      conv_lhs => rw [Matrix.matrix_eq_sum_single (f x)]
      refine Finset.sum_congr rfl fun i _ => Finset.sum_congr rfl fun j _ => ?_
      rw [Matrix.smul_single, smul_eq_mul, mul_one]
    rw [e]
    exact ContDiffAt.sum fun i _ => ContDiffAt.sum fun j _ => (hf i j).smul contDiffAt_const
  have h2 : ContDiffAt ℝ ∞ (NormedSpace.exp : Matrix n n ℂ → Matrix n n ℂ) (f x₀) :=
    (NormedSpace.exp_analytic (𝕂 := ℝ) (f x₀)).contDiffAt
  have h3 : ContDiffAt ℝ ∞ (fun x => NormedSpace.exp (f x)) x₀ := h2.comp x₀ h1
  intro i j
  let L : Matrix n n ℂ →ₗ[ℝ] ℂ :=
    { toFun := fun M => M i j, map_add' := fun _ _ => rfl, map_smul' := fun _ _ => rfl }
  exact (L.toContinuousLinearMap.contDiff.contDiffAt).comp x₀ h3

end

end Meent
