import Verif.Lemmas.Energy1DSolve

/-!
# Diagonal problems (helper lemmas)

When every matrix of the recursion is diagonal the solver can be evaluated in closed form.
-/

open Matrix

namespace Meent

set_option linter.unusedSectionVars false
set_option linter.unusedSimpArgs false

variable {n : Type} [Fintype n] [DecidableEq n]

theorem isUnit_det_diagonal {v : n → ℂ} (h : ∀ i, v i ≠ 0) : IsUnit (diagonal v).det := by
  rw [det_diagonal]
  exact (Finset.prod_ne_zero_iff.mpr fun i _ => h i).isUnit

theorem inv_diagonal' {v : n → ℂ} (h : ∀ i, v i ≠ 0) :
    (diagonal v)⁻¹ = diagonal (fun i => (v i)⁻¹) := by
  apply Matrix.inv_eq_right_inv
  rw [diagonal_mul_diagonal]
  rw [← diagonal_one]
  congr 1; ext i; exact mul_inv_cancel₀ (h i)

theorem meeinv_diagonal (la : LinAlg) {v : n → ℂ} (h : ∀ i, v i ≠ 0) :
    meeinv la (diagonal v) false = .ok (diagonal fun i => (v i)⁻¹) := by
  rw [meeinv_false_ok.mpr ⟨isUnit_det_diagonal h, rfl⟩, inv_diagonal' h]

/-- One step with diagonal data. -/
theorem tmmStep_diag (la : LinAlg) {x w v f g t : n → ℂ}
    (hw : ∀ i, w i ≠ 0) (hv : ∀ i, v i ≠ 0) (ha : ∀ i, f i / w i + g i / v i ≠ 0) :
    tmmStep la false (diagonal x) (diagonal w) (diagonal v) ⟨diagonal f, diagonal g, diagonal t⟩ =
      .ok (⟨diagonal fun i => w i * (1 + x i ^ 2 * ((f i / w i - g i / v i) / (f i / w i + g i / v i))),
            diagonal fun i => v i * (1 - x i ^ 2 * ((f i / w i - g i / v i) / (f i / w i + g i / v i))),
            diagonal fun i => t i * (2 / (f i / w i + g i / v i)) * x i⟩,
           diagonal fun i => 2 / (f i / w i + g i / v i),
           diagonal fun i => (f i / w i - g i / v i) / 2) := by
  unfold tmmStep
  rw [meeinv_diagonal la hw, meeinv_diagonal la hv]
  simp only [bind, Except.bind]
  have eA : (1 / 2 : ℂ) • ((diagonal fun i => (w i)⁻¹) * diagonal f + (diagonal fun i => (v i)⁻¹) * diagonal g)
      = diagonal fun i => (f i / w i + g i / v i) / 2 := by
    rw [diagonal_mul_diagonal, diagonal_mul_diagonal, diagonal_add, ← diagonal_smul]
    congr 1; ext i; simp only [Pi.smul_apply, smul_eq_mul]; ring
  have eB : (1 / 2 : ℂ) • ((diagonal fun i => (w i)⁻¹) * diagonal f - (diagonal fun i => (v i)⁻¹) * diagonal g)
      = diagonal fun i => (f i / w i - g i / v i) / 2 := by
    rw [diagonal_mul_diagonal, diagonal_mul_diagonal, diagonal_sub, ← diagonal_smul]
    congr 1; ext i; simp only [Pi.smul_apply, smul_eq_mul]; ring
  rw [eA, eB, meeinv_diagonal la (fun i => div_ne_zero (ha i) two_ne_zero)]
  simp only [diagonal_mul_diagonal, Except.ok.injEq, Prod.mk.injEq, TState.mk.injEq]
  refine ⟨⟨?_, ?_, ?_⟩, ?_, trivial⟩
  · rw [← diagonal_one, diagonal_add, diagonal_mul_diagonal]
    congr 1; ext i
    have := ha i
    field_simp
  · rw [← diagonal_one, diagonal_sub, diagonal_mul_diagonal]
    congr 1; ext i
    have := ha i
    field_simp
  · congr 1; ext i
    have := ha i
    field_simp
  · congr 1; ext i
    have := ha i
    field_simp

open Classical in
/-- An eigen-oracle that returns the standard basis for diagonal matrices (and, to satisfy the law,
some diagonalisation or zero vectors otherwise). -/
noncomputable def exLA : LinAlg where
  eig := fun {n} _ _ A =>
    if A = diagonal A.diag then (A.diag, 1)
    else if h : ∃ p : (n → ℂ) × Matrix n n ℂ, A * p.2 = p.2 * diagonal p.1 ∧ IsUnit p.2.det then
      (Classical.choose h) else (0, 0)
  eig_law := by
    intro n _ _ A
    by_cases h1 : A = diagonal A.diag
    · rw [if_pos h1]
      simp only [Matrix.mul_one, Matrix.one_mul]
      exact h1
    · simp only [h1, if_false]
      split
      · rename_i h; exact (Classical.choose_spec h).1
      · simp
  pinv := fun A => A⁻¹
  pinv_law := fun _ _ => rfl

theorem exLA_eig_diagonal (v : n → ℂ) : exLA.eig (diagonal v) = (v, 1) := by
  have : diagonal v = diagonal (diagonal v).diag := by rw [diag_diagonal]
  simp only [exLA]
  rw [if_pos this, diag_diagonal]

/-- `1 × 1` matrices are diagonal. -/
theorem eq_diagonal_of_subsingleton [Subsingleton n] (A : Matrix n n ℂ) :
    A = diagonal (fun i => A i i) := by
  ext i j
  obtain rfl := Subsingleton.elim i j
  simp

end Meent
