import Verif.Lemmas.Engine

/-!
# Energy bookkeeping of the 1D solver (helper lemmas)
-/

open Matrix

namespace Meent

set_option linter.unusedSectionVars false

theorem csqrt_sq (z : ℂ) : csqrt z ^ 2 = z := by
  unfold csqrt
  rw [← Complex.cpow_nat_mul]
  norm_num

theorem csqrt_mul_self (z : ℂ) : csqrt z * csqrt z = z := by
  rw [← sq, csqrt_sq]

variable {n : Type} [Fintype n] [DecidableEq n]

theorem diag_csqrt_mul (l : n → ℂ) :
    diagonal (fun i => csqrt (l i)) * diagonal (fun i => csqrt (l i)) = diagonal l := by
  rw [diagonal_mul_diagonal]; congr 1; ext i; exact csqrt_mul_self _

theorem isHermitian_diagonal_real {v : n → ℂ} (h : ∀ i, star (v i) = v i) :
    (diagonal v).IsHermitian := by
  rw [IsHermitian, diagonal_conjTranspose]; congr 1; ext i; exact h i

/-- TE or TM modes of a Hermitian layer are lossless. -/
theorem modes1d_lossless {la : LinAlg} {pol : ℝ} {kx : n → ℂ} {c : Conv n} {m : Modes n}
    (hk : ∀ i, star (kx i) = kx i) (hx : c.epx.IsHermitian) (hy : c.epy.IsHermitian)
    (hz : c.epzi.IsHermitian)
    (h : transfer_1d_2 la pol kx c false = .ok m) : Lossless 1 m.W m.V m.q := by
  unfold transfer_1d_2 at h
  simp only at h
  split at h
  · simp only [Except.ok.injEq] at h
    subst h
    have hA := la.eig_law (diagonal (fun i => kx i ^ 2) - c.epy)
    refine Lossless.of_PR (P := 1) (R := diagonal (fun i => kx i ^ 2) - c.epy) ?_ ?_ ?_ ?_
    · simp
    · rw [hA, Matrix.mul_assoc, diag_csqrt_mul]
    · rw [Matrix.one_mul]
      exact (isHermitian_diagonal_real (fun i => by rw [star_pow, hk])).sub hy
    · simp
  · split at h
    · simp only [Except.bind_ok, meeinv_false_ok] at h
      obtain ⟨M, ⟨hu, rfl⟩, e⟩ := h
      simp only [Except.ok.injEq] at e
      subst e
      set B := diagonal kx * c.epzi * diagonal kx - 1 with hB
      have hE := la.eig_law (c.epx * B)
      refine Lossless.of_PR (P := c.epx) (R := B) ?_ ?_ ?_ ?_
      · simp only [← Matrix.mul_assoc]
        rw [mul_nonsing_inv _ hu, Matrix.one_mul]
      · simp only [Matrix.mul_assoc]
        rw [diag_csqrt_mul, ← hE, ← Matrix.mul_assoc, ← Matrix.mul_assoc, nonsing_inv_mul _ hu,
          Matrix.one_mul]
      · rw [Matrix.one_mul, hB]
        refine IsHermitian.sub ?_ isHermitian_one
        rw [IsHermitian]
        simp only [conjTranspose_mul, hz.eq, (isHermitian_diagonal_real hk).eq, Matrix.mul_assoc]
      · simpa using hx
    · cases h

theorem flux_one_eq (S U : n → ℂ) : flux 1 S U = ∑ i, (star (S i) * U i).im := by
  simp [flux, beta, dotProduct]

/-- Flux of a purely outgoing field with admittances `y`. -/
theorem flux_out (y t : n → ℂ) :
    flux 1 ((1 : Matrix n n ℂ) *ᵥ t) ((Complex.I • diagonal y) *ᵥ t)
      = ∑ i, Complex.normSq (t i) * (y i).re := by
  rw [flux_one_eq]
  refine Finset.sum_congr rfl fun i _ => ?_
  simp only [one_mulVec, smul_mulVec, Pi.smul_apply, mulVec_diagonal, smul_eq_mul]
  rw [show star (t i) * (Complex.I * (y i * t i)) = Complex.I * y i * (star (t i) * t i) by ring]
  rw [Complex.star_def, Complex.normSq_eq_conj_mul_self.symm]
  simp [Complex.mul_im, mul_comm]

/-- Flux of incident (unit, order `c`, real admittance `yi`) plus reflected field. -/
theorem flux_in (y r : n → ℂ) (c : n) (yi : ℝ) (hy : y c = yi) (δ : n → ℂ)
    (hδ : ∀ i, δ i = if i = c then 1 else 0) :
    flux 1 (r + δ) (fun i => Complex.I * (yi * δ i) - Complex.I * (y i * r i))
      = yi - ∑ i, Complex.normSq (r i) * (y i).re := by
  rw [flux_one_eq]
  have : ∀ i, (star ((r + δ) i) * (Complex.I * (yi * δ i) - Complex.I * (y i * r i))).im
      = (if i = c then yi else 0) - Complex.normSq (r i) * (y i).re := by
    intro i
    by_cases hi : i = c
    · subst hi
      simp only [Pi.add_apply, hδ, hy, if_true]
      simp [Complex.mul_im, Complex.mul_re, Complex.normSq_apply]
      ring
    · simp only [Pi.add_apply, hδ, hi, if_false]
      simp [Complex.mul_im, Complex.mul_re, Complex.normSq_apply]
      ring
  simp only [this, Finset.sum_sub_distrib]
  simp

theorem effOf_eq (r w : ℂ) : effOf r w = Complex.normSq r * w.re := by
  unfold effOf
  rw [Complex.star_def, Complex.mul_conj]
  simp

end Meent
