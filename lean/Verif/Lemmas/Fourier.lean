import Verif.Model.Fourier
import Verif.Spec.Fourier
import Verif.Lemmas.Engine

/-!
# Discrete Fourier convolution matrices (helper lemmas)
-/

open Matrix

namespace Meent

set_option linter.unusedSectionVars false

theorem forAllFin_ok {α : Type} {N : ℕ} {f : Fin N → Res α} {g : Fin N → α} :
    forAllFin f = .ok g ↔ ∀ i, f i = .ok (g i) := by
  induction N with
  | zero =>
    simp only [forAllFin, Except.ok.injEq]
    constructor
    · intro _ i; exact i.elim0
    · intro _; funext i; exact i.elim0
  | succ N ih =>
    simp only [forAllFin, Except.bind_ok, Except.ok.injEq]
    constructor
    · rintro ⟨a, ha, r, hr, rfl⟩ i
      refine Fin.cases ?_ (fun j => ?_) i
      · simpa using ha
      · simpa using (ih.mp hr) j
    · intro h
      exact ⟨g 0, h 0, fun i => g i.succ, ih.mpr (fun i => h i.succ), Fin.cons_self_tail g⟩

theorem pyIdx_isSome {N : ℕ} {j : ℤ} : (pyIdx N j).isSome ↔ -(N : ℤ) ≤ j ∧ j < N := by
  unfold pyIdx
  split
  · simp; omega
  · split
    · simp; omega
    · simp; omega

/-- `pyIdx` normalises modulo `N`. -/
theorem pyIdx_val {N : ℕ} {j : ℤ} (h : (pyIdx N j).isSome) :
    ∃ m : ℤ, (((pyIdx N j).get h).val : ℤ) = j + m * N := by
  unfold pyIdx at h ⊢
  by_cases h1 : 0 ≤ j ∧ j < N
  · refine ⟨0, ?_⟩
    simp only [h1, and_self, dif_pos, Option.get_some]
    omega
  · by_cases h2 : -(N : ℤ) ≤ j ∧ j < 0
    · refine ⟨1, ?_⟩
      simp only [h1, dif_neg, not_false_eq_true, h2, and_self, dif_pos, Option.get_some]
      omega
    · simp [h1, h2] at h

theorem exp_period {N : ℕ} (hN : 0 < N) (j m : ℤ) (y : ℕ) :
    Complex.exp (-(2 * Real.pi * Complex.I * ((j + m * N : ℤ) : ℂ) * (y : ℂ) / (N : ℂ)))
      = Complex.exp (-(2 * Real.pi * Complex.I * (j : ℂ) * (y : ℂ) / (N : ℂ))) := by
  have hN' : (N : ℂ) ≠ 0 := by exact_mod_cast hN.ne'
  have : -(2 * Real.pi * Complex.I * ((j + m * N : ℤ) : ℂ) * (y : ℂ) / (N : ℂ))
      = -(2 * Real.pi * Complex.I * (j : ℂ) * (y : ℂ) / (N : ℂ))
        + ((-(m * y) : ℤ) : ℂ) * (2 * Real.pi * Complex.I) := by
    push_cast
    field_simp
    ring
  rw [this, Complex.exp_periodic.int_mul]

theorem npfft_pyIdx {N : ℕ} (a : Fin N → ℂ) {j : ℤ} (h : (pyIdx N j).isSome) :
    npfft (fun y => a y / (N : ℂ)) ((pyIdx N j).get h) = Spec.dftCoeff a j := by
  have hN : 0 < N := by
    have := ((pyIdx N j).get h).isLt; omega
  obtain ⟨m, hm⟩ := pyIdx_val h
  unfold npfft Spec.dftCoeff
  rw [Finset.sum_div]
  refine Finset.sum_congr rfl fun y _ => ?_
  have : (((pyIdx N j).get h).val : ℂ) = ((j + m * N : ℤ) : ℂ) := by
    rw [← hm]; push_cast; rfl
  rw [this, exp_period hN]
  ring

theorem fancy_ok {N : ℕ} {ι κ : Type} [Fintype ι] [Fintype κ] [DecidableEq ι] [DecidableEq κ]
    {a : Fin N → ℂ} {idx : ι → κ → ℤ} {m : Matrix ι κ ℂ} :
    fancy a idx = .ok m ↔
      (∀ r c, -(N : ℤ) ≤ idx r c ∧ idx r c < N) ∧
      ∀ r c (h : (pyIdx N (idx r c)).isSome), m r c = a ((pyIdx N (idx r c)).get h) := by
  unfold fancy
  split
  · rename_i h
    simp only [Except.ok.injEq]
    constructor
    · rintro rfl
      exact ⟨fun r c => pyIdx_isSome.mp (h r c), fun r c _ => rfl⟩
    · rintro ⟨_, h2⟩
      ext r c
      exact (h2 r c (h r c)).symm
  · rename_i h
    simp only [reduceCtorEq, false_iff, not_and]
    intro h'
    exact absurd (fun r c => pyIdx_isSome.mpr (h' r c)) h

theorem npInvStack_ok {ι n : Type} [Fintype n] [DecidableEq n] {a b : ι → Matrix n n ℂ} :
    npInvStack a = .ok b ↔ (∀ i, IsUnit (a i).det) ∧ b = fun i => (a i)⁻¹ := by
  unfold npInvStack
  split
  · rename_i h; simp only [Except.ok.injEq]
    exact ⟨fun e => ⟨h, e.symm⟩, fun e => e.2.symm⟩
  · rename_i h
    simp only [reduceCtorEq, false_iff, not_and]
    intro h'; exact absurd h' h

theorem invIf_ok {ι n : Type} [Fintype n] [DecidableEq n] {b : Bool} {a a' : ι → Matrix n n ℂ} :
    invIf b a = .ok a' ↔
      (b = false ∧ a' = a) ∨ (b = true ∧ (∀ i, IsUnit (a i).det) ∧ a' = fun i => (a i)⁻¹) := by
  unfold invIf
  cases b
  · simp [eq_comm]
  · simp [npInvStack_ok]

theorem invRuleY_ok {nx ny : ℕ} {b : Bool} {cell c' : Fin nx → Fin ny → ℂ} :
    invRuleY b cell = .ok c' ↔
      (b = true ∧ c' = cell) ∨ (b = false ∧ (∀ x y, cell x y ≠ 0) ∧ c' = fun x y => 1 / cell x y) := by
  unfold invRuleY
  cases b
  · simp only [Bool.false_eq_true, if_false, false_and, true_and, false_or]
    split
    · rename_i h; simp only [Except.ok.injEq]
      exact ⟨fun e => ⟨h, e.symm⟩, fun e => e.2.symm⟩
    · rename_i h; simp [h]
  · simp [eq_comm]

/-- The Toeplitz matrix `[r, c] ↦ a_{c-r}` of discrete Fourier coefficients. -/
noncomputable def toep {N : ℕ} (f : ℕ) (a : Fin N → ℂ) : Matrix (Fin (2 * f + 1)) (Fin (2 * f + 1)) ℂ :=
  Matrix.of fun r c => Spec.dftCoeff a ((c.val : ℤ) - (r.val : ℤ))

/-- Block version: a matrix-valued sequence `a x` turned into the two-level Toeplitz matrix. -/
noncomputable def btoep {N : ℕ} {m : Type} (f : ℕ) (a : Fin N → Matrix m m ℂ) :
    Matrix (m × Fin (2 * f + 1)) (m × Fin (2 * f + 1)) ℂ :=
  Matrix.of fun r c => Spec.dftCoeff (fun x => a x r.1 c.1) ((c.2.val : ℤ) - (r.2.val : ℤ))

theorem fancy_fft_ok {N f : ℕ} {a : Fin N → ℂ}
    {m : Matrix (Fin (2 * f + 1)) (Fin (2 * f + 1)) ℂ} :
    fancy (npfft (fun y => a y / (N : ℂ)))
      (fun (r c : Fin (2 * f + 1)) => circulant r.val c.val) = .ok m ↔ 2 * f < N ∧ m = toep f a := by
  rw [fancy_ok]
  constructor
  · rintro ⟨h1, h2⟩
    constructor
    · have := (h1 ⟨0, by omega⟩ ⟨2 * f, by omega⟩).2
      simp only [circulant] at this
      omega
    · ext r c
      rw [h2 r c (pyIdx_isSome.mpr (h1 r c)), npfft_pyIdx]
      rfl
  · rintro ⟨h1, rfl⟩
    refine ⟨fun r c => ?_, fun r c h => ?_⟩
    · simp only [circulant]; omega
    · rw [npfft_pyIdx]; rfl

/-- Complete description of `dfs2d`: succeeds iff the samples suffice and the inverses exist. -/
theorem dfs2d_ok {cell : Raster} {cx cy : Bool} {fx fy : ℕ}
    {m : Matrix (FlatIdx fx fy) (FlatIdx fx fy) ℂ} :
    dfs2d cell cx cy fx fy = .ok m ↔
      ∃ c' : Fin cell.nx → Fin cell.ny → ℂ,
        invRuleY cy (fun x y => cell.val y x) = .ok c' ∧
        (0 < cell.nx → 2 * fy < cell.ny) ∧ 2 * fx < cell.nx ∧
        ∃ a : Fin cell.nx → Matrix (Fin (2 * fy + 1)) (Fin (2 * fy + 1)) ℂ,
          invIf (cx ^^ cy) (fun x => toep fy (c' x)) = .ok a ∧
          (if cx then .ok (flatten4 (btoep fx a)) else npInv (flatten4 (btoep fx a))) = .ok m := by
  unfold dfs2d
  simp only [Except.bind_ok, forAllFin_ok, fancy_fft_ok]
  constructor
  · rintro ⟨c', hc, a, ha, b, hb, d, hd, e⟩
    have ha' : a = fun x => toep fy (c' x) := funext fun x => (ha x).2
    subst ha'
    have hd' : (Matrix.of fun (r c : Fin (2 * fy + 1) × Fin (2 * fx + 1)) => d r.1 c.1 r.2 c.2)
        = btoep fx b := by
      ext r c
      simp only [of_apply, (hd r.1 c.1).2]
      rfl
    rw [hd'] at e
    exact ⟨c', hc, fun h => (ha ⟨0, h⟩).1, (hd 0 0).1, b, hb, e⟩
  · rintro ⟨c', hc, hy, hx, b, hb, e⟩
    refine ⟨c', hc, fun x => toep fy (c' x), fun x => ⟨hy (by omega), rfl⟩, b, hb,
      fun r c => toep fx (fun x => b x r c), fun r c => ⟨hx, rfl⟩, ?_⟩
    exact e

theorem flatten4_isHermitian {fx fy : ℕ}
    {m : Matrix (Fin (2 * fy + 1) × Fin (2 * fx + 1)) (Fin (2 * fy + 1) × Fin (2 * fx + 1)) ℂ}
    (h : m.IsHermitian) : (flatten4 (fto_x := fx) (fto_y := fy) m).IsHermitian :=
  h.submatrix _

theorem dftCoeff_star {N : ℕ} (a : Fin N → ℂ) (j : ℤ) :
    star (Spec.dftCoeff a j) = Spec.dftCoeff (fun y => star (a y)) (-j) := by
  unfold Spec.dftCoeff
  simp only [Complex.star_def, map_div₀, map_sum, map_mul, ← Complex.exp_conj, map_neg,
    Complex.conj_ofReal, Complex.conj_I, map_intCast, map_natCast, map_ofNat]
  congr 1
  refine Finset.sum_congr rfl fun y _ => ?_
  congr 2
  push_cast; ring

theorem btoep_isHermitian {N f : ℕ} {m : Type} (a : Fin N → Matrix m m ℂ)
    (h : ∀ x, (a x).IsHermitian) : (btoep f a).IsHermitian := by
  ext r c
  simp only [conjTranspose_apply, btoep, of_apply]
  rw [dftCoeff_star]
  congr 1
  · ext x
    exact (h x).apply _ _
  · ring

theorem toep_isHermitian {N f : ℕ} (a : Fin N → ℂ) (h : ∀ x, star (a x) = a x) :
    (toep f a).IsHermitian := by
  ext r c
  simp only [conjTranspose_apply, toep, of_apply]
  rw [dftCoeff_star]
  simp only [h]
  congr 1
  ring

/-- Real cells give Hermitian `dfs2d`. -/
theorem dfs2d_isHermitian {cell : Raster} {cx cy : Bool} {fx fy : ℕ}
    {m : Matrix (FlatIdx fx fy) (FlatIdx fx fy) ℂ}
    (hr : ∀ i j, star (cell.val i j) = cell.val i j)
    (h : dfs2d cell cx cy fx fy = .ok m) : m.IsHermitian := by
  obtain ⟨c', hc, -, -, a, ha, hm⟩ := dfs2d_ok.mp h
  have hc' : ∀ x y, star (c' x y) = c' x y := by
    rcases invRuleY_ok.mp hc with ⟨-, rfl⟩ | ⟨-, -, rfl⟩
    · intro x y; exact hr y x
    · intro x y; simp only [star_div₀, star_one, hr]
  have ha' : ∀ x, (a x).IsHermitian := by
    rcases invIf_ok.mp ha with ⟨-, rfl⟩ | ⟨-, -, rfl⟩
    · intro x; exact toep_isHermitian _ (hc' x)
    · intro x; exact (toep_isHermitian _ (hc' x)).inv
  have hb := flatten4_isHermitian (fx := fx) (fy := fy) (btoep_isHermitian (f := fx) a ha')
  split at hm
  · simp only [Except.ok.injEq] at hm; subst hm; exact hb
  · obtain ⟨-, rfl⟩ := npInv_ok.mp hm; exact hb.inv

end Meent
