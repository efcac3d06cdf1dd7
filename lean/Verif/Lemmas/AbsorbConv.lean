import Verif.Lemmas.Side
import Verif.Lemmas.DiscreteConv
import Verif.Spec.Sides

/-!
# Convolution matrices of partly absorbing layers (helper lemmas)
-/

open Matrix

namespace Meent

set_option linter.unusedSectionVars false
set_option linter.unusedSimpArgs false
set_option linter.unusedVariables false

section
variable {n : Type} [Fintype n] [DecidableEq n]

/-- The values of the quadratic form, turned by `u`, have nonnegative real part. -/
def WeakSide (u : ℂ) (M : Matrix n n ℂ) : Prop := ∀ v, 0 ≤ (u * beta M v v).re

theorem Side.weak {u : ℂ} {M : Matrix n n ℂ} (h : Side u M) : WeakSide u M := side_re_nonneg h

theorem WeakSide.inv {u : ℂ} {M : Matrix n n ℂ} (h : WeakSide u M) (hu : IsUnit M.det) : WeakSide (star u) M⁻¹ := by
  intro v
  have e : v = M *ᵥ (M⁻¹ *ᵥ v) := by rw [mulVec_mulVec, mul_nonsing_inv _ hu, one_mulVec]
  have : beta M⁻¹ v v = star (beta M (M⁻¹ *ᵥ v) (M⁻¹ *ᵥ v)) := by
    rw [star_beta]
    conv_lhs => rw [e]
    rw [beta_mulVec_left, beta_mulVec_right, Matrix.mul_assoc, nonsing_inv_mul _ hu, Matrix.mul_one]
  rw [this, ← star_mul', Complex.star_def, Complex.conj_re]
  exact h _

theorem WeakSide.submatrix {n' : Type} [Fintype n'] [DecidableEq n'] {u : ℂ} {M : Matrix n n ℂ} (h : WeakSide u M) (e : n' ≃ n) :
    WeakSide u (M.submatrix e e) := by
  intro v
  rw [beta_submatrix]
  exact h _

theorem weakSide_scalar {u z : ℂ} (h : 0 ≤ (u * z).re) : WeakSide u (Matrix.of fun _ _ : Unit => z) := by
  intro v
  rw [beta_expand]
  simp only [Finset.univ_unique, Finset.sum_singleton, of_apply]
  have : u * (star (v default) * z * v default) = (Complex.normSq (v default) : ℂ) * (u * z) := by
    rw [Complex.star_def, Complex.normSq_eq_conj_mul_self]; ring
  rw [this, Complex.re_ofReal_mul]
  exact mul_nonneg (Complex.normSq_nonneg _) h

theorem weakSide_recip {u z : ℂ} (h : 0 ≤ (u * z).re) : 0 ≤ (star u * (1 / z)).re := by
  have : star u * (1 / z) = ((Complex.normSq z)⁻¹ : ℝ) * star (u * z) := by
    rw [one_div, Complex.inv_def, star_mul', Complex.star_def]; push_cast; ring
  rw [this, Complex.re_ofReal_mul, Complex.star_def, Complex.conj_re]
  exact mul_nonneg (inv_nonneg.mpr (Complex.normSq_nonneg _)) h

end

/-- A coefficient functional whose Toeplitz matrices stay in the closed half plane of their blocks, and in the open one
if the blocks in `S` do. -/
structure SideOn {N : ℕ} (L : (Fin N → ℂ) → ℤ → ℂ) (f : ℕ) (S : Fin N → Prop) : Prop where
  weak : ∀ (u : ℂ) (m : Type) [Fintype m] [DecidableEq m] (a : Fin N → Matrix m m ℂ), (∀ x, WeakSide u (a x)) →
    WeakSide u (btoepL L f a)
  strict : ∀ (u : ℂ) (m : Type) [Fintype m] [DecidableEq m] (a : Fin N → Matrix m m ℂ), (∀ x, WeakSide u (a x)) →
    (∀ x, S x → Side u (a x)) → Side u (btoepL L f a)

theorem SideOn.toepL {N f : ℕ} {L : (Fin N → ℂ) → ℤ → ℂ} {S : Fin N → Prop} (hL : SideOn L f S) {u : ℂ} {a : Fin N → ℂ}
    (ha : ∀ x, 0 ≤ (u * a x).re) (hs : ∀ x, S x → 0 < (u * a x).re) : Side u (toepL L f a) := by
  rw [toepL_as_btoepL]
  exact (hL.strict u Unit _ (fun x => weakSide_scalar (ha x)) fun x hx => side_scalar (hs x hx)).submatrix _

theorem SideOn.toepL_weak {N f : ℕ} {L : (Fin N → ℂ) → ℤ → ℂ} {S : Fin N → Prop} (hL : SideOn L f S) {u : ℂ} {a : Fin N → ℂ}
    (ha : ∀ x, 0 ≤ (u * a x).re) : WeakSide u (Meent.toepL L f a) := by
  rw [toepL_as_btoepL]
  exact (hL.weak u Unit _ (fun x => weakSide_scalar (ha x))).submatrix _

/-- Discrete coefficients: a run of as many samples as there are orders is enough. -/
theorem sideOn_dft {N f : ℕ} (k : ℕ) (hk : k + 2 * f < N) :
    SideOn (N := N) Spec.dftCoeff f (fun x => k ≤ x.val ∧ x.val ≤ k + 2 * f) := by
  have hN0 : (0 : ℝ) < N := by exact_mod_cast (by omega : 0 < N)
  constructor
  · intro u m _ _ a ha v
    rw [beta_dft, mul_left_comm, Complex.re_ofReal_mul, Finset.mul_sum, Complex.re_sum]
    exact mul_nonneg (by positivity) (Finset.sum_nonneg fun x _ => ha x _)
  intro u m _ _ a ha hS v hv
  rw [beta_dft, mul_left_comm, Complex.re_ofReal_mul, Finset.mul_sum, Complex.re_sum]
  refine mul_pos (by positivity) ?_
  refine Finset.sum_pos' (fun x _ => ha x _) ?_
  by_contra hcon
  push Not at hcon
  apply hv
  let z : Fin (2 * f + 1) → ℂ := fun x => Complex.exp (-(2 * Real.pi * Complex.I * (((k + x.val : ℕ) / N : ℝ) : ℂ)))
  refine sample_zero (z := z) ?_ ?_
  · intro x y hxy
    have hb : ∀ x : Fin (2 * f + 1), ((k + x.val : ℕ) : ℝ) / N < 1 := fun x => by
      rw [div_lt_one hN0]; exact_mod_cast (by have := x.isLt; omega : k + x.val < N)
    have := exp_point_inj (by positivity) (hb x) (by positivity) (hb y) hxy
    rw [div_left_inj' hN0.ne'] at this
    have : k + x.val = k + y.val := by exact_mod_cast this
    exact Fin.ext (by omega)
  · intro x
    by_contra hne
    have := hcon ⟨k + x.val, by have := x.isLt; omega⟩ (Finset.mem_univ _)
    refine absurd (hS ⟨k + x.val, by have := x.isLt; omega⟩ ⟨by simp, by have := x.isLt; simp; omega⟩ _ hne) (not_lt.mpr ?_)
    simp only [z, ← exp_pow]
    exact this

/-- Continuous coefficients: one interval is enough. -/
theorem sideOn_cfsC {k f : ℕ} [NeZero k] {x : Fin k → ℝ} (ho : Spec.Ordered x) (hp : 0 < x (-1)) (j : Fin k)
    (h0 : 0 ≤ Spec.leftEnd x j) (h1 : Spec.leftEnd x j < x j) (h2 : x j ≤ x (-1)) : SideOn (cfsC x (x (-1))) f (fun i => i = j) := by
  have main : ∀ (u : ℂ) (m : Type) [Fintype m] [DecidableEq m] (a : Fin k → Matrix m m ℂ), (∀ x, WeakSide u (a x)) → ∀ v,
      0 ≤ (u * beta (btoepL (cfsC x (x (-1))) f a) v v).re ∧ (Side u (a j) → v ≠ 0 → 0 < (u * beta (btoepL (cfsC x (x (-1))) f a) v v).re) := by
    intro u m _ _ a ha v
    let φ : Fin k → ℝ → ℝ := fun j t => (u *
        beta (a j) (sample (fun c => Complex.exp (-(2 * Real.pi * Complex.I * ((c.val : ℤ) : ℂ) * ((t / x (-1) : ℝ) : ℂ)))) v)
          (sample (fun c => Complex.exp (-(2 * Real.pi * Complex.I * ((c.val : ℤ) : ℂ) * ((t / x (-1) : ℝ) : ℂ)))) v)).re
    have hcont : ∀ j, Continuous (φ j) := fun j => by
      simp only [φ, beta_sample, ← exp_conj_prod]
      fun_prop
    have hre : ∀ j, (u * ∫ t in (Spec.leftEnd x j)..x j,
        beta (a j) (sample (fun c => Complex.exp (-(2 * Real.pi * Complex.I * ((c.val : ℤ) : ℂ) * ((t / x (-1) : ℝ) : ℂ)))) v)
          (sample (fun c => Complex.exp (-(2 * Real.pi * Complex.I * ((c.val : ℤ) : ℂ) * ((t / x (-1) : ℝ) : ℂ)))) v)).re
        = ∫ t in (Spec.leftEnd x j)..x j, φ j t := by
      intro j
      rw [← intervalIntegral.integral_const_mul]
      have := Complex.reCLM.intervalIntegral_comp_comm (μ := MeasureTheory.volume) (a := Spec.leftEnd x j) (b := x j) (f := fun t => u *
        beta (a j) (sample (fun c => Complex.exp (-(2 * Real.pi * Complex.I * ((c.val : ℤ) : ℂ) * ((t / x (-1) : ℝ) : ℂ)))) v)
          (sample (fun c => Complex.exp (-(2 * Real.pi * Complex.I * ((c.val : ℤ) : ℂ) * ((t / x (-1) : ℝ) : ℂ)))) v)) (by
        apply Continuous.intervalIntegrable
        simp only [beta_sample, ← exp_conj_prod]
        fun_prop)
      exact this.symm
    have hnn : ∀ j, 0 ≤ ∫ t in (Spec.leftEnd x j)..x j, φ j t := fun j =>
      intervalIntegral.integral_nonneg (ho j) fun t _ => ha j _
    rw [beta_cfs hp.ne', mul_left_comm, Complex.re_ofReal_mul, Finset.mul_sum, Complex.re_sum]
    simp only [hre]
    refine ⟨mul_nonneg (by positivity) (Finset.sum_nonneg fun i _ => hnn i), fun hj hv => mul_pos (by positivity) ?_⟩
    refine Finset.sum_pos' (fun i _ => hnn i) ⟨j, Finset.mem_univ _,
      intervalIntegral.integral_pos h1 (hcont j).continuousOn (fun t _ => ha j _) ?_⟩
    by_contra hcon
    push Not at hcon
    apply hv
    let t : Fin (2 * f + 1) → ℝ := fun i => Spec.leftEnd x j + (x j - Spec.leftEnd x j) * (i.val / (2 * f + 1 : ℝ))
    have hf : (0 : ℝ) < 2 * f + 1 := by positivity
    have hfrac : ∀ i : Fin (2 * f + 1), 0 ≤ (i.val : ℝ) / (2 * f + 1) ∧ (i.val : ℝ) / (2 * f + 1) < 1 := fun i =>
      ⟨by positivity, by rw [div_lt_one hf]; exact_mod_cast i.isLt⟩
    have hd : 0 < x j - Spec.leftEnd x j := by linarith
    have hlo : ∀ i, Spec.leftEnd x j ≤ t i := fun i => by
      have := mul_nonneg hd.le (hfrac i).1; simp only [t]; linarith
    have hhi : ∀ i, t i < x j := fun i => by
      have := mul_lt_mul_of_pos_left (hfrac i).2 hd; simp only [t]; linarith
    let z : Fin (2 * f + 1) → ℂ := fun i => Complex.exp (-(2 * Real.pi * Complex.I * ((t i / x (-1) : ℝ) : ℂ)))
    refine sample_zero (z := z) ?_ ?_
    · intro i i' hii
      have hb : ∀ i, 0 ≤ t i / x (-1) ∧ t i / x (-1) < 1 := fun i =>
        ⟨div_nonneg (h0.trans (hlo i)) hp.le, by rw [div_lt_one hp]; exact lt_of_lt_of_le (hhi i) h2⟩
      have := exp_point_inj (hb i).1 (hb i).2 (hb i').1 (hb i').2 hii
      rw [div_left_inj' hp.ne'] at this
      simp only [t, add_right_inj, mul_eq_mul_left_iff, hd.ne', or_false, div_left_inj' hf.ne'] at this
      exact Fin.ext (by exact_mod_cast this)
    · intro i
      by_contra hne
      refine absurd (hj _ hne) (not_lt.mpr ?_)
      simp only [z, ← exp_pow]
      exact hcon (t i) ⟨hlo i, (hhi i).le⟩
  exact ⟨fun u m _ _ a ha v => (main u m a ha v).1, fun u m _ _ a ha hS v hv => (main u m a ha v).2 (hS j rfl) hv⟩

theorem sideOn_pixL (N f : ℕ) [NeZero N] (j : Fin N) : SideOn (pixL N) f (fun i => i = j) := by
  have hN : (0 : ℝ) < N := by exact_mod_cast NeZero.pos N
  refine sideOn_cfsC (f := f) (pixEdge_ordered N) (by rw [pixEdge_last]; norm_num) j ?_ ?_ ?_
  · rw [pixEdge_left]; positivity
  · rw [pixEdge_left]; unfold pixEdge
    refine mul_lt_mul_of_pos_left ?_ (by positivity)
    exact_mod_cast Nat.lt_succ_self _
  · rw [pixEdge_last]; unfold pixEdge
    rw [one_div_mul_eq_div, div_le_one hN]
    exact_mod_cast j.isLt

/-- Convolution matrices of a cell that has a block of pixels in the open half plane. -/
theorem FromCell.sideOn {fx fy Nx Ny : ℕ} {Lx : (Fin Nx → ℂ) → ℤ → ℂ} {Ly : (Fin Ny → ℂ) → ℤ → ℂ} {Sx : Fin Nx → Prop}
    {Sy : Fin Ny → Prop} (hLx : SideOn Lx fx Sx) (hLy : SideOn Ly fy Sy) {u : ℂ} {cell : Fin Nx → Fin Ny → ℂ} {c : Conv (FlatIdx fx fy)}
    {epz : Matrix (FlatIdx fx fy) (FlatIdx fx fy) ℂ} (h : FromCell Lx Ly cell c epz)
    (hw : ∀ i j, 0 ≤ (u * cell i j).re) (hs : ∀ i j, Sx i → Sy j → 0 < (u * cell i j).re) : SideConv u c := by
  have hrw : ∀ x y, 0 ≤ (star u * (1 / cell x y)).re := fun x y => weakSide_recip (hw x y)
  have hrs : ∀ x y, Sx x → Sy y → 0 < (star u * (1 / cell x y)).re := fun x y hx hy => side_recip (hs x y hx hy)
  constructor
  · have hz := h.hx
    unfold genConv at hz
    simp only [Except.bind_ok, invRuleY_ok, invIf_ok] at hz
    obtain ⟨c', hc, a, ha, e⟩ := hz
    rcases hc with ⟨-, rfl⟩ | ⟨h, -⟩
    · rcases ha with ⟨h, -⟩ | ⟨-, hu, rfl⟩
      · simp at h
      · simp only [Bool.false_eq_true, if_false, npInv_ok] at e
        obtain ⟨hd, e⟩ := e
        rw [e]
        have := ((hLx.strict (star u) _ _ (fun x => (hLy.toepL_weak (hw x)).inv (hu x)) fun x hx =>
          (hLy.toepL (hw x) fun y hy => hs x y hx hy).inv).submatrix finProdFinEquiv.symm).inv
        rwa [star_star] at this
    · simp at h
  · have hz := h.hy
    unfold genConv at hz
    simp only [Except.bind_ok, invRuleY_ok, invIf_ok] at hz
    obtain ⟨c', hc, a, ha, e⟩ := hz
    rcases hc with ⟨h, -⟩ | ⟨-, hne, rfl⟩
    · simp at h
    · rcases ha with ⟨h, -⟩ | ⟨-, hu, rfl⟩
      · simp at h
      · simp only [if_true, Except.ok.injEq] at e
        rw [← e]
        refine (hLx.strict u _ _ (fun x => ?_) fun x hx => ?_).submatrix finProdFinEquiv.symm
        · have := (hLy.toepL_weak (hrw x)).inv (hu x)
          rwa [star_star] at this
        · have := (hLy.toepL (hrw x) fun y hy => hrs x y hx hy).inv
          rwa [star_star] at this
  · have hz := h.hz
    unfold genConv at hz
    simp only [Except.bind_ok, invRuleY_ok, invIf_ok] at hz
    obtain ⟨c', hc, a, ha, e⟩ := hz
    rcases hc with ⟨-, rfl⟩ | ⟨h, -⟩
    · rcases ha with ⟨-, rfl⟩ | ⟨h, -⟩
      · simp only [if_true, Except.ok.injEq] at e
        rw [h.hi]
        refine Side.inv ?_
        rw [← e]
        exact (hLx.strict u _ _ (fun x => hLy.toepL_weak (hw x)) fun x hx =>
          hLy.toepL (hw x) fun y hy => hs x y hx hy).submatrix finProdFinEquiv.symm
      · simp at h
    · simp at h

/-- The enhanced discrete transform repeats each pixel often enough. -/
theorem enlarge_enhanced (l : Raster) (fx fy : ℕ) (hy : 0 < l.ny) (hx : 0 < l.nx) (i : Fin l.ny) (j : Fin l.nx) :
    ∃ ky kx, ky + 2 * fy < (enlarge l fx fy true).ny ∧ kx + 2 * fx < (enlarge l fx fy true).nx ∧
      ∀ a b, ky ≤ a.val → a.val ≤ ky + 2 * fy → kx ≤ b.val → b.val ≤ kx + 2 * fx → (enlarge l fx fy true).val a b = l.val i j := by
  have rows : ∀ (l1 : Raster), l1 = (if l.ny < (4 * fy + 1) * l.ny then l.repeatRows ((4 * fy + 1) * l.ny / l.ny + 1) else l) →
      ∃ ky, ky + 2 * fy < l1.ny ∧ ∃ hnx : l1.nx = l.nx, ∀ a b, ky ≤ a.val → a.val ≤ ky + 2 * fy → l1.val a b = l.val i (Fin.cast hnx b) := by
    rintro l1 rfl
    by_cases hf : fy = 0
    · subst hf
      rw [if_neg (by omega)]
      exact ⟨i.val, by simp, rfl, fun a b h1 h2 => by
        have : a = i := Fin.ext (by omega)
        rw [this]; rfl⟩
    · rw [if_pos (by nlinarith [Nat.pos_of_ne_zero hf]), Nat.mul_div_cancel _ hy]
      have hi := i.isLt
      refine ⟨i.val * (4 * fy + 1 + 1), ?_, rfl, ?_⟩
      · show _ < l.ny * (4 * fy + 1 + 1)
        calc i.val * (4 * fy + 1 + 1) + 2 * fy < (i.val + 1) * (4 * fy + 1 + 1) := by rw [Nat.add_mul]; omega
          _ ≤ l.ny * (4 * fy + 1 + 1) := Nat.mul_le_mul_right _ hi
      · intro a b h1 h2
        have : a.val / (4 * fy + 1 + 1) = i.val := by
          rw [Nat.div_eq_iff (by omega)]
          exact ⟨h1, by omega⟩
        simp only [Raster.repeatRows]
        congr 1
        exact Fin.ext this
  obtain ⟨l1, hl1⟩ : ∃ l1, l1 = (if l.ny < (4 * fy + 1) * l.ny then l.repeatRows ((4 * fy + 1) * l.ny / l.ny + 1) else l) := ⟨_, rfl⟩
  obtain ⟨ky, h1, hnx, h2⟩ := rows l1 hl1
  have hE : enlarge l fx fy true = (if l1.nx < (4 * fx + 1) * l.nx then l1.repeatCols ((4 * fx + 1) * l.nx / l1.nx + 1) else l1) := by
    rw [hl1]; rfl
  generalize enlarge l fx fy true = L at hE
  subst hE
  have hj := j.isLt
  by_cases hf : fx = 0
  · subst hf
    rw [if_neg (by omega)]
    refine ⟨ky, j.val, h1, by omega, fun a b a1 a2 b1 b2 => ?_⟩
    rw [h2 a b a1 a2]
    congr 1
    exact Fin.ext (by simp; omega)
  · rw [if_pos (by rw [hnx]; nlinarith [Nat.pos_of_ne_zero hf]), hnx, Nat.mul_div_cancel _ hx]
    refine ⟨ky, j.val * (4 * fx + 1 + 1), h1, ?_, ?_⟩
    · show _ < l1.nx * (4 * fx + 1 + 1)
      rw [hnx]
      calc j.val * (4 * fx + 1 + 1) + 2 * fx < (j.val + 1) * (4 * fx + 1 + 1) := by rw [Nat.add_mul]; omega
        _ ≤ l.nx * (4 * fx + 1 + 1) := Nat.mul_le_mul_right _ hj
    · intro a b a1 a2 b1 b2
      have : b.val / (4 * fx + 1 + 1) = j.val := by
        rw [Nat.div_eq_iff (by omega)]
        exact ⟨b1, by omega⟩
      simp only [Raster.repeatCols]
      rw [h2 _ _ a1 a2]
      congr 1
      exact Fin.ext this

theorem ordinary_re {n : ℂ} (h : Spec.OrdinaryMedium n) : 0 ≤ (Complex.I * n ^ 2).re := by
  rw [Complex.I_mul_re]
  have : (n ^ 2).im = 2 * (n.re * n.im) := by rw [sq, Complex.mul_im]; ring
  rw [this]
  nlinarith [mul_nonneg h.1.le (neg_nonneg.mpr h.2)]

theorem absorbing_re {n : ℂ} (h : Spec.AbsorbingMedium n) : 0 < (Complex.I * n ^ 2).re := by
  rw [Complex.I_mul_re]
  have : (n ^ 2).im = 2 * (n.re * n.im) := by rw [sq, Complex.mul_im]; ring
  rw [this]
  nlinarith [mul_pos h.1 (neg_pos.mpr h.2)]

/-- The convolution matrices of raster layers that absorb somewhere. -/
theorem convMats_absorbing {la : LinAlg} {s : Settings} (hp : s.p.use_pinv = false)
    (hf : s.fourier_type = 1 ∨ s.fourier_type = 0 ∧ s.enhanced_dfs = true)
    {u : Ucell} (hu : s.ucell = .raster u) (h : ∀ l ∈ u.layers, (∀ i j, Spec.OrdinaryMedium (l i j)) ∧ ∃ i j, Spec.AbsorbingMedium (l i j))
    {cs : List (Conv (FlatIdx s.p.fto.1 s.p.fto.2))} (hcs : convMats la s = .ok cs) : ∀ c ∈ cs, SideConv Complex.I c := by
  intro c hc
  unfold convMats at hcs
  rw [hu, hp] at hcs
  have hr : ∀ l ∈ u.rasters, (∀ i j, 0 ≤ (Complex.I * (l.val i j) ^ 2).re) ∧ ∃ i j, 0 < (Complex.I * (l.val i j) ^ 2).re := by
    intro l hl
    obtain ⟨l', hl', rfl⟩ := List.mem_map.mp hl
    obtain ⟨h1, i, j, h2⟩ := h l' hl'
    exact ⟨fun i j => ordinary_re (h1 i j), i, j, absorbing_re h2⟩
  rcases hf with hf | ⟨hf, he⟩
  · simp only [hf, one_ne_zero, if_false, if_true] at hcs
    obtain ⟨l, hl, e⟩ := mapM_mem hcs hc
    obtain ⟨h1, i, j, h2⟩ := hr l hl
    haveI : NeZero l.ny := ⟨by have := i.isLt; omega⟩
    haveI : NeZero l.nx := ⟨by have := j.isLt; omega⟩
    obtain ⟨epz, hc⟩ := convRaster_fromCell.mp e
    refine hc.sideOn (sideOn_pixL _ _ j) (sideOn_pixL _ _ i.rev) (fun a b => h1 _ _) ?_
    rintro a b rfl rfl
    rw [Fin.rev_rev]; exact h2
  · simp only [hf, if_true, he] at hcs
    obtain ⟨l, hl, e⟩ := mapM_mem hcs hc
    obtain ⟨h1, i, j, h2⟩ := hr l hl
    obtain ⟨-, -, epz, hc⟩ := convDiscrete_fromCell.mp e
    obtain ⟨ky, kx, b1, b2, hv⟩ := enlarge_enhanced l s.p.fto.1 s.p.fto.2 (by have := i.isLt; omega) (by have := j.isLt; omega) i j
    refine hc.sideOn (sideOn_dft kx b2) (sideOn_dft ky b1) (fun a b => ?_) ?_
    · obtain ⟨i', j', e'⟩ := enlarge_val l s.p.fto.1 s.p.fto.2 true b a
      simp only [Raster.sq, e']
      exact h1 _ _
    · intro a b ha hb
      simp only [Raster.sq]
      rw [hv b a hb.1 hb.2 ha.1 ha.2]
      exact h2

/-- The same for vector structures. -/
theorem convMats_absorbing_vector {la : LinAlg} {s : Settings} (hp : s.p.use_pinv = false) {ls : List VLayer}
    (hu : s.ucell = .vector ls) {cells : List VCell} (hcells : modeling_vector_instruction s.p.period ls = .ok cells)
    (hpx : 0 < s.p.period.1) (hpy : 0 < s.p.period.2) (hg : Spec.GoodGeometry s.p.period ls)
    (h : ∀ vc ∈ cells, (∀ i j, Spec.OrdinaryMedium (vc.val i j)) ∧ ∃ i j, Spec.AbsorbingMedium (vc.val i j))
    {cs : List (Conv (FlatIdx s.p.fto.1 s.p.fto.2))} (hcs : convMats la s = .ok cs) : ∀ c ∈ cs, SideConv Complex.I c := by
  intro c hc
  unfold convMats at hcs
  rw [hu, hp] at hcs
  simp only [Except.bind_ok] at hcs
  obtain ⟨cells', hcells', hcs⟩ := hcs
  rw [hcells] at hcells'
  cases hcells'
  unfold to_conv_mat_vector at hcs
  obtain ⟨vc, hvc, e⟩ := mapM_mem hcs hc
  obtain ⟨h1, i, j, h2⟩ := h vc hvc
  obtain ⟨epz, hf⟩ := convContinuous_fromCell.mp e
  unfold modeling_vector_instruction at hcells
  simp only [Except.bind_ok] at hcells
  obtain ⟨os, hos, hcells⟩ := hcells
  obtain ⟨bo, hbo, hd⟩ := mapM_mem hcells hvc
  obtain ⟨l, hl, hlo⟩ := mapM_mem hos hbo
  simp only [Except.bind_ok] at hlo
  obtain ⟨o, ho, e2⟩ := hlo
  simp only [Except.ok.injEq] at e2
  subst e2
  obtain ⟨hin, hnr, hnc⟩ := hg l hl o ho
  obtain ⟨mx, my, ex, ey⟩ := C36_grid_partial s.p.period l.base o vc hd hpx hpy hin hnr hnc
  have px : ∀ j, 0 < vc.x j := by
    intro j
    rcases (ex (vc.x j)).mp ⟨j, rfl⟩ with h | h
    · rw [h]; exact hpx
    · exact h.1
  have py : ∀ j, 0 < vc.y j := by
    intro j
    rcases (ey (vc.y j)).mp ⟨j, rfl⟩ with h | h
    · rw [h]; exact hpy
    · exact h.1
  haveI := vc.hx
  haveI := vc.hy
  have fin : ∀ {k : ℕ} [NeZero k] (x : Fin k → ℝ) (hx : StrictMono x) (h0 : ∀ j, 0 < x j) (j : Fin k),
      0 ≤ Spec.leftEnd x j ∧ Spec.leftEnd x j < x j ∧ x j ≤ x (-1) := by
    intro k _ x hx h0 j
    obtain ⟨k', rfl⟩ : ∃ k', k = k' + 1 := ⟨k - 1, by have := NeZero.pos k; omega⟩
    refine ⟨?_, ?_, hx.monotone ?_⟩
    · unfold Spec.leftEnd
      split
      · exact le_rfl
      · exact (h0 _).le
    · unfold Spec.leftEnd
      split
      · exact h0 _
      · rename_i hj
        exact hx (Fin.sub_one_lt_iff.mpr (Fin.pos_of_ne_zero hj))
    · have : (-1 : Fin (k' + 1)) = Fin.last k' := by
        exact Fin.neg_one_eq_last'
      rw [this]
      exact Fin.le_last j
  obtain ⟨x0, x1, x2⟩ := fin _ mx px j
  obtain ⟨y0, y1, y2⟩ := fin _ my py i
  refine hf.sideOn (sideOn_cfsC (ordered_of_strictMono mx px) (px _) j x0 x1 x2) (sideOn_cfsC (ordered_of_strictMono my py) (py _) i y0 y1 y2)
    (fun a b => ordinary_re (h1 b a)) ?_
  rintro a b rfl rfl
  exact absorbing_re h2

end Meent
