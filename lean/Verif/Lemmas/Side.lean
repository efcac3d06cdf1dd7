import Verif.Lemmas.Passive1D
import Mathlib.LinearAlgebra.Vandermonde
import Mathlib.LinearAlgebra.Matrix.ToLinearEquiv
import Mathlib.Analysis.SpecialFunctions.Integrals.Basic

/-!
# Forms with values in a half plane (helper lemmas)
-/

open Matrix

namespace Meent

set_option linter.unusedSectionVars false
set_option linter.unusedSimpArgs false
set_option linter.unusedVariables false

section
variable {n : Type} [Fintype n] [DecidableEq n]

/-- The values of the quadratic form, turned by `u`, have positive real part. -/
def Side (u : ℂ) (M : Matrix n n ℂ) : Prop := ∀ v, v ≠ 0 → 0 < (u * beta M v v).re

theorem Side.isUnit {u : ℂ} {M : Matrix n n ℂ} (h : Side u M) : IsUnit M.det := by
  rw [isUnit_iff_ne_zero]
  intro h0
  obtain ⟨v, hv, e⟩ := Matrix.exists_mulVec_eq_zero_iff.mpr h0
  have := h v hv
  unfold beta at this
  rw [e] at this
  simp at this

theorem Side.inv {u : ℂ} {M : Matrix n n ℂ} (h : Side u M) : Side (star u) M⁻¹ := by
  have hu := h.isUnit
  intro v hv
  have e : v = M *ᵥ (M⁻¹ *ᵥ v) := by rw [mulVec_mulVec, mul_nonsing_inv _ hu, one_mulVec]
  have hw : M⁻¹ *ᵥ v ≠ 0 := by intro h0; rw [h0, mulVec_zero] at e; exact hv e
  have : beta M⁻¹ v v = star (beta M (M⁻¹ *ᵥ v) (M⁻¹ *ᵥ v)) := by
    rw [star_beta]
    conv_lhs => rw [e]
    rw [beta_mulVec_left, beta_mulVec_right, Matrix.mul_assoc, nonsing_inv_mul _ hu, Matrix.mul_one]
  rw [this, ← star_mul', Complex.star_def, Complex.conj_re]
  exact h _ hw

theorem Side.submatrix {n' : Type} [Fintype n'] [DecidableEq n'] {u : ℂ} {M : Matrix n n ℂ} (h : Side u M) (e : n' ≃ n) :
    Side u (M.submatrix e e) := by
  intro v hv
  rw [beta_submatrix]
  refine h _ fun h0 => hv ?_
  funext j
  have := congrFun h0 (e j)
  simpa using this

theorem Side.lossy {M : Matrix n n ℂ} (h : Side Complex.I M) {v : n → ℂ} (hv : v ≠ 0) : (beta M v v).im < 0 := by
  have := h v hv
  simp only [Complex.I_mul_re] at this
  linarith

theorem Side.gainy {M : Matrix n n ℂ} (h : Side (star Complex.I) M) {v : n → ℂ} (hv : v ≠ 0) : 0 < (beta M v v).im := by
  have := h v hv
  rw [Complex.star_def, Complex.conj_I, neg_mul, Complex.neg_re, Complex.I_mul_re] at this
  linarith

theorem side_scalar {u z : ℂ} (h : 0 < (u * z).re) : Side u (Matrix.of fun _ _ : Unit => z) := by
  intro v hv
  rw [beta_expand]
  simp only [Finset.univ_unique, Finset.sum_singleton, of_apply]
  have hv0 : v default ≠ 0 := fun h0 => hv (funext fun i => by rw [Subsingleton.elim i default]; exact h0)
  have : u * (star (v default) * z * v default) = (Complex.normSq (v default) : ℂ) * (u * z) := by
    rw [Complex.star_def, Complex.normSq_eq_conj_mul_self]; ring
  rw [this, Complex.re_ofReal_mul]
  exact mul_pos (Complex.normSq_pos.mpr hv0) h

theorem side_recip {u z : ℂ} (h : 0 < (u * z).re) : 0 < (star u * (1 / z)).re := by
  have hz : z ≠ 0 := by rintro rfl; simp at h
  have : star u * (1 / z) = ((Complex.normSq z)⁻¹ : ℝ) * star (u * z) := by
    rw [one_div, Complex.inv_def, star_mul', Complex.star_def]; push_cast; ring
  rw [this, Complex.re_ofReal_mul, Complex.star_def, Complex.conj_re]
  exact mul_pos (inv_pos.mpr (Complex.normSq_pos.mpr hz)) h

end

/-- A coefficient functional whose Toeplitz matrices stay in the half plane of their blocks. -/
def SideFun {N : ℕ} (L : (Fin N → ℂ) → ℤ → ℂ) (f : ℕ) : Prop :=
  ∀ (u : ℂ) (m : Type) [Fintype m] [DecidableEq m] (a : Fin N → Matrix m m ℂ), (∀ x, Side u (a x)) → Side u (btoepL L f a)

theorem SideFun.toepL {N f : ℕ} {L : (Fin N → ℂ) → ℤ → ℂ} (hL : SideFun L f) {u : ℂ} {a : Fin N → ℂ}
    (ha : ∀ x, 0 < (u * a x).re) : Side u (toepL L f a) := by
  rw [toepL_as_btoepL]
  exact (hL u Unit _ fun x => side_scalar (ha x)).submatrix _

/-- A trigonometric polynomial with zeros at as many points as it has coefficients is zero. -/
theorem sample_zero {m : Type} {k : ℕ} {v : m × Fin k → ℂ} {z : Fin k → ℂ} (hz : Function.Injective z)
    (h : ∀ x, sample (fun c => z x ^ (c : ℕ)) v = 0) : v = 0 := by
  funext ⟨i, c⟩
  have := Matrix.eq_zero_of_forall_index_sum_pow_mul_eq_zero (v := fun c => v (i, c)) hz (fun x => congrFun (h x) i)
  exact congrFun this c

theorem side_re_nonneg {n : Type} [Fintype n] [DecidableEq n] {u : ℂ} {M : Matrix n n ℂ} (h : Side u M) (v : n → ℂ) :
    0 ≤ (u * beta M v v).re := by
  by_cases hv : v = 0
  · rw [hv]; simp [beta]
  · exact (h v hv).le

theorem exp_pow (c : ℕ) (t : ℝ) : Complex.exp (-(2 * Real.pi * Complex.I * ((c : ℤ) : ℂ) * (t : ℂ)))
    = Complex.exp (-(2 * Real.pi * Complex.I * (t : ℂ))) ^ c := by
  rw [← Complex.exp_nat_mul]; congr 1; push_cast; ring

theorem exp_point_inj {s t : ℝ} (hs : 0 ≤ s) (hs1 : s < 1) (ht : 0 ≤ t) (ht1 : t < 1)
    (h : Complex.exp (-(2 * Real.pi * Complex.I * (s : ℂ))) = Complex.exp (-(2 * Real.pi * Complex.I * (t : ℂ)))) : s = t := by
  obtain ⟨k, hk⟩ := Complex.exp_eq_exp_iff_exists_int.mp h
  have hpi : (2 * Real.pi * Complex.I : ℂ) ≠ 0 := Complex.two_pi_I_ne_zero
  have e : (t : ℂ) - s = k := by
    apply mul_left_cancel₀ hpi
    linear_combination hk
  have e' : t - s = (k : ℝ) := by exact_mod_cast e
  have h1 : (k : ℝ) < 1 := by linarith
  have h2 : (-1 : ℝ) < k := by linarith
  have h3 : k < 1 := by exact_mod_cast h1
  have h4 : -1 < k := by exact_mod_cast h2
  have : k = 0 := by omega
  rw [this] at e'
  push_cast at e'
  linarith

theorem sideFun_dft {N f : ℕ} (hN : 2 * f < N) : SideFun (N := N) Spec.dftCoeff f := by
  intro u m _ _ a ha v hv
  have hN0 : (0 : ℝ) < N := by exact_mod_cast (by omega : 0 < N)
  rw [beta_dft, mul_left_comm, Complex.re_ofReal_mul, Finset.mul_sum, Complex.re_sum]
  refine mul_pos (by positivity) ?_
  refine Finset.sum_pos' (fun x _ => side_re_nonneg (ha x) _) ?_
  by_contra hcon
  push Not at hcon
  apply hv
  let z : Fin (2 * f + 1) → ℂ := fun x => Complex.exp (-(2 * Real.pi * Complex.I * ((x.val / N : ℝ) : ℂ)))
  refine sample_zero (z := z) ?_ ?_
  · intro x y hxy
    have hb : ∀ x : Fin (2 * f + 1), (x.val : ℝ) / N < 1 := fun x => by
      rw [div_lt_one hN0]; exact_mod_cast (by have := x.isLt; omega : x.val < N)
    have := exp_point_inj (by positivity) (hb x) (by positivity) (hb y) hxy
    rw [div_left_inj' hN0.ne'] at this
    exact Fin.ext (by exact_mod_cast this)
  · intro x
    by_contra hne
    have := hcon ⟨x.val, by have := x.isLt; omega⟩ (Finset.mem_univ _)
    refine absurd (ha ⟨x.val, by have := x.isLt; omega⟩ _ hne) (not_lt.mpr ?_)
    simp only [z, ← exp_pow]
    exact this

theorem sideFun_cfsC {k f : ℕ} [NeZero k] {x : Fin k → ℝ} (ho : Spec.Ordered x) (hp : 0 < x (-1))
    (hs : ∃ j, 0 ≤ Spec.leftEnd x j ∧ Spec.leftEnd x j < x j ∧ x j ≤ x (-1)) : SideFun (cfsC x (x (-1))) f := by
  intro u m _ _ a ha v hv
  let φ : Fin k → ℝ → ℝ := fun j t => (u *
      beta (a j) (sample (fun c => Complex.exp (-(2 * Real.pi * Complex.I * ((c.val : ℤ) : ℂ) * ((t / x (-1) : ℝ) : ℂ)))) v)
        (sample (fun c => Complex.exp (-(2 * Real.pi * Complex.I * ((c.val : ℤ) : ℂ) * ((t / x (-1) : ℝ) : ℂ)))) v)).re
  have hcont : ∀ j, Continuous (φ j) := fun j => by
    simp only [φ, beta_sample, ← exp_conj_prod]
    fun_prop
  have hre : ∀ j, (u * ∫ t in (Spec.leftEnd x j)..x j,
      beta (a j) (sample (fun c => Complex.exp (-(2 * Real.pi * Complex.I * ((c.val : ℤ) : ℂ) * ((t / x (-1) : ℝ) : ℂ)))) v)
        (sample (fun c => Complex.exp (-(2 * Real.pi * Complex.I * ((c.val : ℤ) : ℂ) * ((t / x (-1) : ℝ) : ℂ)))) v)).re
      = ∫ t in (Spec.leftEnd x j)..x j, φ j t := by
    intro j
    rw [← intervalIntegral.integral_const_mul]
    have := Complex.reCLM.intervalIntegral_comp_comm (μ := MeasureTheory.volume) (a := Spec.leftEnd x j) (b := x j) (f := fun t => u *
      beta (a j) (sample (fun c => Complex.exp (-(2 * Real.pi * Complex.I * ((c.val : ℤ) : ℂ) * ((t / x (-1) : ℝ) : ℂ)))) v)
        (sample (fun c => Complex.exp (-(2 * Real.pi * Complex.I * ((c.val : ℤ) : ℂ) * ((t / x (-1) : ℝ) : ℂ)))) v)) (by
      apply Continuous.intervalIntegrable
      simp only [beta_sample, ← exp_conj_prod]
      fun_prop)
    exact this.symm
  rw [beta_cfs hp.ne', mul_left_comm, Complex.re_ofReal_mul, Finset.mul_sum, Complex.re_sum]
  refine mul_pos (by positivity) ?_
  simp only [hre]
  refine Finset.sum_pos' (fun j _ => intervalIntegral.integral_nonneg (ho j) fun t _ => side_re_nonneg (ha j) _) ?_
  obtain ⟨j, h0, h1, h2⟩ := hs
  refine ⟨j, Finset.mem_univ _, intervalIntegral.integral_pos h1 (hcont j).continuousOn (fun t _ => side_re_nonneg (ha j) _) ?_⟩
  by_contra hcon
  push Not at hcon
  apply hv
  let t : Fin (2 * f + 1) → ℝ := fun i => Spec.leftEnd x j + (x j - Spec.leftEnd x j) * (i.val / (2 * f + 1 : ℝ))
  have hf : (0 : ℝ) < 2 * f + 1 := by positivity
  have hfrac : ∀ i : Fin (2 * f + 1), 0 ≤ (i.val : ℝ) / (2 * f + 1) ∧ (i.val : ℝ) / (2 * f + 1) < 1 := fun i =>
    ⟨by positivity, by rw [div_lt_one hf]; exact_mod_cast i.isLt⟩
  have hd : 0 < x j - Spec.leftEnd x j := by linarith
  have hlo : ∀ i, Spec.leftEnd x j ≤ t i := fun i => by
    have := mul_nonneg hd.le (hfrac i).1; simp only [t]; linarith
  have hhi : ∀ i, t i < x j := fun i => by
    have := mul_lt_mul_of_pos_left (hfrac i).2 hd; simp only [t]; linarith
  let z : Fin (2 * f + 1) → ℂ := fun i => Complex.exp (-(2 * Real.pi * Complex.I * ((t i / x (-1) : ℝ) : ℂ)))
  refine sample_zero (z := z) ?_ ?_
  · intro i i' hii
    have hb : ∀ i, 0 ≤ t i / x (-1) ∧ t i / x (-1) < 1 := fun i =>
      ⟨div_nonneg (h0.trans (hlo i)) hp.le, by rw [div_lt_one hp]; exact lt_of_lt_of_le (hhi i) h2⟩
    have := exp_point_inj (hb i).1 (hb i).2 (hb i').1 (hb i').2 hii
    rw [div_left_inj' hp.ne'] at this
    simp only [t, add_right_inj, mul_eq_mul_left_iff, hd.ne', or_false, div_left_inj' hf.ne'] at this
    exact Fin.ext (by exact_mod_cast this)
  · intro i
    by_contra hne
    refine absurd (ha j _ hne) (not_lt.mpr ?_)
    simp only [z, ← exp_pow]
    exact hcon (t i) ⟨hlo i, (hhi i).le⟩

theorem sideFun_pixL (N f : ℕ) [NeZero N] : SideFun (pixL N) f := by
  have hN : (0 : ℝ) < N := by exact_mod_cast NeZero.pos N
  refine sideFun_cfsC (f := f) (pixEdge_ordered N) (by rw [pixEdge_last]; norm_num) ⟨0, ?_, ?_, ?_⟩
  · rw [pixEdge_left]; positivity
  · rw [pixEdge_left]; unfold pixEdge; simpa using NeZero.pos N
  · rw [pixEdge_last]; unfold pixEdge
    simpa using inv_le_one_of_one_le₀ (by exact_mod_cast NeZero.pos N : (1 : ℝ) ≤ N)

/-! ### Convolution matrices -/

/-- Convolution matrices in a half plane. -/
structure SideConv {m : Type} [Fintype m] [DecidableEq m] (u : ℂ) (c : Conv m) : Prop where
  x : Side u c.epx
  y : Side u c.epy
  z : Side (star u) c.epzi

theorem fromCell_side {fx fy Nx Ny : ℕ} {Lx : (Fin Nx → ℂ) → ℤ → ℂ} {Ly : (Fin Ny → ℂ) → ℤ → ℂ} (hLx : SideFun Lx fx)
    (hLy : SideFun Ly fy) {u : ℂ} {cell : Fin Nx → Fin Ny → ℂ} (hc : ∀ i j, 0 < (u * cell i j).re) :
    ∃ (c : Conv (FlatIdx fx fy)) (epz : Matrix (FlatIdx fx fy) (FlatIdx fx fy) ℂ), FromCell Lx Ly cell c epz ∧ SideConv u c := by
  have hne : ∀ x y, cell x y ≠ 0 := fun x y h0 => by have := hc x y; rw [h0] at this; simp at this
  have hr : ∀ x y, 0 < (star u * (1 / cell x y)).re := fun x y => side_recip (hc x y)
  have hz : Side u (flatten4 (btoepL Lx fx fun x => toepL Ly fy (cell x))) :=
    (hLx u _ _ fun x => hLy.toepL (hc x)).submatrix finProdFinEquiv.symm
  have hy1 : ∀ x, Side (star u) (toepL Ly fy (fun y => 1 / cell x y)) := fun x => hLy.toepL (hr x)
  have hy : Side u (flatten4 (btoepL Lx fx fun x => (toepL Ly fy (fun y => 1 / cell x y))⁻¹)) := by
    refine (hLx u _ _ fun x => ?_).submatrix finProdFinEquiv.symm
    have := (hy1 x).inv
    rwa [star_star] at this
  have hx1 : ∀ x, Side u (toepL Ly fy (cell x)) := fun x => hLy.toepL (hc x)
  have hx : Side (star u) (flatten4 (btoepL Lx fx fun x => (toepL Ly fy (cell x))⁻¹)) :=
    (hLx (star u) _ _ fun x => (hx1 x).inv).submatrix finProdFinEquiv.symm
  refine ⟨⟨(flatten4 (btoepL Lx fx fun x => (toepL Ly fy (cell x))⁻¹))⁻¹,
    flatten4 (btoepL Lx fx fun x => (toepL Ly fy (fun y => 1 / cell x y))⁻¹),
    (flatten4 (btoepL Lx fx fun x => toepL Ly fy (cell x)))⁻¹⟩, _, ⟨?_, ?_, ?_, hz.isUnit, rfl⟩, ⟨?_, hy, hz.inv⟩⟩
  · unfold genConv
    refine Except.bind_ok.mpr ⟨cell, invRuleY_ok.mpr (.inl ⟨rfl, rfl⟩), Except.bind_ok.mpr ⟨_, invIf_ok.mpr (.inl ⟨rfl, rfl⟩), rfl⟩⟩
  · unfold genConv
    refine Except.bind_ok.mpr ⟨_, invRuleY_ok.mpr (.inr ⟨rfl, hne, rfl⟩), Except.bind_ok.mpr
      ⟨_, invIf_ok.mpr (.inr ⟨rfl, fun x => (hy1 x).isUnit, rfl⟩), rfl⟩⟩
  · unfold genConv
    refine Except.bind_ok.mpr ⟨cell, invRuleY_ok.mpr (.inl ⟨rfl, rfl⟩), Except.bind_ok.mpr
      ⟨_, invIf_ok.mpr (.inr ⟨rfl, fun x => (hx1 x).isUnit, rfl⟩), ?_⟩⟩
    simp only [Bool.false_eq_true, if_false]
    exact npInv_ok.mpr ⟨hx.isUnit, rfl⟩
  · have := hx.inv
    rwa [star_star] at this

theorem mapM_all_ok {α β : Type} {f : α → Res β} {P : β → Prop} : ∀ {l : List α}, (∀ a ∈ l, ∃ b, f a = .ok b ∧ P b) →
    ∃ l', l.mapM f = .ok l' ∧ (∀ b ∈ l', P b) ∧ l'.length = l.length
  | [], _ => ⟨[], rfl, by simp, rfl⟩
  | a :: l, h => by
    obtain ⟨b, hb, hP⟩ := h a List.mem_cons_self
    obtain ⟨l', hl, hP', hlen⟩ := mapM_all_ok fun a ha => h a (List.mem_cons_of_mem _ ha)
    refine ⟨b :: l', mapM_ok.mpr (.cons hb (mapM_ok.mp hl)), ?_, by simp [hlen]⟩
    intro x hx
    rcases List.mem_cons.mp hx with rfl | hx
    · exact hP
    · exact hP' x hx

private theorem lt_mul_div {a b : ℕ} (hb : 0 < b) : a < b * (a / b + 1) := by
  have := Nat.div_add_mod a b
  have := Nat.mod_lt a hb
  rw [Nat.mul_add, Nat.mul_one]; omega

theorem enlarge_big (l : Raster) (fx fy : ℕ) (enh : Bool) (hy : 0 < l.ny) (hx : 0 < l.nx) :
    2 * fy < (enlarge l fx fy enh).ny ∧ 2 * fx < (enlarge l fx fy enh).nx := by
  have key : ∀ (a : Raster) (M : ℕ), 0 < a.nx → a.nx < M → M ≤ (a.repeatCols (M / a.nx + 1)).nx :=
    fun a M ha _ => (lt_mul_div ha).le
  have key' : ∀ (a : Raster) (M : ℕ), 0 < a.ny → a.ny < M → M ≤ (a.repeatRows (M / a.ny + 1)).ny :=
    fun a M ha _ => (lt_mul_div ha).le
  have hmy : 2 * fy < (if enh then (4 * fy + 1) * l.ny else 4 * fy + 1) := by
    split
    · calc 2 * fy < 4 * fy + 1 := by omega
        _ ≤ (4 * fy + 1) * l.ny := Nat.le_mul_of_pos_right _ hy
    · omega
  have hmx : 2 * fx < (if enh then (4 * fx + 1) * l.nx else 4 * fx + 1) := by
    split
    · calc 2 * fx < 4 * fx + 1 := by omega
        _ ≤ (4 * fx + 1) * l.nx := Nat.le_mul_of_pos_right _ hx
    · omega
  unfold enlarge
  set minY := if enh then (4 * fy + 1) * l.ny else 4 * fy + 1
  set minX := if enh then (4 * fx + 1) * l.nx else 4 * fx + 1
  dsimp only
  have h1 : ∀ l1 : Raster, l1 = (if l.ny < minY then l.repeatRows (minY / l.ny + 1) else l) → 2 * fy < l1.ny ∧ l1.nx = l.nx := by
    rintro l1 rfl
    split
    · rename_i h; exact ⟨lt_of_lt_of_le hmy (key' l minY hy h), rfl⟩
    · exact ⟨by omega, rfl⟩
  generalize hl1 : (if l.ny < minY then l.repeatRows (minY / l.ny + 1) else l) = l1
  obtain ⟨a1, a2⟩ := h1 l1 hl1.symm
  split
  · rename_i h; exact ⟨a1, lt_of_lt_of_le hmx (key l1 minX (a2 ▸ hx) h)⟩
  · exact ⟨a1, by omega⟩

/-- The convolution matrices of a raster whose layers lie in half planes. -/
theorem convMats_side {la : LinAlg} {s : Settings} (hp : s.p.use_pinv = false) (hf : s.fourier_type = 0 ∨ s.fourier_type = 1)
    {u : Ucell} (hu : s.ucell = .raster u) (hy : 0 < u.ny) (hx : 0 < u.nx) (S : ℂ → Prop)
    (hs : ∀ l ∈ u.layers, ∃ w, S w ∧ ∀ i j, 0 < (w * (l i j) ^ 2).re) :
    ∃ cs, convMats la s = .ok cs ∧ (∀ c ∈ cs, ∃ w, S w ∧ SideConv w c) ∧ cs.length = u.layers.length := by
  unfold convMats
  rw [hu, hp]
  have hr : ∀ l ∈ u.rasters, 0 < l.ny ∧ 0 < l.nx ∧ ∃ w, S w ∧ ∀ i j, 0 < (w * (l.val i j) ^ 2).re := by
    intro l hl
    obtain ⟨l', hl', rfl⟩ := List.mem_map.mp hl
    exact ⟨hy, hx, hs l' hl'⟩
  have hlen : u.rasters.length = u.layers.length := by unfold Ucell.rasters; simp
  rw [← hlen]
  rcases hf with hf | hf
  · simp only [hf, if_true]
    refine mapM_all_ok fun l hl => ?_
    obtain ⟨h1, h2, w, hS, hw⟩ := hr l hl
    obtain ⟨b1, b2⟩ := enlarge_big l s.p.fto.1 s.p.fto.2 s.enhanced_dfs h1 h2
    obtain ⟨c, epz, hc, hsc⟩ := fromCell_side (sideFun_dft b2) (sideFun_dft b1) (u := w)
      (cell := fun x y => ((enlarge l s.p.fto.1 s.p.fto.2 s.enhanced_dfs).sq.val y x)) (fun i j => by
        obtain ⟨i', j', e'⟩ := enlarge_val l _ _ s.enhanced_dfs j i
        simp only [Raster.sq, e']
        exact hw _ _)
    exact ⟨c, convDiscrete_fromCell.mpr ⟨b1, b2, epz, hc⟩, w, hS, hsc⟩
  · simp only [hf, one_ne_zero, if_false, if_true]
    refine mapM_all_ok fun l hl => ?_
    obtain ⟨h1, h2, w, hS, hw⟩ := hr l hl
    haveI : NeZero l.ny := ⟨h1.ne'⟩
    haveI : NeZero l.nx := ⟨h2.ne'⟩
    obtain ⟨c, epz, hc, hsc⟩ := fromCell_side (sideFun_pixL l.nx _) (sideFun_pixL l.ny _) (u := w)
      (cell := fun x y => (l.val y.rev x) ^ 2) (fun i j => hw _ _)
    exact ⟨c, convRaster_fromCell.mpr ⟨epz, hc⟩, w, hS, hsc⟩

/-- The same for vector structures, if they can be drawn. -/
theorem convMats_side_vector {la : LinAlg} {s : Settings} (hp : s.p.use_pinv = false) {ls : List VLayer}
    (hu : s.ucell = .vector ls) {cells : List VCell} (hcells : modeling_vector_instruction s.p.period ls = .ok cells)
    (hpx : 0 < s.p.period.1) (hpy : 0 < s.p.period.2) (S : ℂ → Prop)
    (hs : ∀ l ∈ ls, (∃ w, S w ∧ 0 < (w * l.base ^ 2).re ∧ ∀ v ∈ l.instrs, match v with
      | .rectangle _ _ _ _ n _ _ _ => 0 < (w * n ^ 2).re
      | .ellipse _ _ _ _ n _ _ _ => 0 < (w * n ^ 2).re
      | .unknown => True) ∧
      ∀ os, l.objs = .ok os → (∀ o ∈ os, Spec.Inside s.p.period o) ∧ (Spec.rowEdges os).Nodup ∧ (Spec.colEdges os).Nodup) :
    ∃ cs, convMats la s = .ok cs ∧ (∀ c ∈ cs, ∃ w, S w ∧ SideConv w c) ∧ cs.length = cells.length := by
  unfold convMats
  rw [hu, hp]
  have key : ∀ vc ∈ cells, ∃ c, convContinuous la vc s.p.fto.1 s.p.fto.2 false = .ok c ∧ ∃ w, S w ∧ SideConv w c := by
    intro vc hvc
    unfold modeling_vector_instruction at hcells
    simp only [Except.bind_ok] at hcells
    obtain ⟨os, hos, hcells⟩ := hcells
    obtain ⟨bo, hbo, hd⟩ := mapM_mem hcells hvc
    obtain ⟨l, hl, hlo⟩ := mapM_mem hos hbo
    simp only [Except.bind_ok] at hlo
    obtain ⟨o, ho, e2⟩ := hlo
    simp only [Except.ok.injEq] at e2
    subst e2
    obtain ⟨⟨w, hS, hb, hn⟩, hg⟩ := hs l hl
    obtain ⟨hin, hnr, hnc⟩ := hg o ho
    obtain ⟨mx, my, ex, ey⟩ := C36_grid_partial s.p.period l.base o vc hd hpx hpy hin hnr hnc
    have px : ∀ j, 0 < vc.x j := by
      intro j
      rcases (ex (vc.x j)).mp ⟨j, rfl⟩ with h | h
      · rw [h]; exact hpx
      · exact h.1
    have py : ∀ j, 0 < vc.y j := by
      intro j
      rcases (ey (vc.y j)).mp ⟨j, rfl⟩ with h | h
      · rw [h]; exact hpy
      · exact h.1
    haveI := vc.hx
    haveI := vc.hy
    have first : ∀ {k : ℕ} [NeZero k] (x : Fin k → ℝ) (hx : StrictMono x) (h0 : ∀ j, 0 < x j),
        ∃ j, 0 ≤ Spec.leftEnd x j ∧ Spec.leftEnd x j < x j ∧ x j ≤ x (-1) := by
      intro k _ x hx h0
      obtain ⟨k', rfl⟩ : ∃ k', k = k' + 1 := ⟨k - 1, by have := NeZero.pos k; omega⟩
      refine ⟨0, ?_, ?_, hx.monotone (Fin.zero_le _)⟩ <;> unfold Spec.leftEnd <;> rw [if_pos rfl]
      exact h0 0
    obtain ⟨c, epz, hc, hsc⟩ := fromCell_side (fx := s.p.fto.1) (fy := s.p.fto.2)
      (sideFun_cfsC (ordered_of_strictMono mx px) (px _) (first _ mx px))
      (sideFun_cfsC (ordered_of_strictMono my py) (py _) (first _ my py)) (u := w)
      (cell := fun i j => vc.val j i ^ 2) (fun i j => by
        rcases drawLayer_val hd j i with e3 | ⟨ob, hob, e3⟩
        · simp only at e3; rw [e3]; exact hb
        · rw [e3]
          unfold VLayer.objs at ho
          simp only [Except.bind_ok] at ho
          obtain ⟨oss, hoss, e4⟩ := ho
          simp only [Except.ok.injEq] at e4
          subst e4
          obtain ⟨ol, hol, hob⟩ := List.mem_flatten.mp hob
          obtain ⟨v, hv, hrun⟩ := mapM_mem hoss hol
          have := hn v hv
          cases v with
          | rectangle cx cy lx ly n angle nt np =>
            simp only [VInstr.run] at hrun
            rw [rectangle_n hrun ob hob]
            exact this
          | ellipse cx cy lx ly n angle nw nh =>
            simp only [VInstr.run] at hrun
            rw [ellipse_n hrun ob hob]
            exact this
          | unknown => cases hrun)
    exact ⟨c, convContinuous_fromCell.mpr ⟨epz, hc⟩, w, hS, hsc⟩
  obtain ⟨cs, h1, h2, h3⟩ := mapM_all_ok key
  exact ⟨cs, Except.bind_ok.mpr ⟨cells, hcells, h1⟩, h2, h3⟩

end Meent
