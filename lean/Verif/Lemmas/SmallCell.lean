import Verif.Lemmas.AxesConv
import Verif.Props.C61b

/-!
# Raster layers of two rows and two columns at the zeroth order (helper lemmas)
-/

open Matrix

namespace Meent

set_option linter.unusedSectionVars false
set_option linter.unusedSimpArgs false

theorem toepL_zero {N : ℕ} (L : (Fin N → ℂ) → ℤ → ℂ) (a : Fin N → ℂ) : toepL L 0 a = L a 0 • (1 : Matrix (Fin (2 * 0 + 1)) (Fin (2 * 0 + 1)) ℂ) := by
  ext i j
  have hi : i = 0 := Subsingleton.elim (α := Fin 1) _ _
  have hj : j = 0 := Subsingleton.elim (α := Fin 1) _ _
  subst hi hj
  simp [toepL]

theorem btoepL_zero {N : ℕ} (L : (Fin N → ℂ) → ℤ → ℂ) (a : Fin N → ℂ) :
    (flatten4 (btoepL L 0 fun x => a x • (1 : Matrix (Fin (2 * 0 + 1)) (Fin (2 * 0 + 1)) ℂ)) : Matrix (FlatIdx 0 0) (FlatIdx 0 0) ℂ) = L a 0 • 1 := by
  ext i j
  have hi : i = 0 := Subsingleton.elim (α := Fin 1) _ _
  have hj : j = 0 := Subsingleton.elim (α := Fin 1) _ _
  subst hi hj
  have h : ∀ i j : Fin (2 * 0 + 1), (1 : Matrix (Fin (2 * 0 + 1)) (Fin (2 * 0 + 1)) ℂ) i j = 1 := by
    intro i j
    rw [show i = j from Subsingleton.elim (α := Fin 1) _ _, one_apply_eq]
  have h2 : ∀ i j : Fin (2 * 0 + 1), ((i.val : ℤ) - (j.val : ℤ)) = 0 := by
    intro i j
    rw [show i = j from Subsingleton.elim (α := Fin 1) _ _, sub_self]
  simp only [flatten4, btoepL, submatrix_apply, of_apply, Matrix.smul_apply, smul_eq_mul, h, h2, mul_one, one_apply_eq]

theorem scal_inv {m : Type} [Fintype m] [DecidableEq m] (z : ℂ) : (z • (1 : Matrix m m ℂ))⁻¹ = z⁻¹ • 1 := by
  by_cases h : z = 0
  · rw [h, zero_smul, _root_.inv_zero, zero_smul, Matrix.inv_zero]
  · exact smul_one_inv h

section
variable {Nx Ny : ℕ} {Lx : (Fin Nx → ℂ) → ℤ → ℂ} {Ly : (Fin Ny → ℂ) → ℤ → ℂ} {cell : Fin Nx → Fin Ny → ℂ}
  {m : Matrix (FlatIdx 0 0) (FlatIdx 0 0) ℂ}

theorem gen0_zz (h : genConv Lx Ly true true 0 0 cell = .ok m) : m = Lx (fun x => Ly (cell x) 0) 0 • 1 := by
  unfold genConv at h
  simp only [invRuleY, invIf, if_true, Bool.xor_self, Bool.false_eq_true, if_false] at h
  replace h : (Except.ok (flatten4 (btoepL Lx 0 fun x => toepL Ly 0 (cell x))) : Res (Matrix (FlatIdx 0 0) (FlatIdx 0 0) ℂ)) = .ok m := h
  simp only [toepL_zero] at h
  rw [← Except.ok.inj h, btoepL_zero]

theorem gen0_y (h : genConv Lx Ly true false 0 0 cell = .ok m) : m = Lx (fun x => (Ly (fun y => 1 / cell x y) 0)⁻¹) 0 • 1 := by
  unfold genConv at h
  simp only [Except.bind_ok, invIf_ok, Bool.xor_false, reduceCtorEq, false_and, false_or, true_and, if_true, Except.ok.injEq] at h
  obtain ⟨c, hc, a, ⟨-, rfl⟩, rfl⟩ := h
  unfold invRuleY at hc
  simp only [Bool.false_eq_true, if_false] at hc
  split at hc
  · obtain rfl := Except.ok.inj hc
    simp only [toepL_zero, scal_inv]
    rw [btoepL_zero]
  · cases hc

theorem gen0_x (h : genConv Lx Ly false true 0 0 cell = .ok m) : m = (Lx (fun x => (Ly (cell x) 0)⁻¹) 0)⁻¹ • 1 := by
  unfold genConv at h
  simp only [Except.bind_ok, invIf_ok, Bool.false_xor, reduceCtorEq, false_and, false_or, true_and, Bool.false_eq_true, if_false,
    npInv_ok] at h
  obtain ⟨c, hc, a, ⟨-, rfl⟩, -, rfl⟩ := h
  obtain rfl := Except.ok.inj (show Except.ok cell = Except.ok c from hc)
  simp only [toepL_zero, scal_inv]
  rw [btoepL_zero, scal_inv]

end

theorem pix2 (a : Fin 2 → ℂ) : pixL 2 a 0 = (a 0 + a 1) / 2 := by
  unfold pixL cfsC
  rw [if_pos rfl, Fin.sum_univ_two]
  have h1 : pixEdge 2 0 = 1 / 2 := by simp [pixEdge]
  have h2 : pixEdge 2 1 = 1 := by simp [pixEdge]
  have h3 : pixEdge 2 (-1) = 1 := h2
  rw [h3, if_pos rfl, if_neg (by decide), h1, show (1 : Fin 2) - 1 = 0 from rfl, h1, h2]
  push_cast
  ring

/-- A layer of two rows and two columns of thickness `d` at the zeroth order, between media of indices `2 κ` and `nb`, at 30 degrees. -/
noncomputable def cellSettings (a : Fin 2 → Fin 2 → ℂ) (φ κ nb d : ℝ) : Settings where
  p := { exParams 0 (some (φ : ℂ)) with n_top := ((2 * κ : ℝ) : ℂ), n_bot := (nb : ℂ), thickness := [d] }
  ucell := .raster ⟨2, 2, [a]⟩
  fourier_type := 1
  enhanced_dfs := true
  algo := .tmm

variable {κ nb d : ℝ}

theorem cell_illumination (hκ : 0 < κ) (a : Fin 2 → Fin 2 → ℂ) (φ : ℝ) : Spec.RealIllumination (cellSettings a φ κ nb d).p := by
  have h := lossy_illumination 0 (some (φ : ℂ)) (by intro x h; cases h; exact Complex.ofReal_im _) 0 0
  exact ⟨Complex.ofReal_im _, by show 0 < ((2 * κ : ℝ) : ℂ).re; rw [Complex.ofReal_re]; linarith, h.theta_real, h.theta_lo, h.theta_hi, h.phi_real, h.psi_real,
    h.wavelength_pos, h.period_x_pos, h.period_y_pos⟩

theorem cell_k (a : Fin 2 → Fin 2 → ℂ) (φ : ℝ) (i) : Spec.kxOf (cellSettings a φ κ nb d).p i = ((κ * Real.cos φ : ℝ) : ℂ) ∧
    Spec.kyOf (cellSettings a φ κ nb d).p i = ((κ * Real.sin φ : ℝ) : ℂ) := by
  have hi : i.val < 1 := by have := i.isLt; simpa [cellSettings, exParams] using this
  unfold Spec.kxOf Spec.kyOf
  simp only [cellSettings, exParams, Option.getD_some]
  rw [← Complex.ofReal_sin, Real.sin_pi_div_six, ← Complex.ofReal_sin, ← Complex.ofReal_cos,
    show i.val % (2 * 0 + 1) = 0 by omega, show i.val / (2 * 0 + 1) = 0 by omega]
  constructor <;> · push_cast; ring

theorem cell_ordinary (hκ : 0 < κ) (hd : 0 < d) (a : Fin 2 → Fin 2 → ℂ) (φ : ℝ) (hm : ∀ i j, Spec.OrdinaryMedium (a i j)) :
    Spec.OrdinaryStack (cellSettings a φ κ nb d) ⟨2, 2, [a]⟩ where
  toRealIllumination := cell_illumination hκ a φ
  raster := rfl
  columns := by simp
  coefficients := Or.inl rfl
  media := by
    intro l hl i j
    rw [List.mem_singleton.mp hl]
    exact hm i j
  thickness_pos := by
    intro x hx
    rw [List.mem_singleton.mp hx]
    exact hd
  layers_enough := by simp [cellSettings, exParams]

/-- A layer whose matrices are multiples of the identity. -/
noncomputable def triConv {m : Type} [DecidableEq m] (ex ey ez : ℝ) : Conv m := ⟨(ex : ℂ) • 1, (ey : ℂ) • 1, ((ez : ℂ)⁻¹) • 1⟩

theorem two_conv {la : LinAlg} {a : Fin 2 → Fin 2 → ℂ} {cs : List (Conv (FlatIdx 0 0))}
    (h : to_conv_mat_raster_continuous la ⟨2, 2, [a]⟩ 0 0 false = .ok cs) {ex ey ez : ℝ}
    (hx : ((2 / (a 1 0 ^ 2 + a 0 0 ^ 2) + 2 / (a 1 1 ^ 2 + a 0 1 ^ 2)) / 2)⁻¹ = (ex : ℂ))
    (hy : (2 / (1 / a 1 0 ^ 2 + 1 / a 0 0 ^ 2) + 2 / (1 / a 1 1 ^ 2 + 1 / a 0 1 ^ 2)) / 2 = (ey : ℂ))
    (hz : ((a 1 0 ^ 2 + a 0 0 ^ 2) / 2 + (a 1 1 ^ 2 + a 0 1 ^ 2) / 2) / 2 = (ez : ℂ)) : cs = [triConv ex ey ez] := by
  unfold to_conv_mat_raster_continuous Ucell.rasters at h
  simp only [List.map_cons, List.map_nil, List.mapM_cons, List.mapM_nil, Except.bind_ok] at h
  obtain ⟨c, hc, l, hl, h⟩ := h
  obtain rfl := Except.ok.inj (show Except.ok [] = Except.ok l from hl)
  obtain rfl := Except.ok.inj (show Except.ok [c] = Except.ok cs from h)
  have : NeZero (⟨2, 2, a⟩ : Raster).ny := ⟨two_ne_zero⟩
  have : NeZero (⟨2, 2, a⟩ : Raster).nx := ⟨two_ne_zero⟩
  obtain ⟨epz, hf⟩ := (convRaster_fromCell (c := ⟨2, 2, a⟩)).mp hc
  have e1 := gen0_x hf.hx
  have e2 := gen0_y hf.hy
  have e3 := gen0_zz hf.hz
  have e4 := hf.hi
  rw [e3, scal_inv] at e4
  have r0 : (0 : Fin 2).rev = 1 := rfl
  have r1 : (1 : Fin 2).rev = 0 := rfl
  have q : ∀ v : Fin 2 → ℂ, pixL (⟨2, 2, a⟩ : Raster).nx v 0 = (v 0 + v 1) / 2 := pix2
  have q' : ∀ v : Fin 2 → ℂ, pixL (⟨2, 2, a⟩ : Raster).ny v 0 = (v 0 + v 1) / 2 := pix2
  have f1 : c.epx = (ex : ℂ) • 1 := by
    rw [e1]
    congr 1
    rw [q, q', q']
    refine Eq.trans ?_ hx
    congr 2
    exact congrArg₂ (· + ·) (inv_div _ _) (inv_div _ _)
  have f2 : c.epy = (ey : ℂ) • 1 := by
    rw [e2]
    congr 1
    rw [q, q', q']
    refine Eq.trans ?_ hy
    congr 1
    exact congrArg₂ (· + ·) (inv_div _ _) (inv_div _ _)
  have f3 : c.epzi = ((ez : ℂ)⁻¹) • 1 := by
    rw [e4]
    congr 2
    rw [q, q', q']
    exact hz
  cases c
  simp only at f1 f2 f3
  subst f1 f2 f3
  rfl

theorem cell_conv {la : LinAlg} {a : Fin 2 → Fin 2 → ℂ} {φ : ℝ} {cs} (h : convMats la (cellSettings a φ κ nb d) = .ok cs) {ex ey ez : ℝ}
    (hx : ((2 / (a 1 0 ^ 2 + a 0 0 ^ 2) + 2 / (a 1 1 ^ 2 + a 0 1 ^ 2)) / 2)⁻¹ = (ex : ℂ))
    (hy : (2 / (1 / a 1 0 ^ 2 + 1 / a 0 0 ^ 2) + 2 / (1 / a 1 1 ^ 2 + 1 / a 0 1 ^ 2)) / 2 = (ey : ℂ))
    (hz : ((a 1 0 ^ 2 + a 0 0 ^ 2) / 2 + (a 1 1 ^ 2 + a 0 1 ^ 2) / 2) / 2 = (ez : ℂ)) : cs = [triConv ex ey ez] :=
  two_conv h hx hy hz

/-- The mode matrix at the zeroth order, for light whose plane of incidence contains one of the axes. -/
theorem cell_modeMatrix (a : Fin 2 → Fin 2 → ℂ) (φ : ℝ) (h0 : Real.cos φ = 0 ∨ Real.sin φ = 0) (ex ey ez : ℝ) :
    Spec.modeMatrix (cellSettings a φ κ nb d) (triConv ex ey ez) = diagonal (Sum.elim
      (fun _ => (((κ * Real.sin φ) ^ 2 + ((κ * Real.cos φ) ^ 2 * ez⁻¹ - 1) * ex : ℝ) : ℂ))
      (fun _ => (((κ * Real.cos φ) ^ 2 + ((κ * Real.sin φ) ^ 2 * ez⁻¹ - 1) * ey : ℝ) : ℂ))) := by
  unfold Spec.modeMatrix
  rw [show Spec.kxOf (cellSettings a φ κ nb d).p = fun _ => ((κ * Real.cos φ : ℝ) : ℂ) from funext fun i => (cell_k a φ i).1,
    show Spec.kyOf (cellSettings a φ κ nb d).p = fun _ => ((κ * Real.sin φ : ℝ) : ℂ) from funext fun i => (cell_k a φ i).2]
  have hcs : ((κ * Real.cos φ : ℝ) : ℂ) * ((κ * Real.sin φ : ℝ) : ℂ) = 0 := by
    rcases h0 with h | h <;> rw [h] <;> simp
  unfold triConv
  generalize ((κ * Real.cos φ : ℝ)) = x at *
  generalize ((κ * Real.sin φ : ℝ)) = y at *
  have hone : (1 : Matrix (FlatIdx (cellSettings a φ κ nb d).p.fto.1 (cellSettings a φ κ nb d).p.fto.2) (FlatIdx (cellSettings a φ κ nb d).p.fto.1 (cellSettings a φ κ nb d).p.fto.2) ℂ)
      = diagonal fun _ => 1 := diagonal_one.symm
  have hz : ∀ v : ℂ, v = 0 → (diagonal fun _ : FlatIdx (cellSettings a φ κ nb d).p.fto.1 (cellSettings a φ κ nb d).p.fto.2 => v) = 0 := by
    rintro v rfl; exact diagonal_zero
  simp only [smul_one_eq_diagonal]
  rw [hone]
  simp only [diagonal_mul_diagonal, diagonal_sub, diagonal_add]
  rw [hz ((x : ℂ) * ((ez : ℂ)⁻¹ * y * ey - y)) (by linear_combination ((ez : ℂ)⁻¹ * ey - 1) * hcs),
    hz ((y : ℂ) * ((ez : ℂ)⁻¹ * x * ex - x)) (by linear_combination ((ez : ℂ)⁻¹ * ex - 1) * hcs), fromBlocks_diagonal]
  congr 2
  · funext i; push_cast; ring
  · funext i; push_cast; ring

theorem cell_not_normal (hκ : 0 < κ) (a : Fin 2 → Fin 2 → ℂ) (φ : ℝ) : ¬ Spec.SomeAlongNormal (cellSettings a φ κ nb d).p := by
  rintro ⟨m, k, h1, h2, h3, h4⟩
  have hm : m = 0 := abs_eq_zero.mp (le_antisymm (by simpa [cellSettings, exParams] using h1) (abs_nonneg m))
  have hk : k = 0 := abs_eq_zero.mp (le_antisymm (by simpa [cellSettings, exParams] using h2) (abs_nonneg k))
  subst hm hk
  simp only [cellSettings, exParams, Option.getD_some, Int.cast_zero, zero_mul, add_zero] at h3 h4
  rw [← Complex.ofReal_sin, Real.sin_pi_div_six] at h3 h4
  rw [← Complex.ofReal_cos] at h3
  rw [← Complex.ofReal_sin] at h4
  have hn : ((2 * κ : ℝ) : ℂ) * ((1 / 2 : ℝ) : ℂ) ≠ 0 := by rw [← Complex.ofReal_mul]; exact_mod_cast (by linarith : 0 < 2 * κ * (1 / 2)).ne'
  have c0 : Real.cos φ = 0 := by exact_mod_cast (mul_eq_zero.mp h3).resolve_left hn
  have s0 : Real.sin φ = 0 := by exact_mod_cast (mul_eq_zero.mp h4).resolve_left hn
  have := Real.sin_sq_add_cos_sq φ
  rw [c0, s0] at this
  norm_num at this

theorem cell_escape (hκ : 0 < κ) (hnb : κ < nb) (a : Fin 2 → Fin 2 → ℂ) (φ : ℝ) : Spec.AllEscape2D (cellSettings a φ κ nb d) := by
  intro i j
  have hi : Spec.colOrder i = 0 := by
    have := i.isLt
    simp only [cellSettings, exParams] at this
    unfold Spec.colOrder
    simp only [cellSettings, exParams]
    omega
  have hj : Spec.rowOrder j = 0 := by
    have := j.isLt
    simp only [cellSettings, exParams] at this
    unfold Spec.rowOrder
    simp only [cellSettings, exParams]
    omega
  rw [hi, hj]
  unfold Spec.inPlaneSq Spec.orderKx Spec.orderKy
  simp only [cellSettings, exParams, Option.getD_some, Int.cast_zero, zero_mul, add_zero, Complex.ofReal_re]
  rw [Real.sin_pi_div_six]
  have h1 := Real.sin_sq_add_cos_sq φ
  have h2 : (2 * κ * (1 / 2) * Real.cos φ) ^ 2 + (2 * κ * (1 / 2) * Real.sin φ) ^ 2 = κ ^ 2 := by linear_combination κ ^ 2 * h1
  rw [h2]
  exact pow_lt_pow_left₀ hnb hκ.le two_ne_zero

theorem cell_no_backward (a : Fin 2 → Fin 2 → ℂ) (φ : ℝ) (h0 : Real.cos φ = 0 ∨ Real.sin φ = 0) (ex ey ez : ℝ) (hx : 0 < ex) (hy : 0 < ey) :
    ¬ Spec.BackwardMode (cellSettings a φ κ nb d) (triConv ex ey ez) := by
  rintro ⟨E, β, hβ, hE, hneg⟩
  rw [cell_modeMatrix a φ h0] at hE
  rw [show Spec.kxOf (cellSettings a φ κ nb d).p = fun _ => ((κ * Real.cos φ : ℝ) : ℂ) from funext fun i => (cell_k a φ i).1,
    show Spec.kyOf (cellSettings a φ κ nb d).p = fun _ => ((κ * Real.sin φ : ℝ) : ℂ) from funext fun i => (cell_k a φ i).2] at hneg
  have hcs : (κ * Real.cos φ) = 0 ∨ (κ * Real.sin φ) = 0 := by rcases h0 with h | h <;> simp [h]
  unfold triConv at hneg
  generalize (κ * Real.cos φ) = x at *
  generalize (κ * Real.sin φ) = y at *
  have hm : ((y : ℂ) * x) = 0 ∧ ((x : ℂ) * y) = 0 := by rcases hcs with h | h <;> simp [h]
  simp only [smul_one_eq_diagonal, diagonal_mul_diagonal, diagonal_sub, hm.1, hm.2, diagonal_zero] at hneg
  rw [fromBlocks_diagonal] at hneg
  refine absurd hneg (not_lt.mpr ?_)
  simp only [dotProduct, mulVec_diagonal, Complex.re_sum]
  refine Finset.sum_nonneg fun i _ => ?_
  have key : ∀ (z : ℂ) (p d : ℝ), (0 ≤ p ∨ p = -d) → (d : ℂ) * z = -(β : ℂ) ^ 2 * z → 0 ≤ (star z * ((p : ℂ) * z)).re := by
    intro z p d hp hd
    have e : (star z * ((p : ℂ) * z)).re = p * Complex.normSq z := by
      simp [Complex.normSq_apply]; ring
    rw [e]
    rcases hp with hp | rfl
    · exact mul_nonneg hp (Complex.normSq_nonneg z)
    · by_cases hz : z = 0
      · simp [hz]
      · have h1 := mul_right_cancel₀ hz hd
        have h2 : d = -β ^ 2 := by exact_mod_cast h1
        rw [h2, neg_neg]
        exact mul_nonneg (sq_nonneg β) (Complex.normSq_nonneg z)
  have hEi := congrFun hE i
  simp only [mulVec_diagonal, Pi.smul_apply, smul_eq_mul] at hEi
  rcases i with i | i
  · have := key (E (Sum.inl i)) (ex - y * y) _ (by
      rcases hcs with h | h
      · right; rw [h]; ring
      · left; rw [h]; linarith) hEi
    simpa using this
  · have := key (E (Sum.inr i)) (ey - x * x) _ (by
      rcases hcs with h | h
      · left; rw [h]; linarith
      · right; rw [h]; ring) hEi
    simpa using this

theorem cell_cutoff_iff (a : Fin 2 → Fin 2 → ℂ) (φ : ℝ) (h0 : Real.cos φ = 0 ∨ Real.sin φ = 0) (ex ey ez : ℝ) :
    Spec.AtCutoff2D (cellSettings a φ κ nb d) (triConv ex ey ez) ↔
      (κ * Real.sin φ) ^ 2 + ((κ * Real.cos φ) ^ 2 * ez⁻¹ - 1) * ex = 0 ∨
      (κ * Real.cos φ) ^ 2 + ((κ * Real.sin φ) ^ 2 * ez⁻¹ - 1) * ey = 0 := by
  unfold Spec.AtCutoff2D
  rw [cell_modeMatrix a φ h0]
  generalize (κ * Real.sin φ) ^ 2 + ((κ * Real.cos φ) ^ 2 * ez⁻¹ - 1) * ex = d1
  generalize (κ * Real.cos φ) ^ 2 + ((κ * Real.sin φ) ^ 2 * ez⁻¹ - 1) * ey = d2
  have i0 : FlatIdx (cellSettings a φ κ nb d).p.fto.1 (cellSettings a φ κ nb d).p.fto.2 := ⟨0, by simp [cellSettings, exParams]⟩
  constructor
  · rintro ⟨v, hv, h⟩
    by_contra hc
    push Not at hc
    refine hv (funext fun i => ?_)
    have hi := congrFun h i
    rw [mulVec_diagonal] at hi
    rcases i with i | i
    · exact (mul_eq_zero.mp hi).resolve_left (show (d1 : ℂ) ≠ 0 by exact_mod_cast hc.1)
    · exact (mul_eq_zero.mp hi).resolve_left (show (d2 : ℂ) ≠ 0 by exact_mod_cast hc.2)
  · rintro (h | h)
    · refine ⟨Sum.elim (fun _ => 1) (fun _ => 0), fun hv => one_ne_zero (congrFun hv (Sum.inl i0)), funext fun i => ?_⟩
      rw [mulVec_diagonal]
      rcases i with i | i <;> simp [h]
    · refine ⟨Sum.elim (fun _ => 0) (fun _ => 1), fun hv => one_ne_zero (congrFun hv (Sum.inr i0)), funext fun i => ?_⟩
      rw [mulVec_diagonal]
      rcases i with i | i <;> simp [h]

theorem cell_solves (hκ : 0 < κ) (hnb : κ < nb) (hd : 0 < d) (a : Fin 2 → Fin 2 → ℂ) (φ : ℝ) (hm : ∀ i j, Spec.OrdinaryMedium (a i j)) (h0 : Real.cos φ = 0 ∨ Real.sin φ = 0)
    (ex ey ez : ℝ) (px : 0 < ex) (py : 0 < ey)
    (hx : ((2 / (a 1 0 ^ 2 + a 0 0 ^ 2) + 2 / (a 1 1 ^ 2 + a 0 1 ^ 2)) / 2)⁻¹ = (ex : ℂ))
    (hy : (2 / (1 / a 1 0 ^ 2 + 1 / a 0 0 ^ 2) + 2 / (1 / a 1 1 ^ 2 + 1 / a 0 1 ^ 2)) / 2 = (ey : ℂ))
    (hz : ((a 1 0 ^ 2 + a 0 0 ^ 2) / 2 + (a 1 1 ^ 2 + a 0 1 ^ 2) / 2) / 2 = (ez : ℂ)) :
    (∀ la, (∃ sol, conv_solve la (cellSettings a φ κ nb d) = .ok sol) → ¬ Spec.AtCutoff2D (cellSettings a φ κ nb d) (triConv ex ey ez)) ∧
    (¬ Spec.AtCutoff2D (cellSettings a φ κ nb d) (triConv ex ey ez) → ∃ sol, conv_solve exLA (cellSettings a φ κ nb d) = .ok sol) := by
  have hg : gratingType (cellSettings a φ κ nb d) = 2 := by simp [gratingType, cellSettings, exParams]
  have ho := cell_ordinary (nb := nb) hκ hd a φ hm
  constructor
  · rintro la ⟨sol, hs⟩
    obtain ⟨cs, hcs, -⟩ := C55_ordinary la (cellSettings a φ κ nb d) _ ho.raster (by norm_num) ho.columns
      (by rcases ho.coefficients with h | ⟨h, -⟩ <;> simp [h]) rfl ho.media
    have h1 := solves_cutoff2D rfl (cell_illumination hκ a φ) hg hcs hs
    rw [cell_conv hcs hx hy hz] at h1
    exact h1 _ List.mem_cons_self
  · intro hcut
    obtain ⟨cs, hcs, -, -, h2⟩ := C61_2d exLA exLA_basis (cellSettings a φ κ nb d) _ rfl rfl hg (by norm_num) ho
      (Complex.ofReal_im _) (cell_not_normal hκ a φ) (.inr (cell_escape hκ hnb a φ))
    refine h2 fun c hc => ?_
    have hc' := List.mem_of_mem_take hc
    rw [cell_conv hcs hx hy hz, List.mem_singleton] at hc'
    rw [hc']
    refine ⟨⟨fun h => ?_, fun h => ?_, fun h => ?_, fun _ => ?_⟩, hcut, cell_no_backward a φ h0 ex ey ez px py⟩
    · omega
    · omega
    · omega
    · have := cell_modeMatrix (κ := κ) (nb := nb) (d := d) a φ h0 ex ey ez
      unfold Spec.modeMatrix at this
      rw [this]
      exact ⟨1, _, by simp, by rw [Matrix.mul_one, Matrix.one_mul]⟩

end Meent
