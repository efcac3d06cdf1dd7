import Mathlib.LinearAlgebra.Matrix.Kronecker
import Verif.Lemmas.ImageConv
import Verif.Spec.Axes

/-!
# Convolution matrices of structures with exchanged axes (helper lemmas)
-/

open Matrix
open scoped Kronecker

namespace Meent

set_option linter.unusedSectionVars false
set_option linter.unusedSimpArgs false

/-- Position of an order of the exchanged problem in the original one. -/
def swapE (fx fy : ℕ) : FlatIdx fy fx ≃ FlatIdx fx fy :=
  finProdFinEquiv.symm.trans ((Equiv.prodComm _ _).trans finProdFinEquiv)

theorem swapE_symm {fx fy : ℕ} (i : FlatIdx fy fx) :
    finProdFinEquiv.symm (swapE fx fy i) = (finProdFinEquiv.symm i).swap := by
  simp [swapE]

/-- The matrices of a layer with exchanged axes. -/
def Conv.exchange {fx fy : ℕ} (c : Conv (FlatIdx fx fy)) : Conv (FlatIdx fy fx) :=
  ⟨c.epy.submatrix (swapE fx fy) (swapE fx fy), c.epx.submatrix (swapE fx fy) (swapE fx fy),
    c.epzi.submatrix (swapE fx fy) (swapE fx fy)⟩

/-- Homogeneity of a coefficient functional. -/
def HomFun {N : ℕ} (L : (Fin N → ℂ) → ℤ → ℂ) : Prop := ∀ (z : ℂ) (a : Fin N → ℂ) (m : ℤ), L (fun x => z * a x) m = z * L a m

theorem dft_hom {N : ℕ} : HomFun (Spec.dftCoeff (N := N)) := by
  intro z a m
  unfold Spec.dftCoeff
  simp only [mul_assoc, mul_div_assoc, ← Finset.mul_sum]

theorem cfsC_hom {k : ℕ} [NeZero k] (x : Fin k → ℝ) (period : ℝ) : HomFun (cfsC x period) := by
  intro z a m
  unfold cfsC
  split
  · rw [← mul_div_assoc, Finset.mul_sum]
    congr 1
    exact Finset.sum_congr rfl fun _ _ => by ring
  · rw [← mul_div_assoc, Finset.mul_sum]
    congr 1
    exact Finset.sum_congr rfl fun _ _ => by ring

section
variable {Nx Ny fx fy : ℕ} {Lx : (Fin Nx → ℂ) → ℤ → ℂ} {Ly : (Fin Ny → ℂ) → ℤ → ℂ}
  {f : Fin Nx → ℂ} {g : Fin Ny → ℂ}

theorem toepL_smul (hL : HomFun Ly) (z : ℂ) (a : Fin Ny → ℂ) : toepL Ly fy (fun y => z * a y) = z • toepL Ly fy a := by
  ext r c
  simp only [toepL, of_apply, Matrix.smul_apply, smul_eq_mul]
  exact hL _ _ _

theorem btoepL_smul (hL : HomFun Lx) (a : Fin Nx → ℂ) (M : Matrix (Fin (2 * fy + 1)) (Fin (2 * fy + 1)) ℂ) :
    btoepL Lx fx (fun x => a x • M) = M ⊗ₖ toepL Lx fx a := by
  ext r c
  simp only [btoepL, of_apply, Matrix.smul_apply, smul_eq_mul, kroneckerMap_apply, toepL]
  rw [← hL]
  congr 1
  funext x
  rw [mul_comm]

theorem det_smul_unit {n : ℕ} {z : ℂ} (hz : z ≠ 0) (M : Matrix (Fin n) (Fin n) ℂ) : IsUnit (z • M).det ↔ IsUnit M.det := by
  rw [det_smul, isUnit_iff_ne_zero, isUnit_iff_ne_zero, mul_ne_zero_iff]
  exact ⟨fun h => h.2, fun h => ⟨pow_ne_zero _ hz, h⟩⟩

theorem inv_smul_ne {n : ℕ} {z : ℂ} (hz : z ≠ 0) (M : Matrix (Fin n) (Fin n) ℂ) (h : IsUnit M.det) : (z • M)⁻¹ = z⁻¹ • M⁻¹ := by
  have : Invertible z := invertibleOfNonzero hz
  rw [Matrix.inv_smul M z h, invOf_eq_inv]

theorem det_flat (M : Matrix (Fin (2 * fy + 1) × Fin (2 * fx + 1)) (Fin (2 * fy + 1) × Fin (2 * fx + 1)) ℂ) :
    (flatten4 M : Matrix (FlatIdx fx fy) (FlatIdx fx fy) ℂ).det = M.det := by
  unfold flatten4
  exact det_submatrix_equiv_self _ _

theorem kron_unit (A : Matrix (Fin (2 * fy + 1)) (Fin (2 * fy + 1)) ℂ) (B : Matrix (Fin (2 * fx + 1)) (Fin (2 * fx + 1)) ℂ) :
    IsUnit (flatten4 (A ⊗ₖ B) : Matrix (FlatIdx fx fy) (FlatIdx fx fy) ℂ).det ↔ IsUnit A.det ∧ IsUnit B.det := by
  rw [det_flat, det_kronecker, IsUnit.mul_iff, isUnit_pow_iff (by simp), isUnit_pow_iff (by simp)]

theorem kron_inv (A : Matrix (Fin (2 * fy + 1)) (Fin (2 * fy + 1)) ℂ) (B : Matrix (Fin (2 * fx + 1)) (Fin (2 * fx + 1)) ℂ) :
    (flatten4 (A ⊗ₖ B) : Matrix (FlatIdx fx fy) (FlatIdx fx fy) ℂ)⁻¹ = flatten4 (A⁻¹ ⊗ₖ B⁻¹) := by
  unfold flatten4
  rw [inv_submatrix_equiv, inv_kronecker]

theorem kron_swap (A : Matrix (Fin (2 * fy + 1)) (Fin (2 * fy + 1)) ℂ) (B : Matrix (Fin (2 * fx + 1)) (Fin (2 * fx + 1)) ℂ) :
    (flatten4 (A ⊗ₖ B) : Matrix (FlatIdx fx fy) (FlatIdx fx fy) ℂ).submatrix (swapE fx fy) (swapE fx fy) = flatten4 (B ⊗ₖ A) := by
  ext i j
  simp only [flatten4, submatrix_apply, swapE_symm, kroneckerMap_apply, Prod.fst_swap, Prod.snd_swap]
  exact mul_comm _ _

theorem gen_zz (hx : HomFun Lx) (hy : HomFun Ly) :
    genConv Lx Ly true true fx fy (fun x y => f x * g y) = .ok (flatten4 (toepL Ly fy g ⊗ₖ toepL Lx fx f)) := by
  unfold genConv
  simp only [invRuleY, invIf, if_true, Bool.xor_self, Bool.false_eq_true, if_false]
  show Except.ok (flatten4 (btoepL Lx fx fun x => toepL Ly fy fun y => f x * g y)) = _
  simp only [toepL_smul hy]
  rw [btoepL_smul hx]

theorem gen_y (hx : HomFun Lx) (hy : HomFun Ly) (hN : 0 < Nx) (hf : ∀ x, f x ≠ 0) (hg : ∀ y, g y ≠ 0)
    {m : Matrix (FlatIdx fx fy) (FlatIdx fx fy) ℂ} :
    genConv Lx Ly true false fx fy (fun x y => f x * g y) = .ok m ↔
      IsUnit (toepL Ly fy fun y => 1 / g y).det ∧ m = flatten4 ((toepL Ly fy fun y => 1 / g y)⁻¹ ⊗ₖ toepL Lx fx f) := by
  have e : (fun x => toepL Ly fy ((fun x y => 1 / (f x * g y)) x)) = fun x => (f x)⁻¹ • toepL Ly fy (fun y => 1 / g y) := by
    funext x
    rw [← toepL_smul hy]
    congr 1
    funext y
    show 1 / (f x * g y) = _
    rw [one_div, mul_inv, one_div]
  unfold genConv
  simp only [invRuleY, Bool.false_eq_true, if_false, if_pos (fun x y => mul_ne_zero (hf x) (hg y) : ∀ x y, f x * g y ≠ 0),
    Except.bind_ok, Except.ok.injEq, exists_eq_left', if_true, Bool.xor_false, invIf_ok, reduceCtorEq, false_and, false_or, true_and]
  constructor
  · rintro ⟨a, ⟨h1, rfl⟩, rfl⟩
    have hG : IsUnit (toepL Ly fy fun y => 1 / g y).det := by
      have := h1 ⟨0, hN⟩
      rw [congrFun e ⟨0, hN⟩] at this
      exact (det_smul_unit (inv_ne_zero (hf _)) _).mp this
    refine ⟨hG, ?_⟩
    rw [← btoepL_smul hx]
    congr 2
    funext x
    rw [congrFun e x, inv_smul_ne (inv_ne_zero (hf x)) _ hG, inv_inv]
  · rintro ⟨hG, rfl⟩
    refine ⟨_, ⟨fun x => ?_, rfl⟩, ?_⟩
    · rw [congrFun e x]; exact (det_smul_unit (inv_ne_zero (hf x)) _).mpr hG
    · rw [← btoepL_smul hx]
      congr 2
      funext x
      rw [congrFun e x, inv_smul_ne (inv_ne_zero (hf x)) _ hG, inv_inv]

theorem gen_x (hx : HomFun Lx) (hy : HomFun Ly) (hN : 0 < Nx) (hf : ∀ x, f x ≠ 0)
    {m : Matrix (FlatIdx fx fy) (FlatIdx fx fy) ℂ} :
    genConv Lx Ly false true fx fy (fun x y => f x * g y) = .ok m ↔
      IsUnit (toepL Ly fy g).det ∧ IsUnit (toepL Lx fx fun x => 1 / f x).det ∧
        m = flatten4 (toepL Ly fy g ⊗ₖ (toepL Lx fx fun x => 1 / f x)⁻¹) := by
  unfold genConv
  simp only [invRuleY, Bool.false_eq_true, if_false, 
    Except.bind_ok, Except.ok.injEq, exists_eq_left', if_true, Bool.false_xor, invIf_ok, reduceCtorEq, false_and, false_or, true_and,
    toepL_smul hy, npInv_ok]
  have key : IsUnit (toepL Ly fy g).det → (flatten4 (btoepL Lx fx fun x => (f x • toepL Ly fy g)⁻¹) : Matrix (FlatIdx fx fy) (FlatIdx fx fy) ℂ)
      = flatten4 ((toepL Ly fy g)⁻¹ ⊗ₖ toepL Lx fx fun x => 1 / f x) := by
    intro hG
    rw [← btoepL_smul hx]
    congr 2
    funext x
    rw [inv_smul_ne (hf x) _ hG, one_div]
  constructor
  · rintro ⟨a, ⟨h1, rfl⟩, h2, rfl⟩
    have hG := (det_smul_unit (hf _) _).mp (h1 ⟨0, hN⟩)
    rw [key hG] at h2 ⊢
    have h3 := ((kron_unit _ _).mp h2).2
    refine ⟨hG, h3, ?_⟩
    rw [kron_inv, nonsing_inv_nonsing_inv _ hG]
  · rintro ⟨hG, hF, rfl⟩
    refine ⟨_, ⟨fun x => (det_smul_unit (hf _) _).mpr hG, rfl⟩, ?_⟩
    rw [key hG]
    refine ⟨(kron_unit _ _).mpr ⟨isUnit_nonsing_inv_det _ hG, hF⟩, ?_⟩
    rw [kron_inv, nonsing_inv_nonsing_inv _ hG]

theorem fromCell_exchange (hx : HomFun Lx) (hy : HomFun Ly) (hNx : 0 < Nx) (hNy : 0 < Ny)
    {c : Conv (FlatIdx fx fy)} {epz : Matrix (FlatIdx fx fy) (FlatIdx fx fy) ℂ}
    (h : FromCell Lx Ly (fun x y => f x * g y) c epz) :
    FromCell Ly Lx (fun y x => f x * g y) c.exchange (epz.submatrix (swapE fx fy) (swapE fx fy)) := by
  have hne : ∀ x y, f x * g y ≠ 0 := by
    have := h.hy
    unfold genConv invRuleY at this
    rw [Except.bind_ok] at this
    obtain ⟨c', hc', -⟩ := this
    simp only [Bool.false_eq_true, if_false] at hc'
    split at hc'
    · assumption
    · cases hc'
  have hf : ∀ x, f x ≠ 0 := fun x => left_ne_zero_of_mul (hne x ⟨0, hNy⟩)
  have hg : ∀ y, g y ≠ 0 := fun y => right_ne_zero_of_mul (hne ⟨0, hNx⟩ y)
  have ez : epz = _ := Except.ok.inj (h.hz.symm.trans (gen_zz hx hy))
  obtain ⟨y1, y2⟩ := (gen_y hx hy hNx hf hg).mp h.hy
  obtain ⟨x1, x2, x3⟩ := (gen_x hx hy hNx hf).mp h.hx
  have hu := h.hu
  rw [ez, kron_unit] at hu
  have ec : (fun y x => f x * g y) = fun y x => g y * f x := by funext y x; exact mul_comm _ _
  rw [ec]
  refine ⟨?_, ?_, ?_, ?_, ?_⟩
  · rw [ez, kron_swap]; exact gen_zz hy hx
  · refine (gen_y hy hx hNy hg hf).mpr ⟨x2, ?_⟩
    show c.epx.submatrix _ _ = _
    rw [x3, kron_swap]
  · refine (gen_x hy hx hNy hg).mpr ⟨hu.2, y1, ?_⟩
    show c.epy.submatrix _ _ = _
    rw [y2, kron_swap]
  · rw [det_submatrix_equiv_self]; exact h.hu
  · show c.epzi.submatrix _ _ = _
    rw [h.hi, inv_submatrix_equiv]

end

/-- A raster with its axes exchanged. -/
abbrev Raster.exchange (flip : Bool) (l : Raster) : Raster := ⟨l.nx, l.ny, Spec.exchanged flip l.val⟩

theorem enlarge_exchange (l : Raster) (fx fy : ℕ) (enh : Bool) :
    enlarge (l.exchange false) fy fx enh = (enlarge l fx fy enh).exchange false := by
  unfold enlarge
  simp only
  generalize (if enh then (4 * fy + 1) * l.ny else 4 * fy + 1) = qy
  generalize (if enh then (4 * fx + 1) * l.nx else 4 * fx + 1) = qx
  by_cases h1 : l.ny < qy <;> by_cases h2 : l.nx < qx
  · rw [if_pos h1, if_pos h2]
    rw [if_pos (show (Raster.repeatRows (l.exchange false) (qx / l.nx + 1)).nx < qy from h1),
      if_pos (show (Raster.repeatRows l (qy / l.ny + 1)).nx < qx from h2)]
    rfl
  · rw [if_pos h1, if_neg h2, if_pos (show (l.exchange false).nx < qy from h1),
      if_neg (show ¬ (Raster.repeatRows l (qy / l.ny + 1)).nx < qx from h2)]
    rfl
  · rw [if_neg h1, if_pos h2, if_neg (show ¬ (Raster.repeatRows (l.exchange false) (qx / l.nx + 1)).nx < qy from h1),
      if_pos h2]
    rfl
  · rw [if_neg h1, if_neg h2, if_neg (show ¬ (l.exchange false).nx < qy from h1), if_neg h2]

theorem enlarge_separable {l : Raster} (h : Spec.Separable l.val) (fx fy : ℕ) (enh : Bool) :
    Spec.Separable (enlarge l fx fy enh).val := by
  have hr : ∀ (l : Raster) (k : ℕ), Spec.Separable l.val → Spec.Separable (l.repeatRows k).val := by
    rintro l k ⟨f, g, e⟩
    exact ⟨f, fun i => g i.divNat, fun i j => e _ _⟩
  have hc : ∀ (l : Raster) (k : ℕ), Spec.Separable l.val → Spec.Separable (l.repeatCols k).val := by
    rintro l k ⟨f, g, e⟩
    exact ⟨fun j => f j.divNat, g, fun i j => e _ _⟩
  have h1 : ∀ (q : Prop) [Decidable q] (l : Raster) (k : ℕ), Spec.Separable l.val →
      Spec.Separable (if q then l.repeatRows k else l).val := by
    intro q _ l k h
    by_cases hq : q
    · rw [if_pos hq]; exact hr _ _ h
    · rw [if_neg hq]; exact h
  have h2 : ∀ (q : Prop) [Decidable q] (l : Raster) (k : ℕ), Spec.Separable l.val →
      Spec.Separable (if q then l.repeatCols k else l).val := by
    intro q _ l k h
    by_cases hq : q
    · rw [if_pos hq]; exact hc _ _ h
    · rw [if_neg hq]; exact h
  exact h2 _ _ _ (h1 _ _ _ h)

theorem convDiscrete_exchange {la la' : LinAlg} {l : Raster} (hs : Spec.Separable l.val) {fx fy : ℕ} {enh : Bool}
    {c : Conv (FlatIdx fx fy)} (h : convDiscrete la l fx fy enh false = .ok c) :
    convDiscrete la' (l.exchange false) fy fx enh false = .ok c.exchange := by
  obtain ⟨h1, h2, epz, hf⟩ := convDiscrete_fromCell.mp h
  refine convDiscrete_fromCell.mpr ?_
  rw [enlarge_exchange]
  obtain ⟨f, g, e⟩ := enlarge_separable hs fx fy enh
  have e1 : (fun x y => (enlarge l fx fy enh).sq.val y x) = fun x y => f x ^ 2 * g y ^ 2 := by
    funext x y
    exact (congrArg (· ^ 2) (e y x)).trans (mul_pow _ _ _)
  have e2 : (fun x y => ((enlarge l fx fy enh).exchange false).sq.val y x) = fun y x => f x ^ 2 * g y ^ 2 := by
    funext y x
    exact (congrArg (· ^ 2) (e y x)).trans (mul_pow _ _ _)
  rw [e1] at hf
  rw [e2]
  exact ⟨h2, h1, _, fromCell_exchange dft_hom dft_hom (lt_of_le_of_lt (Nat.zero_le _) h2)
    (lt_of_le_of_lt (Nat.zero_le _) h1) hf⟩

theorem convRaster_exchange {la la' : LinAlg} {l : Raster} (hy : 0 < l.ny) (hx : 0 < l.nx) (hs : Spec.Separable l.val) {fx fy : ℕ}
    {c : Conv (FlatIdx fx fy)} (h : convRasterContinuous la l fx fy false = .ok c) :
    convRasterContinuous la' (l.exchange true) fy fx false = .ok c.exchange := by
  have : NeZero l.ny := ⟨hy.ne'⟩
  have : NeZero l.nx := ⟨hx.ne'⟩
  obtain ⟨epz, hf⟩ := convRaster_fromCell.mp h
  refine (convRaster_fromCell (c := l.exchange true)).mpr ?_
  obtain ⟨f, g, e⟩ := hs
  have e1 : (fun (x : Fin l.nx) (y : Fin l.ny) => l.val y.rev x ^ 2) = fun x y => f x ^ 2 * g y.rev ^ 2 := by
    funext x y
    rw [e, mul_pow]
  have e2 : (fun (x : Fin l.ny) (y : Fin l.nx) => (l.exchange true).val y.rev x ^ 2) = fun y x => f x ^ 2 * g y.rev ^ 2 := by
    funext y x
    show l.val (Spec.revIdx true y) (Spec.revIdx true x.rev) ^ 2 = _
    rw [e, mul_pow]
    simp [Spec.revIdx]
  rw [e1] at hf
  rw [e2]
  exact ⟨_, fromCell_exchange (cfsC_hom _ _) (cfsC_hom _ _) hx hy hf⟩

/-- The matrices of the structure with exchanged axes. -/
theorem convMats_exchange {la la' : LinAlg} {s : Settings} (hp : s.p.use_pinv = false) {u : Ucell} (hu : s.ucell = .raster u)
    (hy : 0 < u.ny) (hx : 0 < u.nx) (hs : ∀ a ∈ u.layers, Spec.Separable a) (θ' : ℂ) (φ' : Option ℂ) (pol' : ℝ) (ψ' : ℂ) {cs}
    (h : convMats la s = .ok cs) :
    convMats la' (Spec.exchangeAxes s u θ' φ' pol' ψ') = .ok (cs.map Conv.exchange) := by
  have hr : ∀ b, (Spec.exchangeAll b u).rasters = u.rasters.map (Raster.exchange b) := by
    intro b
    unfold Ucell.rasters
    simp only [List.map_map]
    rfl
  have hdim : ∀ l ∈ u.rasters, l.ny = u.ny ∧ l.nx = u.nx ∧ Spec.Separable l.val := by
    intro l hl
    unfold Ucell.rasters at hl
    obtain ⟨a, ha, rfl⟩ := List.mem_map.mp hl
    exact ⟨rfl, rfl, hs a ha⟩
  unfold convMats at h ⊢
  rw [hu] at h
  simp only [hp] at h ⊢
  by_cases h0 : s.fourier_type = 0
  · simp only [if_pos h0] at h ⊢
    unfold to_conv_mat_raster_discrete at h ⊢
    rw [hr, show decide (s.fourier_type = 1) = false by rw [h0]; rfl]
    refine mapM_map_ok _ _ (fun l hl b hb => ?_) h
    exact convDiscrete_exchange (hdim l hl).2.2 hb
  · by_cases h1 : s.fourier_type = 1
    · simp only [if_neg h0, if_pos h1] at h ⊢
      unfold to_conv_mat_raster_continuous at h ⊢
      rw [hr, decide_eq_true h1]
      refine mapM_map_ok _ _ (fun l hl b hb => ?_) h
      exact convRaster_exchange (by rw [(hdim l hl).1]; exact hy) (by rw [(hdim l hl).2.1]; exact hx) (hdim l hl).2.2 hb
    · simp only [if_neg h0, if_neg h1] at h
      cases h

end Meent
