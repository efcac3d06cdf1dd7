import Verif.Lemmas.Shift
import Verif.Lemmas.Lorentz
import Verif.Spec.Image

/-!
# Convolution matrices of mirror images (helper lemmas)
-/

open Matrix

namespace Meent

set_option linter.unusedSectionVars false
set_option linter.unusedSimpArgs false

open Spec (revIdx)

/-- Reversal of the index if `b`. -/
def revE (b : Bool) (N : ℕ) : Fin N ≃ Fin N := if b then Fin.revPerm else Equiv.refl _

theorem revE_apply (b : Bool) {N : ℕ} (i : Fin N) : revE b N i = revIdx b i := by
  unfold revE revIdx; cases b <;> rfl

theorem revIdx_bij (b : Bool) {N : ℕ} : Function.Bijective (revIdx b : Fin N → Fin N) := by
  have : (revIdx b : Fin N → Fin N) = revE b N := funext fun i => (revE_apply b i).symm
  rw [this]; exact (revE b N).bijective

/-- `m` with its sign changed if `b`. -/
def sgnZ (b : Bool) (m : ℤ) : ℤ := if b then -m else m

theorem sgnZ_order (b : Bool) {f : ℕ} (r : Fin (2 * f + 1)) :
    ((revE b _ r).val : ℤ) - f = sgnZ b ((r.val : ℤ) - f) := by
  rw [revE_apply]
  unfold revIdx sgnZ
  cases b
  · rfl
  · simp only [if_true, Fin.val_rev]; have := r.isLt; omega

theorem sgnZ_sub (b : Bool) (m n : ℤ) : sgnZ b (m - n) = sgnZ b m - sgnZ b n := by
  unfold sgnZ; cases b
  · rfl
  · simp only [if_true]; ring

theorem sgnZ_diff (b : Bool) {f : ℕ} (r c : Fin (2 * f + 1)) :
    ((revE b _ c).val : ℤ) - ((revE b _ r).val : ℤ) = sgnZ b ((c.val : ℤ) - (r.val : ℤ)) := by
  have h1 := sgnZ_order b r
  have h2 := sgnZ_order b c
  have : ((c.val : ℤ) - (r.val : ℤ)) = ((c.val : ℤ) - f) - ((r.val : ℤ) - f) := by ring
  rw [this, sgnZ_sub, ← h1, ← h2]; ring

/-- A homogeneous coefficient functional that turns a reversal of the samples (if `b`) into a reversal of the orders
and a phase. -/
structure ImageFun {N : ℕ} (L : (Fin N → ℂ) → ℤ → ℂ) (b : Bool) (w : ℂ) : Prop where
  ne : w ≠ 0
  hom : ∀ z a m, L (fun j => z * a j) m = z * L a m
  img : ∀ a m, L (fun j => a (revIdx b j)) m = w ^ (-m) * L a (sgnZ b m)

/-- Reversal of x orders if `bx` and of y orders if `by`. -/
def imgE (bx by' : Bool) {fx fy : ℕ} : FlatIdx fx fy ≃ FlatIdx fx fy :=
  (finProdFinEquiv.symm.trans (Equiv.prodCongr (revE by' _) (revE bx _))).trans finProdFinEquiv

theorem imgE_symm (bx b : Bool) {fx fy : ℕ} (i : FlatIdx fx fy) :
    finProdFinEquiv.symm (imgE bx b i) = (revE b _ (finProdFinEquiv.symm i).1, revE bx _ (finProdFinEquiv.symm i).2) := by
  unfold imgE
  simp only [Equiv.trans_apply, Equiv.symm_apply_apply]
  rfl

/-- Reversed and conjugated matrix. -/
noncomputable def imgM {n : Type} [Fintype n] [DecidableEq n] (D : n → ℂ) (J : n ≃ n) (M : Matrix n n ℂ) : Matrix n n ℂ :=
  gConj D (M.submatrix J J)

section
variable {n : Type} [Fintype n] [DecidableEq n] {D : n → ℂ} (hD : ∀ i, D i ≠ 0) (J : n ≃ n)
include hD

theorem imgM_det (M : Matrix n n ℂ) : (imgM D J M).det = M.det := by
  unfold imgM; rw [gConj_det hD, det_submatrix_equiv_self]

theorem imgM_inv {M : Matrix n n ℂ} (h : IsUnit M.det) : (imgM D J M)⁻¹ = imgM D J M⁻¹ := by
  unfold imgM
  rw [gConj_inv hD (by rw [det_submatrix_equiv_self]; exact h), ← inv_submatrix_equiv]

theorem npInv_img (M : Matrix n n ℂ) : npInv (imgM D J M) = (npInv M).map (imgM D J) := by
  unfold npInv
  rw [imgM_det hD]
  by_cases hu : IsUnit M.det
  · rw [if_pos hu, if_pos hu, imgM_inv hD J hu]; rfl
  · rw [if_neg hu, if_neg hu]; rfl

end

theorem toepL_image {N f : ℕ} {L : (Fin N → ℂ) → ℤ → ℂ} {b : Bool} {w : ℂ} (h : ImageFun L b w) (a : Fin N → ℂ) :
    toepL L f (fun j => a (revIdx b j))
      = imgM (fun r : Fin (2 * f + 1) => w ^ ((r.val : ℤ) - f)) (revE b _) (toepL L f a) := by
  ext r c
  unfold imgM
  rw [gConj_apply]
  show L _ _ = _ * L _ _ * _
  rw [h.img, ← _root_.zpow_neg, mul_right_comm, ← zpow_add₀ h.ne, sgnZ_diff]
  congr 2
  ring

theorem genConv_image {Nx Ny fx fy : ℕ} {Lx : (Fin Nx → ℂ) → ℤ → ℂ} {Ly : (Fin Ny → ℂ) → ℤ → ℂ} {bx b : Bool} {wx wy : ℂ}
    (hx : ImageFun Lx bx wx) (hy : ImageFun Ly b wy) (cx cy : Bool) (cell : Fin Nx → Fin Ny → ℂ) :
    genConv Lx Ly cx cy fx fy (fun x y => cell (revIdx bx x) (revIdx b y))
      = (genConv Lx Ly cx cy fx fy cell).map (imgM (shiftD wx wy) (imgE bx b)) := by
  have hD : ∀ i : FlatIdx fx fy, shiftD wx wy i ≠ 0 := shiftD_ne hx.ne hy.ne
  have hDy : ∀ r : Fin (2 * fy + 1), wy ^ ((r.val : ℤ) - fy) ≠ 0 := fun r => zpow_ne_zero _ hy.ne
  have h1 : invRuleY cy (fun x y => cell (revIdx bx x) (revIdx b y))
      = (invRuleY cy cell).map fun c x y => c (revIdx bx x) (revIdx b y) := by
    unfold invRuleY
    cases cy
    · simp only [Bool.false_eq_true, if_false]
      have : (∀ x y, cell (revIdx bx x) (revIdx b y) ≠ 0) ↔ ∀ x y, cell x y ≠ 0 := by
        constructor
        · intro h x y
          obtain ⟨x, rfl⟩ := (revIdx_bij bx).2 x
          obtain ⟨y, rfl⟩ := (revIdx_bij b).2 y
          exact h x y
        · exact fun h x y => h _ _
      by_cases h : ∀ x y, cell x y ≠ 0
      · rw [if_pos h, if_pos (this.mpr h)]; rfl
      · rw [if_neg h, if_neg (fun h' => h (this.mp h'))]; rfl
    · rfl
  have h2 : ∀ (k : Bool) (a : Fin Nx → Matrix (Fin (2 * fy + 1)) (Fin (2 * fy + 1)) ℂ),
      invIf k (fun x => imgM (fun r : Fin (2 * fy + 1) => wy ^ ((r.val : ℤ) - fy)) (revE b _) (a (revIdx bx x)))
        = (invIf k a).map fun a x => imgM (fun r : Fin (2 * fy + 1) => wy ^ ((r.val : ℤ) - fy)) (revE b _) (a (revIdx bx x)) := by
    intro k a
    unfold invIf npInvStack
    cases k
    · rfl
    · simp only [if_true]
      have : (∀ x, IsUnit (imgM (fun r : Fin (2 * fy + 1) => wy ^ ((r.val : ℤ) - fy)) (revE b _) (a (revIdx bx x))).det)
          ↔ ∀ x, IsUnit (a x).det := by
        simp only [imgM_det hDy]
        constructor
        · intro h x
          obtain ⟨x, rfl⟩ := (revIdx_bij bx).2 x
          exact h x
        · exact fun h x => h _
      by_cases h : ∀ x, IsUnit (a x).det
      · rw [if_pos h, if_pos (this.mpr h)]
        show _ = Except.ok _
        congr 1
        funext x
        exact imgM_inv hDy _ (h (revIdx bx x))
      · rw [if_neg h, if_neg (fun h' => h (this.mp h'))]; rfl
  have h3 : ∀ a : Fin Nx → Matrix (Fin (2 * fy + 1)) (Fin (2 * fy + 1)) ℂ,
      flatten4 (btoepL Lx fx (fun x => imgM (fun r : Fin (2 * fy + 1) => wy ^ ((r.val : ℤ) - fy)) (revE b _) (a (revIdx bx x))))
        = imgM (shiftD wx wy) (imgE bx b) (flatten4 (btoepL Lx fx a)) := by
    intro a
    ext r c
    unfold imgM
    rw [gConj_apply]
    simp only [flatten4, submatrix_apply, btoepL, of_apply, gConj_apply, imgE_symm]
    set r' := finProdFinEquiv.symm r with hr
    set c' := finProdFinEquiv.symm c with hc
    have e : (fun x => wy ^ ((r'.1.val : ℤ) - fy) * a (revIdx bx x) (revE b _ r'.1) (revE b _ c'.1) * (wy ^ ((c'.1.val : ℤ) - fy))⁻¹)
        = fun x => (wy ^ ((r'.1.val : ℤ) - fy) * (wy ^ ((c'.1.val : ℤ) - fy))⁻¹)
          * (fun x => a x (revE b _ r'.1) (revE b _ c'.1)) (revIdx bx x) := by
      funext x; ring
    rw [e, hx.hom, hx.img (fun x => a x (revE b _ r'.1) (revE b _ c'.1)), sgnZ_diff]
    have ey : ∀ i : FlatIdx fx fy, (((finProdFinEquiv.symm i).1.val : ℤ)) - fy = Spec.orderY i := fun i => rfl
    have ex : ∀ i : FlatIdx fx fy, (((finProdFinEquiv.symm i).2.val : ℤ)) - fx = Spec.orderX i := fun i => rfl
    have ex' : -(((c'.2.val : ℤ)) - (r'.2.val : ℤ)) = Spec.orderX r - Spec.orderX c := by
      rw [← ex, ← ex]; ring
    rw [ex', hr, hc, ey, ey, ← hr, ← hc]
    unfold shiftD
    rw [zpow_sub₀ hx.ne]
    field_simp
  unfold genConv
  rw [h1]
  cases hc : invRuleY cy cell with
  | error e => rfl
  | ok c =>
    show (invIf (cx ^^ cy) (fun x => toepL Ly fy (fun y => c (revIdx bx x) (revIdx b y))) >>= _) = _
    simp only [toepL_image hy]
    rw [h2 (cx ^^ cy) (fun x => toepL Ly fy (c x))]
    show _ = Except.map _ (invIf (cx ^^ cy) (fun x => toepL Ly fy (c x)) >>= _)
    cases invIf (cx ^^ cy) (fun x => toepL Ly fy (c x)) with
    | error e => rfl
    | ok a =>
      show (if cx then _ else _) = Except.map _ (if cx then _ else _)
      rw [h3]
      cases cx
      · simp only [Bool.false_eq_true, if_false]
        exact npInv_img hD _ _
      · rfl

theorem fromCell_image {Nx Ny fx fy : ℕ} {Lx : (Fin Nx → ℂ) → ℤ → ℂ} {Ly : (Fin Ny → ℂ) → ℤ → ℂ} {bx b : Bool} {wx wy : ℂ}
    (hx : ImageFun Lx bx wx) (hy : ImageFun Ly b wy) {cell : Fin Nx → Fin Ny → ℂ}
    {c : Conv (FlatIdx fx fy)} {epz} (h : FromCell Lx Ly cell c epz) :
    FromCell Lx Ly (fun x y => cell (revIdx bx x) (revIdx b y)) ((c.reindex (imgE bx b)).gauge (shiftD wx wy))
      (imgM (shiftD wx wy) (imgE bx b) epz) where
  hz := by rw [genConv_image hx hy, h.hz]; rfl
  hy := by rw [genConv_image hx hy, h.hy]; rfl
  hx := by rw [genConv_image hx hy, h.hx]; rfl
  hu := by rw [imgM_det (shiftD_ne hx.ne hy.ne)]; exact h.hu
  hi := by
    show imgM _ _ c.epzi = _
    rw [h.hi, imgM_inv (shiftD_ne hx.ne hy.ne) _ h.hu]

/-! ### The two kinds of coefficients -/

theorem rootZ_neg (N : ℕ) (m : ℤ) : rootZ N (-m) = (rootZ N m)⁻¹ := by
  rw [rootZ_zpow N (-m), rootZ_zpow N m, _root_.zpow_neg]

/-- The phase of a reversal of `N` samples. -/
noncomputable def revW (b : Bool) (N : ℕ) : ℂ := if b then rootZ N 1 else 1

theorem norm_revW (b : Bool) (N : ℕ) : ‖revW b N‖ = 1 := by
  unfold revW; cases b
  · simp
  · simp only [if_true]; exact norm_rootZ _ _

theorem dft_image {N : ℕ} (hN : N ≠ 0) (b : Bool) : ImageFun (N := N) Spec.dftCoeff b (revW b N) where
  ne := by
    intro h; have := norm_revW b N; rw [h, norm_zero] at this; exact zero_ne_one this
  hom := dftCoeff_const_mul
  img := by
    intro a m
    cases b
    · simp only [revIdx, revW, sgnZ, Bool.false_eq_true, if_false, _root_.one_zpow, one_mul]
    · simp only [revIdx, revW, sgnZ, if_true]
      unfold Spec.dftCoeff
      simp only [exp_pow_root]
      rw [mul_div_assoc']
      congr 1
      rw [← Equiv.sum_comp Fin.revPerm (fun y => a y * rootZ N (-m) ^ y.val), Finset.mul_sum]
      refine Finset.sum_congr rfl fun y _ => ?_
      show a y.rev * _ = _ * (a y.rev * rootZ N (-m) ^ (y.rev.val))
      have h2 : (rootZ N 1) ^ (-m) = (rootZ N m)⁻¹ := by rw [← rootZ_zpow, rootZ_neg]
      have hne := rootZ_ne N m
      have hp : rootZ N m ^ (y.rev.val) * (rootZ N m * rootZ N m ^ y.val) = 1 := by
        rw [← pow_succ', ← pow_add, Fin.val_rev, Nat.sub_add_cancel y.isLt, rootZ_pow hN]
      have h3 : (rootZ N m ^ (y.rev.val))⁻¹ = rootZ N m * rootZ N m ^ y.val := inv_eq_of_mul_eq_one_right hp
      rw [h2, rootZ_neg, inv_pow, h3]
      field_simp

theorem pix_image {N : ℕ} [NeZero N] (b : Bool) : ImageFun (pixL N) b 1 where
  ne := one_ne_zero
  hom := by intro z a m; rw [pixL_eq, pixL_eq, dftCoeff_const_mul]; ring
  img := by
    intro a m
    cases b
    · simp only [revIdx, sgnZ, Bool.false_eq_true, if_false, _root_.one_zpow, one_mul]
    · have := (dft_image (NeZero.ne N) true).img a m
      rw [pixL_eq, pixL_eq, this, _root_.one_zpow, one_mul]
      simp only [revW, sgnZ, if_true]
      have h2 : (rootZ N 1) ^ (-m) = (rootZ N m)⁻¹ := by rw [← rootZ_zpow, rootZ_neg]
      rw [h2, ← mul_assoc]
      congr 1
      unfold pixKappa
      by_cases hm : m = 0
      · subst hm; simp [rootZ]
      · rw [if_neg hm, if_neg (by simpa using hm), rootZ_neg]
        have hne := rootZ_ne N m
        have : (m : ℂ) ≠ 0 := Int.cast_ne_zero.mpr hm
        have : ((Real.pi : ℝ) : ℂ) ≠ 0 := Complex.ofReal_ne_zero.mpr Real.pi_ne_zero
        push_cast
        field_simp
        ring

/-! ### Rasters -/

/-- A mirrored raster. -/
abbrev Raster.mirror (mx my : Bool) (l : Raster) : Raster := ⟨l.ny, l.nx, Spec.mirrored mx my l.val⟩

theorem revIdx_divNat (b : Bool) {n k : ℕ} (i : Fin (n * k)) : (revIdx b i).divNat = revIdx b i.divNat := by
  unfold revIdx
  cases b
  · rfl
  · simp only [if_true]
    apply Fin.ext
    have hi := i.isLt
    have hk : 0 < k := by
      rcases Nat.eq_zero_or_pos k with h | h
      · subst h; exact absurd hi (by simp)
      · exact h
    simp only [Fin.coe_divNat, Fin.val_rev]
    have hq : i.val / k < n := Nat.div_lt_of_lt_mul (lt_of_lt_of_eq hi (mul_comm n k))
    have hd := Nat.div_add_mod i.val k
    have hm := Nat.mod_lt i.val hk
    obtain ⟨r, hr⟩ : ∃ r, n = i.val / k + 1 + r := ⟨n - (i.val / k + 1), by omega⟩
    have e : n * k = k * (i.val / k) + k + k * r := by
      conv_lhs => rw [hr]
      ring
    refine (Nat.div_eq_of_lt_le ?_ ?_)
    · have : (n - (i.val / k + 1)) = r := by omega
      rw [this, mul_comm r k]; omega
    · have : (n - (i.val / k + 1)) = r := by omega
      rw [this, add_mul, mul_comm r k]; omega

theorem repeatRows_mirror (l : Raster) (mx my : Bool) (k : ℕ) : (l.mirror mx my).repeatRows k = (l.repeatRows k).mirror mx my := by
  unfold Raster.repeatRows Raster.mirror Spec.mirrored
  simp only [revIdx_divNat]

theorem repeatCols_mirror (l : Raster) (mx my : Bool) (k : ℕ) : (l.mirror mx my).repeatCols k = (l.repeatCols k).mirror mx my := by
  unfold Raster.repeatCols Raster.mirror Spec.mirrored
  simp only [revIdx_divNat]

theorem enlarge_mirror (l : Raster) (mx my : Bool) (fx fy : ℕ) (enh : Bool) :
    enlarge (l.mirror mx my) fx fy enh = (enlarge l fx fy enh).mirror mx my := by
  have hr : ∀ (l : Raster) (b : Prop) [Decidable b] (k : ℕ), (if b then (l.mirror mx my).repeatRows k else l.mirror mx my)
      = (if b then l.repeatRows k else l).mirror mx my := by
    intro l b _ k
    split
    · exact repeatRows_mirror _ _ _ _
    · rfl
  have hc : ∀ (l : Raster) (b : Prop) [Decidable b] (k : ℕ), (if b then (l.mirror mx my).repeatCols k else l.mirror mx my)
      = (if b then l.repeatCols k else l).mirror mx my := by
    intro l b _ k
    split
    · exact repeatCols_mirror _ _ _ _
    · rfl
  unfold enlarge
  simp only
  rw [hr, hc]

/-- The size of the enlarged raster. -/
theorem enlarge_size (l : Raster) (fx fy : ℕ) (enh : Bool) :
    (enlarge l fx fy enh).ny = (enlarge ⟨l.ny, l.nx, fun _ _ => 0⟩ fx fy enh).ny ∧
    (enlarge l fx fy enh).nx = (enlarge ⟨l.ny, l.nx, fun _ _ => 0⟩ fx fy enh).nx := by
  unfold enlarge Raster.repeatRows Raster.repeatCols
  simp only
  generalize (if enh then (4 * fy + 1) * l.ny else 4 * fy + 1) = qy
  generalize (if enh then (4 * fx + 1) * l.nx else 4 * fx + 1) = qx
  have hs : ∀ (A A' : Raster), A.ny = A'.ny → A.nx = A'.nx →
      (if A.nx < qx then (⟨A.ny, A.nx * (qx / A.nx + 1), fun i j => A.val i j.divNat⟩ : Raster) else A).ny
        = (if A'.nx < qx then (⟨A'.ny, A'.nx * (qx / A'.nx + 1), fun i j => A'.val i j.divNat⟩ : Raster) else A').ny ∧
      (if A.nx < qx then (⟨A.ny, A.nx * (qx / A.nx + 1), fun i j => A.val i j.divNat⟩ : Raster) else A).nx
        = (if A'.nx < qx then (⟨A'.ny, A'.nx * (qx / A'.nx + 1), fun i j => A'.val i j.divNat⟩ : Raster) else A').nx := by
    intro A A' h1 h2
    by_cases h : A.nx < qx
    · rw [if_pos h, if_pos (h2 ▸ h)]; exact ⟨h1, congrArg (fun z => z * (qx / z + 1)) h2⟩
    · rw [if_neg h, if_neg (h2 ▸ h)]; exact ⟨h1, h2⟩
  refine hs _ _ ?_ ?_ <;> by_cases h1 : l.ny < qy <;> simp only [h1, if_true, if_false]

theorem convDiscrete_image {la la' : LinAlg} {l : Raster} {fx fy : ℕ} {enh : Bool} {c : Conv (FlatIdx fx fy)} (mx my : Bool)
    (h : convDiscrete la l fx fy enh false = .ok c) :
    convDiscrete la' (l.mirror mx my) fx fy enh false = .ok ((c.reindex (imgE mx my)).gauge
      (shiftD (revW mx (enlarge ⟨l.ny, l.nx, fun _ _ => 0⟩ fx fy enh).nx) (revW my (enlarge ⟨l.ny, l.nx, fun _ _ => 0⟩ fx fy enh).ny))) := by
  obtain ⟨h1, h2, epz, hf⟩ := convDiscrete_fromCell.mp h
  refine convDiscrete_fromCell.mpr ?_
  rw [enlarge_mirror]
  have := fromCell_image (dft_image (N := (enlarge l fx fy enh).nx) (by omega) mx)
    (dft_image (N := (enlarge l fx fy enh).ny) (by omega) my) hf
  rw [← (enlarge_size l fx fy enh).1, ← (enlarge_size l fx fy enh).2]
  exact ⟨h1, h2, _, this⟩

theorem revIdx_rev (b : Bool) {N : ℕ} (i : Fin N) : revIdx b i.rev = (revIdx b i).rev := by
  unfold revIdx; cases b <;> rfl

theorem convRaster_image {la la' : LinAlg} {l : Raster} (hy : 0 < l.ny) (hx : 0 < l.nx) {fx fy : ℕ} {c : Conv (FlatIdx fx fy)}
    (mx my : Bool) (h : convRasterContinuous la l fx fy false = .ok c) :
    convRasterContinuous la' (l.mirror mx my) fx fy false = .ok ((c.reindex (imgE mx my)).gauge (shiftD 1 1)) := by
  have : NeZero l.ny := ⟨hy.ne'⟩
  have : NeZero l.nx := ⟨hx.ne'⟩
  obtain ⟨epz, hf⟩ := convRaster_fromCell.mp h
  refine (convRaster_fromCell (c := l.mirror mx my)).mpr ?_
  have := fromCell_image (pix_image (N := l.nx) mx) (pix_image (N := l.ny) my) hf
  simp only [Spec.mirrored, revIdx_rev]
  exact ⟨_, this⟩

/-- The matrices of the mirrored structure are those of the original with mirrored orders, up to phases. -/
theorem convMats_image {la la' : LinAlg} {s : Settings} (hp : s.p.use_pinv = false) {u : Ucell} (hu : s.ucell = .raster u)
    (hy : 0 < u.ny) (hx : 0 < u.nx) (mx my : Bool) (θ' : ℂ) (φ' : Option ℂ) (pol' : ℝ) (ψ' : ℂ) {cs} (h : convMats la s = .ok cs) :
    ∃ wx wy : ℂ, ‖wx‖ = 1 ∧ ‖wy‖ = 1 ∧ convMats la' (Spec.image mx my s u θ' φ' pol' ψ')
      = .ok (cs.map fun c => (c.reindex (imgE mx my)).gauge (shiftD wx wy)) := by
  have hr : (Spec.mirrorAll mx my u).rasters = u.rasters.map (Raster.mirror mx my) := by
    unfold Ucell.rasters
    simp only [List.map_map]
    rfl
  have hdim : ∀ l ∈ u.rasters, l.ny = u.ny ∧ l.nx = u.nx := by
    intro l hl
    unfold Ucell.rasters at hl
    obtain ⟨a, -, rfl⟩ := List.mem_map.mp hl
    exact ⟨rfl, rfl⟩
  unfold convMats at h ⊢
  rw [hu] at h
  simp only [hp] at h ⊢
  by_cases h0 : s.fourier_type = 0
  · simp only [if_pos h0] at h ⊢
    unfold to_conv_mat_raster_discrete at h ⊢
    rw [hr]
    refine ⟨_, _, norm_revW mx (enlarge ⟨u.ny, u.nx, fun _ _ => 0⟩ s.p.fto.1 s.p.fto.2 s.enhanced_dfs).nx,
      norm_revW my (enlarge ⟨u.ny, u.nx, fun _ _ => 0⟩ s.p.fto.1 s.p.fto.2 s.enhanced_dfs).ny, ?_⟩
    refine mapM_map_ok _ _ (fun l hl b hb => ?_) h
    have := convDiscrete_image (la' := la') mx my hb
    rw [(hdim l hl).1, (hdim l hl).2] at this
    exact this
  · by_cases h1 : s.fourier_type = 1
    · simp only [if_neg h0, if_pos h1] at h ⊢
      unfold to_conv_mat_raster_continuous at h ⊢
      rw [hr]
      refine ⟨1, 1, norm_one, norm_one, ?_⟩
      refine mapM_map_ok _ _ (fun l hl b hb => ?_) h
      exact convRaster_image (by rw [(hdim l hl).1]; exact hy) (by rw [(hdim l hl).2]; exact hx) mx my hb
    · simp only [if_neg h0, if_neg h1] at h
      cases h

end Meent
