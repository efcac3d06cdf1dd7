import Verif.Lemmas.Mirror
import Verif.Lemmas.Flat
import Verif.Lemmas.Bare
import Verif.Spec.Shift

/-!
# Circular shifts (helper lemmas)
-/

open Matrix

namespace Meent

set_option linter.unusedSectionVars false
set_option linter.unusedSimpArgs false

open Spec (rollIdx)

/-- A coefficient functional that turns a change of samples `τ` into a phase `w` and is homogeneous. -/
structure ShiftFun {N : ℕ} (L : (Fin N → ℂ) → ℤ → ℂ) (τ : Fin N → Fin N) (w : ℂ) : Prop where
  bij : Function.Bijective τ
  ne : w ≠ 0
  hom : ∀ z a m, L (fun j => z * a j) m = z * L a m
  shift : ∀ a m, L (fun j => a (τ j)) m = w ^ (-m) * L a m

theorem rollIdx_bij {N : ℕ} (s : ℕ) : Function.Bijective (rollIdx (N := N) s) := by
  refine Finite.injective_iff_bijective.mp ?_
  intro i j h
  have h := congrArg Fin.val h
  simp only [rollIdx] at h
  apply Fin.ext
  have h' : i.val + s ≡ j.val + s [MOD N] := h
  have := Nat.ModEq.add_right_cancel' s h'
  have e := (Nat.mod_eq_of_lt i.isLt).symm.trans (Eq.trans this (Nat.mod_eq_of_lt j.isLt))
  exact e

theorem rootZ_ne (N : ℕ) (m : ℤ) : rootZ N m ≠ 0 := Complex.exp_ne_zero _

theorem rootZ_zpow (N : ℕ) (m : ℤ) : rootZ N m = rootZ N 1 ^ m := by
  unfold rootZ
  rw [← Complex.exp_int_mul]
  congr 1
  push_cast
  ring

theorem norm_rootZ (N : ℕ) (m : ℤ) : ‖rootZ N m‖ = 1 := by
  unfold rootZ
  rw [Complex.norm_exp]
  have : (-(2 * Real.pi * Complex.I * (m : ℂ) / (N : ℂ))).re = 0 := by
    have : -(2 * Real.pi * Complex.I * (m : ℂ) / (N : ℂ)) = ((-(2 * Real.pi * m / N) : ℝ) : ℂ) * Complex.I := by
      push_cast; ring
    rw [this, Complex.re_ofReal_mul, Complex.I_re, mul_zero]
  rw [this, Real.exp_zero]

theorem dft_shift {N : ℕ} (hN : N ≠ 0) (s : ℕ) : ShiftFun (N := N) Spec.dftCoeff (rollIdx s) (rootZ N 1 ^ s) where
  bij := rollIdx_bij s
  ne := pow_ne_zero _ (rootZ_ne N 1)
  hom := dftCoeff_const_mul
  shift := by
    intro a m
    unfold Spec.dftCoeff
    simp only [exp_pow_root]
    rw [mul_div_assoc']
    congr 1
    rw [← Equiv.sum_comp (Equiv.ofBijective _ (rollIdx_bij (N := N) s)) (fun y => a y * rootZ N m ^ y.val), Finset.mul_sum]
    refine Finset.sum_congr rfl fun y _ => ?_
    show a (rollIdx s y) * _ = _ * (a (rollIdx s y) * rootZ N m ^ ((y.val + s) % N))
    have h1 : rootZ N m ^ ((y.val + s) % N) = rootZ N m ^ (y.val + s) := (pow_eq_pow_mod _ (rootZ_pow hN m)).symm
    have h2 : (rootZ N 1 ^ s) ^ (-m) = (rootZ N m ^ s)⁻¹ := by
      rw [rootZ_zpow N m, _root_.zpow_neg, ← zpow_natCast, ← _root_.zpow_mul, ← zpow_natCast, ← _root_.zpow_mul, mul_comm]
    rw [h1, h2, pow_add]
    have := pow_ne_zero s (rootZ_ne N m)
    field_simp

theorem pix_shift {N : ℕ} [NeZero N] (s : ℕ) : ShiftFun (pixL N) (rollIdx s) (rootZ N 1 ^ s) where
  bij := rollIdx_bij s
  ne := pow_ne_zero _ (rootZ_ne N 1)
  hom := by intro z a m; rw [pixL_eq, pixL_eq, dftCoeff_const_mul]; ring
  shift := by intro a m; rw [pixL_eq, pixL_eq, (dft_shift (NeZero.ne N) s).shift]; ring

/-- The phases of the orders. -/
noncomputable def shiftD {fx fy : ℕ} (wx wy : ℂ) (i : FlatIdx fx fy) : ℂ := wx ^ (Spec.orderX i) * wy ^ (Spec.orderY i)

theorem shiftD_ne {fx fy : ℕ} {wx wy : ℂ} (hx : wx ≠ 0) (hy : wy ≠ 0) (i : FlatIdx fx fy) : shiftD wx wy i ≠ 0 :=
  mul_ne_zero (zpow_ne_zero _ hx) (zpow_ne_zero _ hy)

theorem toepL_shift {N f : ℕ} {L : (Fin N → ℂ) → ℤ → ℂ} {τ : Fin N → Fin N} {w : ℂ} (h : ShiftFun L τ w) (a : Fin N → ℂ) :
    toepL L f (fun j => a (τ j)) = gConj (fun r : Fin (2 * f + 1) => w ^ ((r.val : ℤ) - f)) (toepL L f a) := by
  ext r c
  rw [gConj_apply]
  show L _ _ = _ * L _ _ * _
  rw [h.shift, ← _root_.zpow_neg, mul_right_comm, ← zpow_add₀ h.ne]
  congr 2
  ring

theorem genConv_shift {Nx Ny fx fy : ℕ} {Lx : (Fin Nx → ℂ) → ℤ → ℂ} {Ly : (Fin Ny → ℂ) → ℤ → ℂ} {τx : Fin Nx → Fin Nx}
    {τy : Fin Ny → Fin Ny} {wx wy : ℂ} (hx : ShiftFun Lx τx wx) (hy : ShiftFun Ly τy wy) (cx cy : Bool) (cell : Fin Nx → Fin Ny → ℂ) :
    genConv Lx Ly cx cy fx fy (fun x y => cell (τx x) (τy y))
      = (genConv Lx Ly cx cy fx fy cell).map (gConj (shiftD wx wy)) := by
  have hD : ∀ i : FlatIdx fx fy, shiftD wx wy i ≠ 0 := shiftD_ne hx.ne hy.ne
  have hDy : ∀ r : Fin (2 * fy + 1), wy ^ ((r.val : ℤ) - fy) ≠ 0 := fun r => zpow_ne_zero _ hy.ne
  have h1 : invRuleY cy (fun x y => cell (τx x) (τy y)) = (invRuleY cy cell).map fun c x y => c (τx x) (τy y) := by
    unfold invRuleY
    cases cy
    · simp only [Bool.false_eq_true, if_false]
      have : (∀ x y, cell (τx x) (τy y) ≠ 0) ↔ ∀ x y, cell x y ≠ 0 := by
        constructor
        · intro h x y
          obtain ⟨x, rfl⟩ := hx.bij.2 x
          obtain ⟨y, rfl⟩ := hy.bij.2 y
          exact h x y
        · exact fun h x y => h _ _
      by_cases h : ∀ x y, cell x y ≠ 0
      · rw [if_pos h, if_pos (this.mpr h)]; rfl
      · rw [if_neg h, if_neg (fun h' => h (this.mp h'))]; rfl
    · rfl
  have h2 : ∀ (b : Bool) (a : Fin Nx → Matrix (Fin (2 * fy + 1)) (Fin (2 * fy + 1)) ℂ),
      invIf b (fun x => gConj (fun r : Fin (2 * fy + 1) => wy ^ ((r.val : ℤ) - fy)) (a (τx x)))
        = (invIf b a).map fun a x => gConj (fun r : Fin (2 * fy + 1) => wy ^ ((r.val : ℤ) - fy)) (a (τx x)) := by
    intro b a
    unfold invIf npInvStack
    cases b
    · rfl
    · simp only [if_true]
      have : (∀ x, IsUnit (gConj (fun r : Fin (2 * fy + 1) => wy ^ ((r.val : ℤ) - fy)) (a (τx x))).det) ↔ ∀ x, IsUnit (a x).det := by
        simp only [gConj_det hDy]
        constructor
        · intro h x
          obtain ⟨x, rfl⟩ := hx.bij.2 x
          exact h x
        · exact fun h x => h _
      by_cases h : ∀ x, IsUnit (a x).det
      · rw [if_pos h, if_pos (this.mpr h)]
        show _ = Except.ok _
        congr 1
        funext x
        exact gConj_inv hDy (h (τx x))
      · rw [if_neg h, if_neg (fun h' => h (this.mp h'))]; rfl
  have h3 : ∀ a : Fin Nx → Matrix (Fin (2 * fy + 1)) (Fin (2 * fy + 1)) ℂ,
      flatten4 (btoepL Lx fx (fun x => gConj (fun r : Fin (2 * fy + 1) => wy ^ ((r.val : ℤ) - fy)) (a (τx x))))
        = gConj (shiftD wx wy) (flatten4 (btoepL Lx fx a)) := by
    intro a
    ext r c
    rw [gConj_apply]
    simp only [flatten4, submatrix_apply, btoepL, of_apply, gConj_apply]
    set r' := finProdFinEquiv.symm r with hr
    set c' := finProdFinEquiv.symm c with hc
    have e : (fun x => wy ^ ((r'.1.val : ℤ) - fy) * a (τx x) r'.1 c'.1 * (wy ^ ((c'.1.val : ℤ) - fy))⁻¹)
        = fun x => (wy ^ ((r'.1.val : ℤ) - fy) * (wy ^ ((c'.1.val : ℤ) - fy))⁻¹) * (fun x => a x r'.1 c'.1) (τx x) := by
      funext x; ring
    rw [e, hx.hom, hx.shift (fun x => a x r'.1 c'.1)]
    have ey : ∀ i : FlatIdx fx fy, (((finProdFinEquiv.symm i).1.val : ℤ)) - fy = Spec.orderY i := fun i => rfl
    have ex : ∀ i : FlatIdx fx fy, (((finProdFinEquiv.symm i).2.val : ℤ)) - fx = Spec.orderX i := fun i => rfl
    have ex' : ((c'.2.val : ℤ)) - (r'.2.val : ℤ) = Spec.orderX c - Spec.orderX r := by
      rw [← ex, ← ex]; ring
    rw [hr, hc, ey, ey, ← hr, ← hc, ex']
    unfold shiftD
    rw [neg_sub, zpow_sub₀ hx.ne]
    field_simp
  unfold genConv
  rw [h1]
  cases hc : invRuleY cy cell with
  | error e => rfl
  | ok c =>
    show (invIf (cx ^^ cy) (fun x => toepL Ly fy (fun y => c (τx x) (τy y))) >>= _) = _
    simp only [toepL_shift hy]
    rw [h2 (cx ^^ cy) (fun x => toepL Ly fy (c x))]
    show _ = Except.map _ (invIf (cx ^^ cy) (fun x => toepL Ly fy (c x)) >>= _)
    cases invIf (cx ^^ cy) (fun x => toepL Ly fy (c x)) with
    | error e => rfl
    | ok a =>
      show (if cx then _ else _) = Except.map _ (if cx then _ else _)
      rw [h3]
      cases cx
      · simp only [Bool.false_eq_true, if_false]
        unfold npInv
        rw [gConj_det hD]
        by_cases hu : IsUnit (flatten4 (btoepL Lx fx a)).det
        · rw [if_pos hu, if_pos hu, gConj_inv hD hu]; rfl
        · rw [if_neg hu, if_neg hu]; rfl
      · rfl

theorem fromCell_shift {Nx Ny fx fy : ℕ} {Lx : (Fin Nx → ℂ) → ℤ → ℂ} {Ly : (Fin Ny → ℂ) → ℤ → ℂ} {τx : Fin Nx → Fin Nx}
    {τy : Fin Ny → Fin Ny} {wx wy : ℂ} (hx : ShiftFun Lx τx wx) (hy : ShiftFun Ly τy wy) {cell : Fin Nx → Fin Ny → ℂ}
    {c : Conv (FlatIdx fx fy)} {epz} (h : FromCell Lx Ly cell c epz) :
    FromCell Lx Ly (fun x y => cell (τx x) (τy y)) (c.gauge (shiftD wx wy)) (gConj (shiftD wx wy) epz) where
  hz := by rw [genConv_shift hx hy, h.hz]; rfl
  hy := by rw [genConv_shift hx hy, h.hy]; rfl
  hx := by rw [genConv_shift hx hy, h.hx]; rfl
  hu := by rw [gConj_det (shiftD_ne hx.ne hy.ne)]; exact h.hu
  hi := by
    show gConj _ c.epzi = _
    rw [h.hi, gConj_inv (shiftD_ne hx.ne hy.ne) h.hu]

/-- A shifted raster. -/
abbrev Raster.roll (sy sx : ℕ) (l : Raster) : Raster := ⟨l.ny, l.nx, Spec.roll sy sx l.val⟩

theorem mod_mul_div {n k : ℕ} (hk : 0 < k) (i s : ℕ) : (i + s * k) % (n * k) / k = (i / k + s) % n := by
  rw [mul_comm n k, Nat.mod_mul_right_div_self, Nat.add_mul_div_right _ _ hk]

theorem rollIdx_divNat {n k : ℕ} (s : ℕ) (i : Fin (n * k)) : (rollIdx (s * k) i).divNat = rollIdx s i.divNat := by
  apply Fin.ext
  have hk : 0 < k := by
    rcases Nat.eq_zero_or_pos k with h | h
    · subst h; exact absurd i.isLt (by simp)
    · exact h
  simp only [rollIdx, Fin.coe_divNat]
  exact mod_mul_div hk _ _

theorem repeatRows_roll (l : Raster) (sy sx k : ℕ) : (l.roll sy sx).repeatRows k = (l.repeatRows k).roll (sy * k) sx := by
  unfold Raster.repeatRows Raster.roll Spec.roll
  simp only [rollIdx_divNat]

theorem repeatCols_roll (l : Raster) (sy sx k : ℕ) : (l.roll sy sx).repeatCols k = (l.repeatCols k).roll sy (sx * k) := by
  unfold Raster.repeatCols Raster.roll Spec.roll
  simp only [rollIdx_divNat]

theorem rootZ_repeat {N k : ℕ} (hk : 0 < k) (s : ℕ) : rootZ (N * k) 1 ^ (s * k) = rootZ N 1 ^ s := by
  unfold rootZ
  rw [← Complex.exp_nat_mul, ← Complex.exp_nat_mul]
  congr 1
  have : ((k : ℂ)) ≠ 0 := Nat.cast_ne_zero.mpr hk.ne'
  push_cast
  rw [mul_neg, mul_neg]
  congr 1
  by_cases hN : ((N : ℂ)) = 0
  · rw [hN]; simp
  · field_simp

theorem enlarge_roll (l : Raster) (sy sx fx fy : ℕ) (enh : Bool) :
    ∃ ty tx, enlarge (l.roll sy sx) fx fy enh = (enlarge l fx fy enh).roll ty tx ∧
      rootZ (enlarge l fx fy enh).ny 1 ^ ty = rootZ l.ny 1 ^ sy ∧ rootZ (enlarge l fx fy enh).nx 1 ^ tx = rootZ l.nx 1 ^ sx := by
  have hr : ∀ (l : Raster) (sy sx : ℕ) (b : Prop) [Decidable b] (k : ℕ), ∃ ty, (if b then (l.roll sy sx).repeatRows (k + 1) else l.roll sy sx)
      = (if b then l.repeatRows (k + 1) else l).roll ty sx ∧ rootZ (if b then l.repeatRows (k + 1) else l).ny 1 ^ ty = rootZ l.ny 1 ^ sy := by
    intro l sy sx b _ k
    by_cases h : b
    · simp only [if_pos h]
      exact ⟨_, repeatRows_roll l sy sx (k + 1), rootZ_repeat (Nat.succ_pos k) sy⟩
    · simp only [if_neg h]
      exact ⟨sy, rfl, rfl⟩
  have hc : ∀ (l : Raster) (sy sx : ℕ) (b : Prop) [Decidable b] (k : ℕ), ∃ tx, (if b then (l.roll sy sx).repeatCols (k + 1) else l.roll sy sx)
      = (if b then l.repeatCols (k + 1) else l).roll sy tx ∧ rootZ (if b then l.repeatCols (k + 1) else l).nx 1 ^ tx = rootZ l.nx 1 ^ sx ∧
        (if b then l.repeatCols (k + 1) else l).ny = l.ny := by
    intro l sy sx b _ k
    by_cases h : b
    · simp only [if_pos h]
      exact ⟨_, repeatCols_roll l sy sx (k + 1), rootZ_repeat (Nat.succ_pos k) sx, rfl⟩
    · simp only [if_neg h]
      exact ⟨sx, rfl, rfl, trivial⟩
  unfold enlarge
  simp only
  obtain ⟨ty, e1, e2⟩ := hr l sy sx (l.ny < if enh then (4 * fy + 1) * l.ny else 4 * fy + 1)
    ((if enh then (4 * fy + 1) * l.ny else 4 * fy + 1) / l.ny)
  rw [e1]
  have e3 : (if l.ny < (if enh then (4 * fy + 1) * l.ny else 4 * fy + 1) then
      l.repeatRows ((if enh then (4 * fy + 1) * l.ny else 4 * fy + 1) / l.ny + 1) else l).nx = l.nx := by
    generalize (if enh then (4 * fy + 1) * l.ny else 4 * fy + 1) = q
    split <;> rfl
  generalize (if l.ny < (if enh then (4 * fy + 1) * l.ny else 4 * fy + 1) then
      l.repeatRows ((if enh then (4 * fy + 1) * l.ny else 4 * fy + 1) / l.ny + 1) else l) = l1 at *
  obtain ⟨tx, e4, e5, e6⟩ := hc l1 ty sx (l1.nx < if enh then (4 * fx + 1) * l.nx else 4 * fx + 1)
    ((if enh then (4 * fx + 1) * l.nx else 4 * fx + 1) / l1.nx)
  refine ⟨ty, tx, e4, ?_, ?_⟩
  · rw [e6]; exact e2
  · rw [e5, e3]

theorem convDiscrete_shift {la : LinAlg} {l : Raster} {fx fy : ℕ} {enh : Bool} {c : Conv (FlatIdx fx fy)} (sy sx : ℕ)
    (h : convDiscrete la l fx fy enh false = .ok c) :
    convDiscrete la (l.roll sy sx) fx fy enh false = .ok (c.gauge (shiftD (rootZ l.nx 1 ^ sx) (rootZ l.ny 1 ^ sy))) := by
  obtain ⟨h1, h2, epz, hf⟩ := convDiscrete_fromCell.mp h
  obtain ⟨ty, tx, e, ey, ex⟩ := enlarge_roll l sy sx fx fy enh
  refine convDiscrete_fromCell.mpr ?_
  rw [e]
  have := fromCell_shift (dft_shift (N := (enlarge l fx fy enh).nx) (by omega) tx)
    (dft_shift (N := (enlarge l fx fy enh).ny) (by omega) ty) hf
  rw [ex, ey] at this
  exact ⟨h1, h2, _, this⟩

theorem rollIdx_rev {N : ℕ} (s : ℕ) (i : Fin N) : rollIdx s i.rev = (rollIdx (N - s % N) i).rev := by
  apply Fin.ext
  have hi := i.isLt
  simp only [rollIdx, Fin.val_rev]
  have hN : 0 < N := by omega
  have hs := Nat.mod_lt s hN
  rw [Nat.add_mod (N - (i.val + 1)) s N, Nat.mod_eq_of_lt (show N - (i.val + 1) < N by omega)]
  generalize s % N = t at *
  have hm : ∀ a, a < 2 * N → a % N = if a < N then a else a - N := by
    intro a ha
    split
    · exact Nat.mod_eq_of_lt (by assumption)
    · rw [Nat.mod_eq_sub_mod (by omega), Nat.mod_eq_of_lt (by omega)]
  rw [hm _ (by omega), hm _ (by omega)]
  split <;> split <;> omega

theorem rootZ_rev {N : ℕ} (hN : N ≠ 0) (s : ℕ) : rootZ N 1 ^ (N - s % N) = (rootZ N 1 ^ s)⁻¹ := by
  have h : rootZ N 1 ^ s = rootZ N 1 ^ (s % N) := pow_eq_pow_mod _ (rootZ_pow hN 1)
  have hs : s % N < N := Nat.mod_lt _ (Nat.pos_of_ne_zero hN)
  rw [h]
  refine eq_inv_of_mul_eq_one_left ?_
  rw [← pow_add, Nat.sub_add_cancel hs.le, rootZ_pow hN]

theorem convRaster_shift {la : LinAlg} {l : Raster} (hy : 0 < l.ny) (hx : 0 < l.nx) {fx fy : ℕ} {c : Conv (FlatIdx fx fy)} (sy sx : ℕ)
    (h : convRasterContinuous la l fx fy false = .ok c) :
    convRasterContinuous la (l.roll sy sx) fx fy false
      = .ok (c.gauge (shiftD (rootZ l.nx 1 ^ sx) (rootZ l.ny 1 ^ sy)⁻¹)) := by
  have : NeZero l.ny := ⟨hy.ne'⟩
  have : NeZero l.nx := ⟨hx.ne'⟩
  obtain ⟨epz, hf⟩ := convRaster_fromCell.mp h
  refine (convRaster_fromCell (c := l.roll sy sx)).mpr ?_
  have := fromCell_shift (pix_shift (N := l.nx) sx) (pix_shift (N := l.ny) (l.ny - sy % l.ny)) hf
  rw [rootZ_rev hy.ne'] at this
  simp only [Spec.roll, rollIdx_rev]
  exact ⟨_, this⟩

theorem mapM_map_ok {α β γ : Type} {f : α → Res β} {f' : α → Res γ} {g : β → γ} (t : α → α)
    (l : List α) (h : ∀ a ∈ l, ∀ b, f a = .ok b → f' (t a) = .ok (g b)) {bs : List β} (hl : l.mapM f = .ok bs) :
    (l.map t).mapM f' = .ok (bs.map g) := by
  induction l generalizing bs with
  | nil =>
    simp only [List.mapM_nil] at hl
    obtain rfl := Except.ok.inj hl
    rfl
  | cons a l ih =>
    simp only [List.mapM_cons, Except.bind_ok] at hl
    obtain ⟨b, hb, bs', hbs, e⟩ := hl
    obtain rfl := Except.ok.inj e
    simp only [List.map_cons, List.mapM_cons, h a List.mem_cons_self b hb, ih (fun a ha => h a (List.mem_cons_of_mem _ ha)) hbs]
    rfl

/-- The phase of a shift in the y direction depends on the Fourier type: the continuous path flips the image. -/
noncomputable def shiftWy (ft : ℤ) (ny sy : ℕ) : ℂ := if ft = 0 then rootZ ny 1 ^ sy else (rootZ ny 1 ^ sy)⁻¹

theorem convMats_shift {la : LinAlg} {s : Settings} (hp : s.p.use_pinv = false) {u : Ucell} (hu : s.ucell = .raster u)
    (hy : 0 < u.ny) (hx : 0 < u.nx) (sy sx : ℕ) {cs} (h : convMats la s = .ok cs) :
    convMats la (Spec.withUcell s (.raster (Spec.rollAll sy sx u)))
      = .ok (cs.map (Conv.gauge (shiftD (rootZ u.nx 1 ^ sx) (shiftWy s.fourier_type u.ny sy)))) := by
  have hr : (Spec.rollAll sy sx u).rasters = u.rasters.map (Raster.roll sy sx) := by
    unfold Ucell.rasters
    simp only [List.map_map]
    rfl
  have hdim : ∀ l ∈ u.rasters, l.ny = u.ny ∧ l.nx = u.nx := by
    intro l hl
    unfold Ucell.rasters at hl
    obtain ⟨a, -, rfl⟩ := List.mem_map.mp hl
    exact ⟨rfl, rfl⟩
  unfold convMats at h ⊢
  rw [hu] at h
  simp only [hp] at h ⊢
  unfold shiftWy
  by_cases h0 : s.fourier_type = 0
  · simp only [if_pos h0] at h ⊢
    unfold to_conv_mat_raster_discrete at h ⊢
    rw [hr]
    refine mapM_map_ok _ _ (fun l hl b hb => ?_) h
    have := convDiscrete_shift sy sx hb
    rw [(hdim l hl).1, (hdim l hl).2] at this
    exact this
  · by_cases h1 : s.fourier_type = 1
    · simp only [if_neg h0, if_pos h1] at h ⊢
      unfold to_conv_mat_raster_continuous at h ⊢
      rw [hr]
      refine mapM_map_ok _ _ (fun l hl b hb => ?_) h
      have := convRaster_shift (by rw [(hdim l hl).1]; exact hy) (by rw [(hdim l hl).2]; exact hx) sy sx hb
      rw [(hdim l hl).1, (hdim l hl).2] at this
      exact this
    · simp only [if_neg h0, if_neg h1] at h
      cases h

theorem shiftWy_ne (ft : ℤ) (ny sy : ℕ) : shiftWy ft ny sy ≠ 0 := by
  unfold shiftWy
  have := pow_ne_zero sy (rootZ_ne ny 1)
  split
  · exact this
  · exact inv_ne_zero this

theorem norm_shiftWy (ft : ℤ) (ny sy : ℕ) : ‖shiftWy ft ny sy‖ = 1 := by
  unfold shiftWy
  split
  · rw [norm_pow, norm_rootZ, one_pow]
  · rw [norm_inv, norm_pow, norm_rootZ, one_pow, inv_one]

theorem norm_shiftD {fx fy : ℕ} {wx wy : ℂ} (hx : ‖wx‖ = 1) (hy : ‖wy‖ = 1) (i : FlatIdx fx fy) : ‖shiftD wx wy i‖ = 1 := by
  unfold shiftD
  rw [norm_mul, norm_zpow, norm_zpow, hx, hy, _root_.one_zpow, _root_.one_zpow, one_mul]

theorem shiftD_delta {fx fy : ℕ} (wx wy : ℂ) (i : FlatIdx fx fy) : shiftD wx wy i * deltaI0 i = deltaI0 i := by
  obtain ⟨⟨j, k⟩, rfl⟩ := finProdFinEquiv.surjective i
  rw [deltaI0_order]
  split
  · rename_i h
    have h1 : Spec.orderX (finProdFinEquiv (j, k) : FlatIdx fx fy) = Spec.colOrder k := by
      show (((finProdFinEquiv.symm (finProdFinEquiv (j, k) : FlatIdx fx fy)).2.val : ℤ)) - fx = _
      rw [Equiv.symm_apply_apply]; rfl
    have h2 : Spec.orderY (finProdFinEquiv (j, k) : FlatIdx fx fy) = Spec.rowOrder j := by
      show (((finProdFinEquiv.symm (finProdFinEquiv (j, k) : FlatIdx fx fy)).1.val : ℤ)) - fy = _
      rw [Equiv.symm_apply_apply]; rfl
    unfold shiftD
    rw [h1, h2, h.1, h.2, zpow_zero, zpow_zero, one_mul, one_mul]
  · rw [mul_zero]

theorem effOf_unit {z : ℂ} (hz : ‖z‖ = 1) (r w : ℂ) : effOf (z * r) w = effOf r w := by
  rw [effOf_eq, effOf_eq, Complex.normSq_mul, Complex.normSq_eq_norm_sq, hz, one_pow, one_mul]

/-- Amplitudes that differ by unimodular factors give the same efficiencies. -/
theorem scaled_sameEff {ny nx : ℕ} {D : Fin ny → Fin nx → ℂ} (hD : ∀ j i, ‖D j i‖ = 1) {a b c e : Fin ny → Fin nx → ℂ}
    {r r' : SubRes ny nx} (h : r.Scaled D r') (hr : EffBy a b c e r) (hr' : EffBy a b c e r') : Spec.SameEff r r' := by
  have h1 : r'.de_ri_s = r.de_ri_s := by funext j i; rw [hr.ri_s, hr'.ri_s, h.R_s, effOf_unit (hD j i)]
  have h2 : r'.de_ri_p = r.de_ri_p := by funext j i; rw [hr.ri_p, hr'.ri_p, h.R_p, effOf_unit (hD j i)]
  have h3 : r'.de_ti_s = r.de_ti_s := by funext j i; rw [hr.ti_s, hr'.ti_s, h.T_s, effOf_unit (hD j i)]
  have h4 : r'.de_ti_p = r.de_ti_p := by funext j i; rw [hr.ti_p, hr'.ti_p, h.T_p, effOf_unit (hD j i)]
  refine ⟨h1, h2, ?_, h3, h4, ?_⟩
  · funext j i; rw [hr.ri, hr'.ri, h1, h2]
  · funext j i; rw [hr.ti, hr'.ti, h3, h4]

end Meent
