import Verif.Lemmas.AxesConv
import Verif.Lemmas.Scale
import Verif.Spec.Tile

/-!
# Convolution matrices of a cell with several periods (helper lemmas)
-/

open Matrix

namespace Meent

set_option linter.unusedSectionVars false
set_option linter.unusedSimpArgs false

section
variable {m m' : Type} [Fintype m] [Fintype m'] [DecidableEq m] [DecidableEq m']

/-- The vector `v` placed at the indices `J`, zero elsewhere. -/
noncomputable abbrev place (J : m → m') (v : m → ℂ) : m' → ℂ := Function.extend J v 0

/-- The columns `J` of `M'` are the columns of `M`, placed at `J`. -/
def Emb (J : m → m') (M' : Matrix m' m' ℂ) (M : Matrix m m ℂ) : Prop :=
  ∀ r' c, M' r' (J c) = place J (fun r => M r c) r'

theorem place_in {J : m → m'} (hJ : Function.Injective J) (v : m → ℂ) (i : m) : place J v (J i) = v i := hJ.extend_apply _ _ _

theorem place_out {J : m → m'} (v : m → ℂ) {i : m'} (h : ¬ ∃ a, J a = i) : place J v i = 0 := Function.extend_apply' _ _ _ h

theorem place_inj {J : m → m'} (hJ : Function.Injective J) {v w : m → ℂ} (h : place J v = place J w) : v = w := by
  funext i
  rw [← place_in hJ v, h, place_in hJ]

theorem place_zero (J : m → m') : place J 0 = 0 := by
  funext i
  by_cases h : ∃ a, J a = i
  · unfold place Function.extend
    rw [dif_pos h]; rfl
  · exact place_out _ h

theorem sum_place {J : m → m'} (hJ : Function.Injective J) (g : m' → ℂ) (v : m → ℂ) :
    ∑ c', g c' * place J v c' = ∑ c, g (J c) * v c := by
  classical
  rw [← Finset.sum_subset (Finset.subset_univ (Finset.univ.image J)), Finset.sum_image (fun a _ b _ h => hJ h)]
  · exact Finset.sum_congr rfl fun c _ => by rw [place_in hJ]
  · intro c' _ hc
    rw [place_out v (fun ⟨a, ha⟩ => hc (Finset.mem_image.mpr ⟨a, Finset.mem_univ _, ha⟩)), mul_zero]

theorem Emb.mulVec {J : m → m'} (hJ : Function.Injective J) {M' : Matrix m' m' ℂ} {M : Matrix m m ℂ} (h : Emb J M' M) (v : m → ℂ) :
    M' *ᵥ place J v = place J (M *ᵥ v) := by
  funext r'
  show ∑ c', M' r' c' * place J v c' = _
  rw [sum_place hJ]
  simp only [h r']
  by_cases hr : ∃ a, J a = r'
  · obtain ⟨a, rfl⟩ := hr
    simp only [place_in hJ]
    rfl
  · simp only [place_out _ hr, zero_mul, Finset.sum_const_zero]

theorem emb_of_mulVec {J : m → m'} (hJ : Function.Injective J) {M' : Matrix m' m' ℂ} {M : Matrix m m ℂ}
    (h : ∀ v, M' *ᵥ place J v = place J (M *ᵥ v)) : Emb J M' M := by
  intro r' c
  have e := congrFun (h (Pi.single c 1)) r'
  rw [mulVec_single_one] at e
  rw [show M.col c = fun r => M r c from rfl] at e
  rw [← e]
  show _ = ∑ c', M' r' c' * place J _ c'
  rw [sum_place hJ]
  simp [Pi.single_apply]

theorem Emb.inv {J : m → m'} (hJ : Function.Injective J) {M' : Matrix m' m' ℂ} {M : Matrix m m ℂ} (h : Emb J M' M)
    (hu : IsUnit M'.det) : IsUnit M.det ∧ Emb J M'⁻¹ M⁻¹ := by
  have hM : IsUnit M.det := by
    rw [isUnit_iff_ne_zero]
    intro h0
    obtain ⟨v, hv, hv0⟩ := exists_mulVec_eq_zero_iff.mpr h0
    apply hv
    have e := h.mulVec hJ v
    rw [hv0, place_zero] at e
    have e2 : place J v = 0 := by
      rw [← one_mulVec (place J v), ← nonsing_inv_mul _ hu, ← mulVec_mulVec, e, mulVec_zero]
    rw [← place_zero J] at e2
    exact place_inj hJ e2
  refine ⟨hM, emb_of_mulVec hJ fun v => ?_⟩
  have e := h.mulVec hJ (M⁻¹ *ᵥ v)
  rw [mulVec_mulVec, mul_nonsing_inv _ hM, one_mulVec] at e
  rw [← e, mulVec_mulVec, nonsing_inv_mul _ hu, one_mulVec]

end

theorem modNat_pair {t N : ℕ} (q : Fin t) (r : Fin N) : (finProdFinEquiv (q, r)).modNat = r :=
  (Prod.mk.inj (finProdFinEquiv.symm_apply_apply (q, r))).2

/-- Coefficients of a repeated sequence. -/
def TileFun {N t : ℕ} (L : (Fin N → ℂ) → ℤ → ℂ) (L' : (Fin (t * N) → ℂ) → ℤ → ℂ) : Prop :=
  ∀ (a : Fin N → ℂ) (m : ℤ), L' (fun j => a j.modNat) m = if (t : ℤ) ∣ m then L a (m / t) else 0

theorem dft_tile {N t : ℕ} (ht : 0 < t) (hN : 0 < N) : TileFun (t := t) (Spec.dftCoeff (N := N)) Spec.dftCoeff := by
  intro a m
  have hNc : (N : ℂ) ≠ 0 := Nat.cast_ne_zero.mpr hN.ne'
  have htc : (t : ℂ) ≠ 0 := Nat.cast_ne_zero.mpr ht.ne'
  unfold Spec.dftCoeff
  have hsum : ∑ y : Fin (t * N), a y.modNat * Complex.exp (-(2 * Real.pi * Complex.I * (m : ℂ) * (y.val : ℂ) / ((t * N : ℕ) : ℂ)))
      = (∑ q : Fin t, rootZ t m ^ q.val) * ∑ r : Fin N, a r * Complex.exp (-(2 * Real.pi * Complex.I * (m : ℂ) * (r.val : ℂ) / ((t * N : ℕ) : ℂ))) := by
    rw [← Equiv.sum_comp finProdFinEquiv, Fintype.sum_prod_type, Finset.sum_mul]
    refine Finset.sum_congr rfl fun q _ => ?_
    rw [Finset.mul_sum]
    refine Finset.sum_congr rfl fun r _ => ?_
    rw [modNat_pair, mul_left_comm]
    congr 1
    rw [rootZ, ← Complex.exp_nat_mul, ← Complex.exp_add]
    congr 1
    rw [finProdFinEquiv_apply_val]
    push_cast
    field_simp
    ring
  rw [hsum]
  split_ifs with hd
  · obtain ⟨k, rfl⟩ := hd
    have h1 : rootZ t ((t : ℤ) * k) = 1 := by
      rw [rootZ_zpow, _root_.zpow_mul, _root_.zpow_natCast, rootZ_pow ht.ne', _root_.one_zpow]
    rw [Int.mul_ediv_cancel_left _ (by exact_mod_cast ht.ne'), h1]
    simp only [one_pow, Finset.sum_const, Finset.card_univ, Fintype.card_fin, nsmul_eq_mul, mul_one]
    push_cast
    rw [mul_div_mul_left _ _ htc]
    congr 1
    refine Finset.sum_congr rfl fun r _ => ?_
    congr 2
    field_simp
  · have h1 : rootZ t m ≠ 1 := by
      intro h1
      apply hd
      unfold rootZ at h1
      rw [Complex.exp_eq_one_iff] at h1
      obtain ⟨n, hn⟩ := h1
      refine ⟨-n, ?_⟩
      have hpi : (2 * Real.pi * Complex.I : ℂ) ≠ 0 := Complex.two_pi_I_ne_zero
      have : (m : ℂ) = (t : ℂ) * (-n : ℤ) := by
        push_cast
        field_simp at hn
        apply mul_left_cancel₀ hpi
        linear_combination (-(2 * Real.pi * Complex.I)) * hn
      exact_mod_cast this
    have h2 : ∑ q : Fin t, rootZ t m ^ q.val = 0 := by
      rw [Fin.sum_univ_eq_sum_range (fun i => rootZ t m ^ i) t, geom_sum_eq h1, rootZ_pow ht.ne', sub_self, zero_div]
    rw [h2, zero_mul, zero_div]

theorem pix_tile {N t : ℕ} (ht : 0 < t) [NeZero N] [NeZero (t * N)] : TileFun (t := t) (pixL N) (pixL (t * N)) := by
  intro a m
  rw [pixL_eq, dft_tile ht (Nat.pos_of_ne_zero (NeZero.ne N))]
  split_ifs with hd
  · obtain ⟨k, rfl⟩ := hd
    rw [Int.mul_ediv_cancel_left _ (by exact_mod_cast ht.ne'), pixL_eq]
    congr 1
    have htc : (t : ℂ) ≠ 0 := Nat.cast_ne_zero.mpr ht.ne'
    have hNc : (N : ℂ) ≠ 0 := Nat.cast_ne_zero.mpr (NeZero.ne N)
    have hr : rootZ (t * N) ((t : ℤ) * k) = rootZ N k := by
      unfold rootZ
      congr 1
      push_cast
      field_simp
    unfold pixKappa
    by_cases hk : k = 0
    · rw [if_pos hk, if_pos (by rw [hk, mul_zero])]
    · rw [if_neg hk, if_neg (mul_ne_zero (by exact_mod_cast ht.ne') hk), hr]
      have hkc : (k : ℂ) ≠ 0 := Int.cast_ne_zero.mpr hk
      have hpi : (Real.pi : ℂ) ≠ 0 := by exact_mod_cast Real.pi_ne_zero
      push_cast
      field_simp
  · rw [mul_zero]

/-- Position of the orders of the structure among those of the larger cell. -/
def tileIdx (t f f' : ℕ) (h : Spec.SameOrders t f f') (i : Fin (2 * f + 1)) : Fin (2 * f' + 1) :=
  ⟨t * i.val + f' % t, by
    unfold Spec.SameOrders at h
    have h1 := Nat.div_add_mod f' t
    rw [h] at h1
    have h2 : t * i.val ≤ t * (2 * f) := Nat.mul_le_mul_left _ (by have := i.isLt; omega)
    have h3 : t * (2 * f) = 2 * (t * f) := by ring
    omega⟩

section
variable {t f f' : ℕ} {h : Spec.SameOrders t f f'}

theorem tileIdx_inj (ht : 0 < t) : Function.Injective (tileIdx t f f' h) := by
  intro a b hab
  have : t * a.val + f' % t = t * b.val + f' % t := congrArg Fin.val hab
  exact Fin.ext (Nat.eq_of_mul_eq_mul_left ht (by omega))

theorem tileIdx_order (i : Fin (2 * f + 1)) : ((tileIdx t f f' h i).val : ℤ) - f' = t * ((i.val : ℤ) - f) := by
  have h1 : (t : ℤ) * (f' / t : ℕ) + (f' % t : ℕ) = f' := by exact_mod_cast Nat.div_add_mod f' t
  have h0 : f' / t = f := h
  rw [h0] at h1
  show ((t * i.val + f' % t : ℕ) : ℤ) - f' = _
  push_cast at h1 ⊢
  linarith

theorem tileIdx_range (ht : 0 < t) (j : Fin (2 * f' + 1)) : (∃ i, tileIdx t f f' h i = j) ↔ (t : ℤ) ∣ (j.val : ℤ) - f' := by
  constructor
  · rintro ⟨i, rfl⟩
    exact ⟨_, tileIdx_order i⟩
  · rintro ⟨k, hk⟩
    have h0 : f' / t = f := h
    have h1 : (t : ℤ) * f + (f' % t : ℕ) = f' := by
      have : (t : ℤ) * (f' / t : ℕ) + (f' % t : ℕ) = f' := by exact_mod_cast Nat.div_add_mod f' t
      rwa [h0] at this
    have h2 : (f' % t : ℕ) < (t : ℤ) := by exact_mod_cast Nat.mod_lt f' ht
    have hj := j.isLt
    have hj' : (j.val : ℤ) = t * (k + f) + (f' % t : ℕ) := by linarith
    have htz : (0 : ℤ) < t := by exact_mod_cast ht
    have lo : 0 ≤ k + f := by
      by_contra hneg
      push Not at hneg
      have : (t : ℤ) * (k + f) ≤ t * (-1) := mul_le_mul_of_nonneg_left (by omega) htz.le
      have : (0 : ℤ) ≤ j.val := by omega
      linarith
    have hi : k + f < 2 * f + 1 := by
      by_contra hneg
      push Not at hneg
      have : (t : ℤ) * (2 * f + 1) ≤ t * (k + f) := mul_le_mul_of_nonneg_left hneg htz.le
      have h3 : (j.val : ℤ) ≤ 2 * f' := by omega
      have h4 : (0 : ℤ) ≤ (f' % t : ℕ) := by omega
      nlinarith
    refine ⟨⟨(k + f).toNat, by omega⟩, Fin.ext ?_⟩
    show t * (k + f).toNat + f' % t = j.val
    zify
    rw [Int.toNat_of_nonneg lo, hj']
    push_cast
    rfl

end

theorem modNat_surj {t N : ℕ} (ht : 0 < t) (x : Fin N) : ∃ y : Fin (t * N), y.modNat = x := by
  exact ⟨finProdFinEquiv (⟨0, ht⟩, x), modNat_pair _ _⟩

section
variable {tx ty fx fy fx' fy' Nx Ny : ℕ} {hx : Spec.SameOrders tx fx fx'} {hy : Spec.SameOrders ty fy fy'}

theorem toepL_emb (ht : 0 < ty) {L : (Fin Ny → ℂ) → ℤ → ℂ} {L' : (Fin (ty * Ny) → ℂ) → ℤ → ℂ} (hL : TileFun L L') (a : Fin Ny → ℂ) :
    Emb (tileIdx ty fy fy' hy) (toepL L' fy' fun j => a j.modNat) (toepL L fy a) := by
  intro r' c
  simp only [toepL, of_apply]
  rw [hL]
  have hc := tileIdx_order (h := hy) c
  have key : (ty : ℤ) ∣ ((tileIdx ty fy fy' hy c).val : ℤ) - r'.val ↔ ∃ i, tileIdx ty fy fy' hy i = r' := by
    rw [tileIdx_range ht, show ((tileIdx ty fy fy' hy c).val : ℤ) - r'.val = ty * ((c.val : ℤ) - fy) - ((r'.val : ℤ) - fy') by rw [← hc]; ring]
    exact dvd_sub_right ⟨_, rfl⟩
  by_cases hr : ∃ i, tileIdx ty fy fy' hy i = r'
  · rw [if_pos (key.mpr hr)]
    obtain ⟨r, rfl⟩ := hr
    rw [place_in (tileIdx_inj ht)]
    congr 1
    have hr := tileIdx_order (h := hy) r
    rw [show ((tileIdx ty fy fy' hy c).val : ℤ) - (tileIdx ty fy fy' hy r).val = ty * ((c.val : ℤ) - r.val) by linear_combination hc - hr,
      Int.mul_ediv_cancel_left _ (by exact_mod_cast ht.ne')]
  · rw [if_neg (fun h => hr (key.mp h)), place_out _ hr]

/-- Position of the order pairs of the structure. -/
def tileFlat (hx : Spec.SameOrders tx fx fx') (hy : Spec.SameOrders ty fy fy') (i : FlatIdx fx fy) : FlatIdx fx' fy' :=
  finProdFinEquiv (tileIdx ty fy fy' hy i.divNat, tileIdx tx fx fx' hx i.modNat)

theorem tileFlat_prod (j : Fin (2 * fy + 1)) (i : Fin (2 * fx + 1)) :
    tileFlat hx hy (finProdFinEquiv (j, i)) = finProdFinEquiv (tileIdx ty fy fy' hy j, tileIdx tx fx fx' hx i) := by
  unfold tileFlat
  rw [divNat_prod, modNat_prod]

theorem tileFlat_inj (htx : 0 < tx) (hty : 0 < ty) : Function.Injective (tileFlat hx hy) := by
  intro a b hab
  obtain ⟨⟨j, i⟩, rfl⟩ := finProdFinEquiv.surjective a
  obtain ⟨⟨j', i'⟩, rfl⟩ := finProdFinEquiv.surjective b
  rw [tileFlat_prod, tileFlat_prod] at hab
  have := finProdFinEquiv.injective hab
  rw [Prod.mk.injEq] at this
  rw [tileIdx_inj hty this.1, tileIdx_inj htx this.2]

theorem tileFlat_range (j' : Fin (2 * fy' + 1)) (i' : Fin (2 * fx' + 1)) :
    (∃ a, tileFlat hx hy a = finProdFinEquiv (j', i')) ↔ (∃ j, tileIdx ty fy fy' hy j = j') ∧ ∃ i, tileIdx tx fx fx' hx i = i' := by
  constructor
  · rintro ⟨a, ha⟩
    obtain ⟨⟨j, i⟩, rfl⟩ := finProdFinEquiv.surjective a
    rw [tileFlat_prod] at ha
    have := finProdFinEquiv.injective ha
    rw [Prod.mk.injEq] at this
    exact ⟨⟨j, this.1⟩, i, this.2⟩
  · rintro ⟨⟨j, rfl⟩, i, rfl⟩
    exact ⟨_, tileFlat_prod j i⟩

theorem btoepL_emb (htx : 0 < tx) (hty : 0 < ty) {L : (Fin Nx → ℂ) → ℤ → ℂ} {L' : (Fin (tx * Nx) → ℂ) → ℤ → ℂ} (hL : TileFun L L')
    (hL0 : HomFun L') {a : Fin Nx → Matrix (Fin (2 * fy + 1)) (Fin (2 * fy + 1)) ℂ}
    {a' : Fin (tx * Nx) → Matrix (Fin (2 * fy' + 1)) (Fin (2 * fy' + 1)) ℂ}
    (ha : ∀ x, Emb (tileIdx ty fy fy' hy) (a' x) (a x.modNat)) :
    Emb (tileFlat hx hy) (flatten4 (btoepL L' fx' a')) (flatten4 (btoepL L fx a)) := by
  intro r' c
  obtain ⟨⟨j', i'⟩, rfl⟩ := finProdFinEquiv.surjective r'
  obtain ⟨⟨jc, ic⟩, rfl⟩ := finProdFinEquiv.surjective c
  rw [tileFlat_prod]
  simp only [flatten4, submatrix_apply, Equiv.symm_apply_apply, btoepL, of_apply]
  have e : (fun x => a' x j' (tileIdx ty fy fy' hy jc)) = fun x => place (tileIdx ty fy fy' hy) (fun r => a x.modNat r jc) j' := by
    funext x
    exact ha x j' jc
  rw [e]
  by_cases hj : ∃ j, tileIdx ty fy fy' hy j = j'
  · obtain ⟨j, rfl⟩ := hj
    simp only [place_in (tileIdx_inj hty)]
    have T := toepL_emb (hy := hx) (fy' := fx') htx hL (fun x => a x j jc) i' ic
    simp only [toepL, of_apply] at T
    rw [T]
    by_cases hi : ∃ i, tileIdx tx fx fx' hx i = i'
    · obtain ⟨i, rfl⟩ := hi
      rw [place_in (tileIdx_inj htx), ← tileFlat_prod, place_in (tileFlat_inj htx hty)]
      simp only [Equiv.symm_apply_apply]
    · rw [place_out _ hi, place_out _ (fun h => hi ((tileFlat_range _ _).mp h).2)]
  · simp only [place_out _ hj]
    rw [place_out _ (fun h => hj ((tileFlat_range _ _).mp h).1)]
    have := hL0 0 (fun _ => 0) (((tileIdx tx fx fx' hx ic).val : ℤ) - i'.val)
    simpa using this

theorem genConv_emb (htx : 0 < tx) (hty : 0 < ty) {Lx : (Fin Nx → ℂ) → ℤ → ℂ} {Lx' : (Fin (tx * Nx) → ℂ) → ℤ → ℂ} (hLx : TileFun Lx Lx')
    (hx0 : HomFun Lx') {Ly : (Fin Ny → ℂ) → ℤ → ℂ} {Ly' : (Fin (ty * Ny) → ℂ) → ℤ → ℂ} (hLy : TileFun Ly Ly') {cx cy : Bool}
    {cell : Fin Nx → Fin Ny → ℂ} {M'} (h : genConv Lx' Ly' cx cy fx' fy' (fun x y => cell x.modNat y.modNat) = .ok M') :
    ∃ M, genConv Lx Ly cx cy fx fy cell = .ok M ∧ Emb (tileFlat hx hy) M' M := by
  unfold genConv at h ⊢
  rw [Except.bind_ok] at h
  obtain ⟨c', hc', h⟩ := h
  rw [Except.bind_ok] at h
  obtain ⟨a', ha', h⟩ := h
  obtain ⟨c, hc, e⟩ : ∃ c : Fin Nx → Fin Ny → ℂ, invRuleY cy cell = .ok c ∧ c' = fun x y => c x.modNat y.modNat := by
    unfold invRuleY at hc' ⊢
    cases cy
    · simp only [Bool.false_eq_true, if_false] at hc' ⊢
      split at hc'
      · rename_i hne
        refine ⟨_, if_pos fun x y => ?_, (Except.ok.inj hc').symm⟩
        obtain ⟨x', rfl⟩ := modNat_surj htx x
        obtain ⟨y', rfl⟩ := modNat_surj hty y
        exact hne x' y'
      · cases hc'
    · exact ⟨_, rfl, (Except.ok.inj hc').symm⟩
  subst e
  have T : ∀ x : Fin (tx * Nx), Emb (tileIdx ty fy fy' hy) (toepL Ly' fy' fun y => c x.modNat y.modNat) (toepL Ly fy (c x.modNat)) :=
    fun x => toepL_emb hty hLy _
  obtain ⟨a, ha, hE⟩ : ∃ a, invIf (cx ^^ cy) (fun x => toepL Ly fy (c x)) = .ok a ∧ ∀ x, Emb (tileIdx ty fy fy' hy) (a' x) (a x.modNat) := by
    unfold invIf at ha' ⊢
    split at ha'
    · rename_i hb
      rw [if_pos hb]
      unfold npInvStack at ha' ⊢
      split at ha'
      · rename_i hu
        obtain rfl := Except.ok.inj ha'
        refine ⟨_, if_pos fun x => ?_, fun x => ((T x).inv (tileIdx_inj hty) (hu x)).2⟩
        obtain ⟨x', rfl⟩ := modNat_surj htx x
        exact ((T x').inv (tileIdx_inj hty) (hu x')).1
      · cases ha'
    · rename_i hb
      obtain rfl := Except.ok.inj ha'
      exact ⟨_, if_neg hb, T⟩
  rw [hc, ok_bind, ha, ok_bind]
  have B := btoepL_emb (hx := hx) htx hty hLx hx0 hE
  split at h
  · rename_i hb
    obtain rfl := Except.ok.inj h
    exact ⟨_, if_pos hb, B⟩
  · rename_i hb
    rw [if_neg hb]
    obtain ⟨hu, rfl⟩ := npInv_ok.mp h
    obtain ⟨hu', B'⟩ := B.inv (tileFlat_inj htx hty) hu
    exact ⟨_, npInv_ok.mpr ⟨hu', rfl⟩, B'⟩

/-- The matrices of a layer with several periods hold those of the layer. -/
structure ConvEmb {m m' : Type} (J : m → m') (c' : Conv m') (c : Conv m) : Prop where
  epx : Emb J c'.epx c.epx
  epy : Emb J c'.epy c.epy
  epzi : Emb J c'.epzi c.epzi

theorem fromCell_emb (htx : 0 < tx) (hty : 0 < ty) {Lx : (Fin Nx → ℂ) → ℤ → ℂ} {Lx' : (Fin (tx * Nx) → ℂ) → ℤ → ℂ} (hLx : TileFun Lx Lx')
    (hx0 : HomFun Lx') {Ly : (Fin Ny → ℂ) → ℤ → ℂ} {Ly' : (Fin (ty * Ny) → ℂ) → ℤ → ℂ} (hLy : TileFun Ly Ly')
    {cell : Fin Nx → Fin Ny → ℂ} {c' : Conv (FlatIdx fx' fy')} {z'} (h : FromCell Lx' Ly' (fun x y => cell x.modNat y.modNat) c' z') :
    ∃ c z, FromCell Lx Ly cell c z ∧ ConvEmb (tileFlat hx hy) c' c := by
  obtain ⟨z, hz, ez⟩ := genConv_emb (hx := hx) (hy := hy) htx hty hLx hx0 hLy h.hz
  obtain ⟨y, hy', ey⟩ := genConv_emb (hx := hx) (hy := hy) htx hty hLx hx0 hLy h.hy
  obtain ⟨x, hx', ex⟩ := genConv_emb (hx := hx) (hy := hy) htx hty hLx hx0 hLy h.hx
  obtain ⟨u, eu⟩ := ez.inv (tileFlat_inj htx hty) h.hu
  refine ⟨⟨x, y, z⁻¹⟩, z, ⟨hz, hy', hx', u, rfl⟩, ex, ey, ?_⟩
  rw [h.hi]
  exact eu

/-- A raster with several periods. -/
abbrev Raster.tile (tx ty : ℕ) (l : Raster) : Raster := ⟨ty * l.ny, tx * l.nx, Spec.tiled tx ty l.val⟩

theorem rev_modNat {t N : ℕ} (y : Fin (t * N)) : y.rev.modNat = y.modNat.rev := by
  obtain ⟨⟨q, r⟩, rfl⟩ := finProdFinEquiv.surjective y
  rw [modNat_pair]
  have : (finProdFinEquiv (q, r)).rev = finProdFinEquiv (q.rev, r.rev) := by
    apply Fin.ext
    simp only [Fin.val_rev, finProdFinEquiv_apply_val]
    have hq := q.isLt
    have hr := r.isLt
    obtain ⟨k, hk⟩ : ∃ k, t = q.val + 1 + k := ⟨t - (q.val + 1), by omega⟩
    have e : t * N = N * q.val + N + N * k := by
      have : t * N = (q.val + 1 + k) * N := congrArg (· * N) hk
      rw [this]; ring
    have e2 : t - (q.val + 1) = k := by omega
    rw [e2, e]
    omega
  rw [this, modNat_pair]

theorem convRaster_emb (htx : 0 < tx) (hty : 0 < ty) {la la' : LinAlg} {l : Raster} (hny : 0 < l.ny) (hnx : 0 < l.nx)
    {c' : Conv (FlatIdx fx' fy')} (h : convRasterContinuous la' (l.tile tx ty) fx' fy' false = .ok c') :
    ∃ c, convRasterContinuous la l fx fy false = .ok c ∧ ConvEmb (tileFlat hx hy) c' c := by
  have : NeZero l.ny := ⟨hny.ne'⟩
  have : NeZero l.nx := ⟨hnx.ne'⟩
  have : NeZero (l.tile tx ty).ny := ⟨(Nat.mul_pos hty hny).ne'⟩
  have : NeZero (l.tile tx ty).nx := ⟨(Nat.mul_pos htx hnx).ne'⟩
  have : NeZero (ty * l.ny) := ⟨(Nat.mul_pos hty hny).ne'⟩
  have : NeZero (tx * l.nx) := ⟨(Nat.mul_pos htx hnx).ne'⟩
  obtain ⟨z', hf⟩ := convRaster_fromCell.mp h
  have e : (fun (x : Fin (tx * l.nx)) (y : Fin (ty * l.ny)) => (l.tile tx ty).val y.rev x ^ 2)
      = fun x y => (fun x y => l.val y.rev x ^ 2) x.modNat y.modNat := by
    funext x y
    show l.val y.rev.modNat x.modNat ^ 2 = _
    rw [rev_modNat]
  have hf' : FromCell (pixL (tx * l.nx)) (pixL (ty * l.ny)) (fun x y => (fun x y => l.val y.rev x ^ 2) x.modNat y.modNat) c' z' := e ▸ hf
  obtain ⟨c, z, hc, E⟩ := fromCell_emb (hx := hx) (hy := hy) htx hty (Lx := pixL l.nx) (Ly := pixL l.ny) (pix_tile htx) (cfsC_hom _ _) (pix_tile hty) (cell := fun x y => l.val y.rev x ^ 2) hf'
  exact ⟨c, convRaster_fromCell.mpr ⟨z, hc⟩, E⟩

theorem enlarge_none {l : Raster} {fx fy : ℕ} (h1 : 4 * fx < l.nx) (h2 : 4 * fy < l.ny) : enlarge l fx fy false = l := by
  unfold enlarge
  simp only [Bool.false_eq_true, if_false]
  have e : (if l.ny < 4 * fy + 1 then l.repeatRows ((4 * fy + 1) / l.ny + 1) else l) = l := if_neg (by omega)
  rw [e, if_neg (by omega)]

theorem convDiscrete_emb (htx : 0 < tx) (hty : 0 < ty) {la la' : LinAlg} {l : Raster} (h1 : 4 * fx' < tx * l.nx) (h2 : 4 * fy' < ty * l.ny)
    {c' : Conv (FlatIdx fx' fy')} (h : convDiscrete la' (l.tile tx ty) fx' fy' false false = .ok c') :
    ∃ c, convDiscrete la l fx fy false false = .ok c ∧ ConvEmb (tileFlat hx hy) c' c := by
  have small : ∀ {t f f' N : ℕ}, 0 < t → Spec.SameOrders t f f' → 4 * f' < t * N → 4 * f < N := by
    intro t f f' N ht hf hN
    have : t * f ≤ f' := by rw [← show f' / t = f from hf]; exact Nat.mul_div_le f' t
    by_contra hc
    push Not at hc
    have := Nat.mul_le_mul_left t hc
    nlinarith
  have s1 := small htx hx h1
  have s2 := small hty hy h2
  obtain ⟨-, -, z', hf⟩ := convDiscrete_fromCell.mp h
  rw [enlarge_none (l := l.tile tx ty) h1 h2] at hf
  have hf' : FromCell (Spec.dftCoeff (N := tx * l.nx)) (Spec.dftCoeff (N := ty * l.ny)) (fun x y => (fun x y => l.sq.val y x) x.modNat y.modNat) c' z' := hf
  obtain ⟨c, z, hc, E⟩ := fromCell_emb (hx := hx) (hy := hy) htx hty (dft_tile (N := l.nx) htx (Nat.lt_of_le_of_lt (Nat.zero_le _) s1)) dft_hom
    (dft_tile (N := l.ny) hty (Nat.lt_of_le_of_lt (Nat.zero_le _) s2)) (cell := fun x y => l.sq.val y x) hf'
  refine ⟨c, convDiscrete_fromCell.mpr ?_, E⟩
  rw [enlarge_none s1 s2]
  exact ⟨by omega, by omega, z, hc⟩

end

/-- The matrices of the larger cell. -/
theorem convMats_emb {la la' : LinAlg} {s : Settings} (hp : s.p.use_pinv = false) {u : Ucell} (hu : s.ucell = .raster u)
    (hny : 0 < u.ny) (hnx : 0 < u.nx) {tx ty : ℕ} (htx : 0 < tx) (hty : 0 < ty) {fto' : ℕ × ℕ} (hx : Spec.SameOrders tx s.p.fto.1 fto'.1)
    (hy : Spec.SameOrders ty s.p.fto.2 fto'.2)
    (hft : s.fourier_type = 1 ∨ Spec.EnoughPixels (Spec.supercell s u tx ty fto') (Spec.tileAll tx ty u)) {cs'}
    (h : convMats la' (Spec.supercell s u tx ty fto') = .ok cs') :
    ∃ cs, convMats la s = .ok cs ∧ List.Forall₂ (ConvEmb (tileFlat hx hy)) cs' cs := by
  have hr : (Spec.tileAll tx ty u).rasters = u.rasters.map (Raster.tile tx ty) := by
    unfold Ucell.rasters
    simp only [List.map_map]
    rfl
  have hdim : ∀ l ∈ u.rasters, l.ny = u.ny ∧ l.nx = u.nx := by
    intro l hl
    unfold Ucell.rasters at hl
    obtain ⟨a, ha, rfl⟩ := List.mem_map.mp hl
    exact ⟨rfl, rfl⟩
  have lift : ∀ (F : Raster → Res (Conv (FlatIdx s.p.fto.1 s.p.fto.2))) (F' : Raster → Res (Conv (FlatIdx fto'.1 fto'.2))) (ls : List Raster),
      (∀ l ∈ ls, ∀ c', F' (l.tile tx ty) = .ok c' → ∃ c, F l = .ok c ∧ ConvEmb (tileFlat hx hy) c' c) →
      ∀ {cs'}, (ls.map (Raster.tile tx ty)).mapM F' = .ok cs' → ∃ cs, ls.mapM F = .ok cs ∧ List.Forall₂ (ConvEmb (tileFlat hx hy)) cs' cs := by
    intro F F' ls
    induction ls with
    | nil =>
      intro _ cs' h
      obtain rfl : [] = cs' := Except.ok.inj h
      exact ⟨[], rfl, .nil⟩
    | cons l ls ih =>
      intro H cs' h
      rw [List.map_cons, List.mapM_cons] at h
      simp only [Except.bind_ok] at h
      obtain ⟨c', hc', ds', hds', e⟩ := h
      obtain rfl := Except.ok.inj e
      obtain ⟨c, hc, E⟩ := H l List.mem_cons_self c' hc'
      obtain ⟨ds, hds, E'⟩ := ih (fun l hl => H l (List.mem_cons_of_mem _ hl)) hds'
      refine ⟨c :: ds, ?_, .cons E E'⟩
      rw [List.mapM_cons, hc, ok_bind, hds, ok_bind]
      rfl
  unfold convMats at h ⊢
  rw [hu]
  simp only [hp] at h ⊢
  by_cases h0 : s.fourier_type = 0
  · obtain ⟨he, h1, h2⟩ := hft.resolve_left (by omega)
    simp only at he h1 h2
    simp only [if_pos h0] at h ⊢
    unfold to_conv_mat_raster_discrete at h ⊢
    rw [hr] at h
    refine lift _ _ _ (fun l hl c' hc' => ?_) h
    rw [he] at hc' ⊢
    exact convDiscrete_emb htx hty (by rw [(hdim l hl).2]; exact h1) (by rw [(hdim l hl).1]; exact h2) hc'
  · by_cases h1 : s.fourier_type = 1
    · simp only [if_neg h0, if_pos h1] at h ⊢
      unfold to_conv_mat_raster_continuous at h ⊢
      rw [hr] at h
      refine lift _ _ _ (fun l hl c' hc' => ?_) h
      exact convRaster_emb htx hty (by rw [(hdim l hl).1]; exact hny) (by rw [(hdim l hl).2]; exact hnx) hc'
    · simp only [if_neg h0, if_neg h1] at h
      cases h

end Meent
