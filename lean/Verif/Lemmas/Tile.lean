import Verif.Lemmas.Image
import Verif.Lemmas.TileConv

/-!
# Solutions in a cell with several periods (helper lemmas)
-/

open Matrix

namespace Meent

set_option linter.unusedSectionVars false
set_option linter.unusedSimpArgs false

section
variable {m m' : Type} [Fintype m] [Fintype m'] [DecidableEq m] [DecidableEq m'] {J : m → m'}

theorem place_cases (hJ : Function.Injective J) {P : m' → Prop} (h1 : ∀ i, P (J i)) (h2 : ∀ i', (¬ ∃ a, J a = i') → P i') : ∀ i', P i' := by
  intro i'
  by_cases h : ∃ a, J a = i'
  · obtain ⟨a, rfl⟩ := h
    exact h1 a
  · exact h2 i' h

theorem place_sub (hJ : Function.Injective J) (u v : m → ℂ) : place J (u - v) = place J u - place J v := by
  funext i'
  revert i'
  refine place_cases hJ (fun i => ?_) fun i' h => ?_
  · simp only [Pi.sub_apply, place_in hJ]
  · simp only [Pi.sub_apply, place_out _ h, sub_zero]

theorem place_smul (hJ : Function.Injective J) (c : ℂ) (v : m → ℂ) : place J (c • v) = c • place J v := by
  funext i'
  revert i'
  refine place_cases hJ (fun i => ?_) fun i' h => ?_
  · simp only [Pi.smul_apply, place_in hJ]
  · simp only [Pi.smul_apply, place_out _ h, smul_zero]

theorem place_diff (hJ : Function.Injective J) (c : ℂ) {k : m → ℂ} {k' : m' → ℂ} (hk : ∀ i, k' (J i) = k i) (v : m → ℂ) :
    (fun i' => c * k' i' * place J v i') = place J fun i => c * k i * v i := by
  funext i'
  revert i'
  refine place_cases hJ (fun i => ?_) fun i' h => ?_
  · simp only [place_in hJ, hk]
  · simp only [place_out _ h, mul_zero]

/-- The fields placed at the orders `J`. -/
noncomputable def placeF (J : m → m') (f : Spec.OrderFields m) : Spec.OrderFields m' :=
  ⟨fun t => place J (f.Ex t), fun t => place J (f.Ey t), fun t => place J (f.Ez t), fun t => place J (f.Hx t),
    fun t => place J (f.Hy t), fun t => place J (f.Hz t)⟩

/-- The tangential fields placed at the orders `J`. -/
noncomputable def placeT (J : m → m') (a : m → Spec.Tangential) (i' : m') : Spec.Tangential :=
  ⟨place J (fun i => (a i).Ex) i', place J (fun i => (a i).Ey) i', place J (fun i => (a i).Hx) i', place J (fun i => (a i).Hy) i'⟩

theorem placeT_eq (hJ : Function.Injective J) {a : m → Spec.Tangential} {b : m' → Spec.Tangential} (h1 : ∀ i, b (J i) = a i)
    (h2 : ∀ i', (¬ ∃ a, J a = i') → b i' = ⟨0, 0, 0, 0⟩) : placeT J a = b := by
  funext i'
  revert i'
  refine place_cases hJ (fun i => ?_) fun i' h => ?_
  · simp only [placeT, place_in hJ, h1]
  · simp only [placeT, place_out _ h, h2 i' h]

theorem maxwell_place (hJ : Function.Injective J) {k0 : ℝ} {kx ky : m → ℂ} {kx' ky' : m' → ℂ} (hx : ∀ i, kx' (J i) = kx i)
    (hy : ∀ i, ky' (J i) = ky i) {c : Conv m} {c' : Conv m'} (hc : ConvEmb J c' c) {S : Set ℝ} {f : Spec.OrderFields m}
    (h : Spec.Maxwell k0 kx ky c S f) : Spec.Maxwell k0 kx' ky' c' S (placeF J f) := by
  obtain ⟨a, b, x, y, h1, h2, h3, h4, h⟩ := h
  have hd : ∀ (u du : ℝ → m → ℂ), Spec.DerivZ S u du → Spec.DerivZ S (fun t => place J (u t)) (fun t => place J (du t)) := by
    intro u du h t ht
    refine place_cases hJ (fun i => ?_) fun i' hi => ?_
    · simp only [place_in hJ]
      exact h t ht i
    · simp only [place_out _ hi, neg_zero]
      exact hasDerivWithinAt_const _ _ _
  refine ⟨_, _, _, _, hd _ _ h1, hd _ _ h2, hd _ _ h3, hd _ _ h4, ?_⟩
  intro t ht
  obtain ⟨e1, e2, e3, e4, e5, e6⟩ := h t ht
  simp only [placeF]
  rw [place_diff hJ _ hx, place_diff hJ _ hy, place_diff hJ _ hx, place_diff hJ _ hy, place_diff hJ _ hx, place_diff hJ _ hy,
    place_diff hJ _ hx, place_diff hJ _ hy, hc.epx.mulVec hJ, hc.epy.mulVec hJ]
  simp only [← place_sub hJ, ← place_smul hJ]
  rw [hc.epzi.mulVec hJ]
  exact ⟨congrArg _ e1, congrArg _ e2, congrArg _ e3, congrArg _ e4, congrArg _ e5, congrArg _ e6⟩

theorem solves_place (hJ : Function.Injective J) {k0 : ℝ} {kx ky : m → ℂ} {kx' ky' : m' → ℂ} (hx : ∀ i, kx' (J i) = kx i)
    (hy : ∀ i, ky' (J i) = ky i) :
    ∀ {ls : List (Conv m × ℝ)} {ls' : List (Conv m' × ℝ)} {fs : List (Spec.OrderFields m)} {top bot : m → Spec.Tangential},
    List.Forall₂ (fun a' a => ConvEmb J a'.1 a.1 ∧ a'.2 = a.2) ls' ls → Spec.SolvesStack k0 kx ky ls fs top bot →
    Spec.SolvesStack k0 kx' ky' ls' (fs.map (placeF J)) (placeT J top) (placeT J bot)
  | [], [], [], top, bot, _, h => by
    obtain rfl : top = bot := h
    rfl
  | (c, d) :: ls, (c', d') :: ls', f :: fs, top, bot, .cons hl hls, h => by
    obtain ⟨h1, h2, h3⟩ := h
    obtain ⟨hc, e⟩ := hl
    obtain rfl : d' = d := e
    refine ⟨maxwell_place hJ hx hy hc h1, ?_, solves_place hJ hx hy hls h3⟩
    rw [← h2]; rfl
  | [], [], _ :: _, _, _, _, h => h.elim
  | _ :: _, _ :: _, [], _, _, _, h => h.elim

theorem zip_emb {cs' : List (Conv m')} {cs : List (Conv m)} (h : List.Forall₂ (ConvEmb J) cs' cs) :
    ∀ ds : List ℝ, List.Forall₂ (fun a' a => ConvEmb J a'.1 a.1 ∧ a'.2 = a.2) (cs'.zip ds) (cs.zip ds) := by
  induction h with
  | nil => intro ds; simp
  | cons h _ ih =>
    intro ds
    cases ds with
    | nil => simp
    | cons d ds => exact .cons ⟨h, rfl⟩ (ih ds)

end

theorem wave_zero (n φ κ : ℂ) : Spec.planeWave n φ κ 0 0 = ⟨0, 0, 0, 0⟩ := by
  unfold Spec.planeWave
  congr 1 <;> ring

theorem wave_zero_add (n φ κ n' φ' κ' : ℂ) : Spec.planeWave n φ κ 0 0 + Spec.planeWave n' φ' κ' 0 0 = ⟨0, 0, 0, 0⟩ := by
  rw [wave_zero, wave_zero, tan_add]
  simp

/-- The parameters of the larger cell. -/
abbrev tileP (p : Params) (tx ty : ℕ) (fto' : ℕ × ℕ) : Params :=
  { p with fto := fto', period := (tx * p.period.1, ty * p.period.2) }

section
variable {p : Params} {tx ty : ℕ} {fto' : ℕ × ℕ}

theorem kx_tile (htx : 0 < tx) {i : Fin (2 * p.fto.1 + 1)} {i' : Fin (2 * fto'.1 + 1)} (h : Spec.colOrder i' = tx * Spec.colOrder i) :
    kxVec (tileP p tx ty fto') p.wavelength i' = kxVec p p.wavelength i := by
  have ht : (tx : ℝ) ≠ 0 := Nat.cast_ne_zero.mpr htx.ne'
  unfold Spec.colOrder at h
  unfold kxVec
  simp only
  rw [h]
  congr 2
  have : (((tx : ℤ) * ((i.val : ℤ) - p.fto.1) : ℤ) : ℝ) * (p.wavelength / (tx * p.period.1)) = (((i.val : ℤ) - p.fto.1 : ℤ) : ℝ) * (p.wavelength / p.period.1) := by
    push_cast
    rw [mul_assoc, ← mul_div_assoc, ← mul_div_assoc, mul_div_mul_left _ _ ht, ← mul_div_assoc]
  exact_mod_cast congrArg (Complex.ofReal) this

theorem ky_tile (hty : 0 < ty) {i : Fin (2 * p.fto.2 + 1)} {i' : Fin (2 * fto'.2 + 1)} (h : Spec.rowOrder i' = ty * Spec.rowOrder i) :
    kyVec (tileP p tx ty fto') p.wavelength i' = kyVec p p.wavelength i := by
  have ht : (ty : ℝ) ≠ 0 := Nat.cast_ne_zero.mpr hty.ne'
  unfold Spec.rowOrder at h
  unfold kyVec
  simp only
  rw [h]
  congr 2
  have : (((ty : ℤ) * ((i.val : ℤ) - p.fto.2) : ℤ) : ℝ) * (p.wavelength / (ty * p.period.2)) = (((i.val : ℤ) - p.fto.2 : ℤ) : ℝ) * (p.wavelength / p.period.2) := by
    push_cast
    rw [mul_assoc, ← mul_div_assoc, ← mul_div_assoc, mul_div_mul_left _ _ ht, ← mul_div_assoc]
  exact_mod_cast congrArg (Complex.ofReal) this

theorem tileIdx_of_order {t f f' : ℕ} {h : Spec.SameOrders t f f'} {i : Fin (2 * f + 1)} {i' : Fin (2 * f' + 1)}
    (e : (i'.val : ℤ) - f' = t * ((i.val : ℤ) - f)) : i' = tileIdx t f f' h i := by
  have := tileIdx_order (h := h) i
  apply Fin.ext
  omega

theorem tileIdx_ctr {t f f' : ℕ} (ht : 0 < t) {h : Spec.SameOrders t f f'} (i : Fin (2 * f + 1)) : (tileIdx t f f' h i).val = f' ↔ i.val = f := by
  have e := tileIdx_order (h := h) i
  constructor
  · intro h0
    rw [h0, sub_self] at e
    rcases mul_eq_zero.mp e.symm with h1 | h1 <;> omega
  · intro h0
    rw [h0, sub_self, mul_zero] at e
    omega

variable {hx : Spec.SameOrders tx p.fto.1 fto'.1} {hy : Spec.SameOrders ty p.fto.2 fto'.2}

/-- Amplitudes placed at the orders of the structure. -/
noncomputable def placeA {fx fy fx' fy' : ℕ} (hx : Spec.SameOrders tx fx fx') (hy : Spec.SameOrders ty fy fy')
    (d : Fin (2 * fy + 1) → Fin (2 * fx + 1) → ℂ) (j' : Fin (2 * fy' + 1)) (i' : Fin (2 * fx' + 1)) : ℂ :=
  place (tileFlat hx hy) (fun a => d a.divNat a.modNat) (finProdFinEquiv (j', i'))

theorem placeA_in {fx fy fx' fy' : ℕ} {hx : Spec.SameOrders tx fx fx'} {hy : Spec.SameOrders ty fy fy'} (htx : 0 < tx) (hty : 0 < ty)
    (d : Fin (2 * fy + 1) → Fin (2 * fx + 1) → ℂ) (j i) : placeA hx hy d (tileIdx _ _ _ hy j) (tileIdx _ _ _ hx i) = d j i := by
  unfold placeA
  rw [← tileFlat_prod, place_in (tileFlat_inj htx hty), divNat_prod, modNat_prod]

theorem placeA_out {fx fy fx' fy' : ℕ} {hx : Spec.SameOrders tx fx fx'} {hy : Spec.SameOrders ty fy fy'}
    (d : Fin (2 * fy + 1) → Fin (2 * fx + 1) → ℂ) {j' i'} (h : ¬ ∃ a, tileFlat hx hy a = finProdFinEquiv (j', i')) : placeA hx hy d j' i' = 0 := by
  unfold placeA
  exact place_out _ h

theorem placeA_mult {fx fy fx' fy' : ℕ} {hx : Spec.SameOrders tx fx fx'} {hy : Spec.SameOrders ty fy fy'} (htx : 0 < tx) (hty : 0 < ty)
    (d : Fin (2 * fy + 1) → Fin (2 * fx + 1) → ℂ) : Spec.AtMultiples tx ty d (placeA hx hy d) := by
  refine ⟨fun j i j' i' hj hi => ?_, fun j' i' h => ?_⟩
  · rw [tileIdx_of_order (h := hy) hj, tileIdx_of_order (h := hx) hi, placeA_in htx hty]
  · refine placeA_out _ fun h' => h ?_
    obtain ⟨h1, h2⟩ := (tileFlat_range _ _).mp h'
    exact ⟨(tileIdx_range hty _).mp h1, (tileIdx_range htx _).mp h2⟩

theorem tile_core (htx : 0 < tx) (hty : 0 < ty) {cs : List (Conv (FlatIdx p.fto.1 p.fto.2))} {cs' : List (Conv (FlatIdx fto'.1 fto'.2))}
    (hc : List.Forall₂ (ConvEmb (tileFlat hx hy)) cs' cs) {ψ : ℂ} {r : SubRes (2 * p.fto.2 + 1) (2 * p.fto.1 + 1)} {fs}
    (h : Spec.Diffraction p cs ψ r fs) :
    ∃ r' : SubRes (2 * fto'.2 + 1) (2 * fto'.1 + 1), Spec.Diffraction (tileP p tx ty fto') cs' ψ r' (fs.map (placeF (tileFlat hx hy))) ∧
      Spec.AtMultiples tx ty r.R_s r'.R_s ∧ Spec.AtMultiples tx ty r.R_p r'.R_p ∧ Spec.AtMultiples tx ty r.T_s r'.T_s ∧
      Spec.AtMultiples tx ty r.T_p r'.T_p := by
  have hJ := tileFlat_inj (hx := hx) (hy := hy) htx hty
  have kx : ∀ i : FlatIdx p.fto.1 p.fto.2, kxVec (tileP p tx ty fto') p.wavelength (tileFlat hx hy i).modNat = kxVec p p.wavelength i.modNat := by
    intro i
    unfold tileFlat
    rw [modNat_prod]
    exact kx_tile htx (tileIdx_order _)
  have ky : ∀ i : FlatIdx p.fto.1 p.fto.2, kyVec (tileP p tx ty fto') p.wavelength (tileFlat hx hy i).divNat = kyVec p p.wavelength i.divNat := by
    intro i
    unfold tileFlat
    rw [divNat_prod]
    exact ky_tile hty (tileIdx_order _)
  have hs := solves_place hJ (kx' := fun i : FlatIdx fto'.1 fto'.2 => kxVec (tileP p tx ty fto') p.wavelength i.modNat)
    (ky' := fun i : FlatIdx fto'.1 fto'.2 => kyVec (tileP p tx ty fto') p.wavelength i.divNat) kx ky (zip_emb hc p.thickness) h
  have hin : ∀ (d : Fin (2 * p.fto.2 + 1) → Fin (2 * p.fto.1 + 1) → ℂ) (i : FlatIdx p.fto.1 p.fto.2),
      placeA hx hy d (tileFlat hx hy i).divNat (tileFlat hx hy i).modNat = d i.divNat i.modNat := by
    intro d i
    unfold placeA
    rw [flat_eta, place_in hJ]
  have hout : ∀ (d : Fin (2 * p.fto.2 + 1) → Fin (2 * p.fto.1 + 1) → ℂ) (i' : FlatIdx fto'.1 fto'.2), (¬ ∃ a, tileFlat hx hy a = i') →
      placeA hx hy d i'.divNat i'.modNat = 0 := by
    intro d i' h
    exact placeA_out _ (by rwa [flat_eta])
  have inc : ∀ i : FlatIdx p.fto.1 p.fto.2, Spec.incidentOrder (tileFlat hx hy i).divNat (tileFlat hx hy i).modNat = Spec.incidentOrder i.divNat i.modNat := by
    intro i
    unfold tileFlat
    rw [divNat_prod, modNat_prod]
    unfold Spec.incidentOrder
    exact if_congr (and_congr (tileIdx_ctr hty _) (tileIdx_ctr htx _)) rfl rfl
  have inc0 : ∀ i' : FlatIdx fto'.1 fto'.2, (¬ ∃ a, tileFlat hx hy a = i') → Spec.incidentOrder i'.divNat i'.modNat = 0 := by
    intro i' h
    unfold Spec.incidentOrder
    rw [if_neg]
    rintro ⟨h1, h2⟩
    apply h
    refine ⟨ctr2 p.fto.1 p.fto.2, ?_⟩
    have e1 : tileIdx ty p.fto.2 fto'.2 hy (ctr p.fto.2) = i'.divNat := Fin.ext (((tileIdx_ctr hty _).mpr rfl).trans h1.symm)
    have e2 : tileIdx tx p.fto.1 fto'.1 hx (ctr p.fto.1) = i'.modNat := Fin.ext (((tileIdx_ctr htx _).mpr rfl).trans h2.symm)
    rw [ctr2, tileFlat_prod, e1, e2, flat_eta]
  let r' : SubRes (2 * fto'.2 + 1) (2 * fto'.1 + 1) :=
    { R_s := placeA hx hy r.R_s, R_p := placeA hx hy r.R_p, T_s := placeA hx hy r.T_s, T_p := placeA hx hy r.T_p
      de_ri_s := 0, de_ri_p := 0, de_ri := 0, de_ti_s := 0, de_ti_p := 0, de_ti := 0 }
  refine ⟨r', ?_, placeA_mult htx hty _, placeA_mult htx hty _, placeA_mult htx hty _, placeA_mult htx hty _⟩
  have e4 : placeT (tileFlat hx hy) (fun i : FlatIdx p.fto.1 p.fto.2 => Spec.above p ψ r i.divNat i.modNat)
      = fun i : FlatIdx fto'.1 fto'.2 => Spec.above (tileP p tx ty fto') ψ r' i.divNat i.modNat := by
    refine placeT_eq hJ (fun i => ?_) fun i' hi' => ?_
    · unfold Spec.above
      simp only [r']
      rw [kx, ky, hin, hin, inc]
    · unfold Spec.above
      simp only [r']
      rw [hout _ _ hi', hout _ _ hi', inc0 _ hi', mul_zero, mul_zero, mul_zero, wave_zero_add]
  have e5 : placeT (tileFlat hx hy) (fun i : FlatIdx p.fto.1 p.fto.2 => Spec.below p r i.divNat i.modNat)
      = fun i : FlatIdx fto'.1 fto'.2 => Spec.below (tileP p tx ty fto') r' i.divNat i.modNat := by
    refine placeT_eq hJ (fun i => ?_) fun i' hi' => ?_
    · unfold Spec.below
      simp only [r']
      rw [kx, ky, hin, hin]
    · unfold Spec.below
      simp only [r']
      rw [hout _ _ hi', hout _ _ hi', mul_zero, wave_zero]
  rw [e4, e5] at hs
  exact hs

/-- The same for amplitudes without y orders. -/
theorem tile_core1 (htx : 0 < tx) {cs : List (Conv (Fin (2 * p.fto.1 + 1)))} {cs' : List (Conv (Fin (2 * fto'.1 + 1)))}
    (hc : List.Forall₂ (ConvEmb (tileIdx tx _ _ hx)) cs' cs) {r : SubRes 1 (2 * p.fto.1 + 1)} {fs} (h : Spec.Diffraction1d p cs r fs) :
    ∃ r' : SubRes 1 (2 * fto'.1 + 1), Spec.Diffraction1d (tileP p tx ty fto') cs' r' (fs.map (placeF (tileIdx tx _ _ hx))) ∧
      (∀ j, r'.R_s j = place (tileIdx tx _ _ hx) (r.R_s 0)) ∧ (∀ j, r'.R_p j = place (tileIdx tx _ _ hx) (r.R_p 0)) ∧
      (∀ j, r'.T_s j = place (tileIdx tx _ _ hx) (r.T_s 0)) ∧ ∀ j, r'.T_p j = place (tileIdx tx _ _ hx) (r.T_p 0) := by
  have hJ := tileIdx_inj (h := hx) htx
  have kx : ∀ i, kxVec (tileP p tx ty fto') p.wavelength (tileIdx tx _ _ hx i) = kxVec p p.wavelength i :=
    fun i => kx_tile htx (tileIdx_order _)
  have hs := solves_place hJ (kx' := kxVec (tileP p tx ty fto') p.wavelength) (ky' := 0) kx (fun _ => rfl) (zip_emb hc p.thickness) h
  let r' : SubRes 1 (2 * fto'.1 + 1) :=
    { R_s := fun _ => place (tileIdx tx _ _ hx) (r.R_s 0), R_p := fun _ => place (tileIdx tx _ _ hx) (r.R_p 0)
      T_s := fun _ => place (tileIdx tx _ _ hx) (r.T_s 0), T_p := fun _ => place (tileIdx tx _ _ hx) (r.T_p 0)
      de_ri_s := 0, de_ri_p := 0, de_ri := 0, de_ti_s := 0, de_ti_p := 0, de_ti := 0 }
  refine ⟨r', ?_, fun _ => rfl, fun _ => rfl, fun _ => rfl, fun _ => rfl⟩
  have inc0 : ∀ i' : Fin (2 * fto'.1 + 1), (¬ ∃ a, tileIdx tx p.fto.1 fto'.1 hx a = i') → ¬ i'.val = fto'.1 := by
    intro i' h h0
    exact h ⟨ctr p.fto.1, Fin.ext (((tileIdx_ctr htx _).mpr rfl).trans h0.symm)⟩
  have e4 : placeT (tileIdx tx _ _ hx) (Spec.above1d p r) = Spec.above1d (tileP p tx ty fto') r' := by
    refine placeT_eq hJ (fun i => ?_) fun i' hi' => ?_
    · unfold Spec.above1d
      simp only [r', tileIdx_ctr htx]
      rw [kx, place_in hJ, place_in hJ]
    · unfold Spec.above1d
      simp only [r']
      rw [place_out _ hi', place_out _ hi', if_neg (inc0 _ hi')]
      split_ifs <;> rw [wave_zero_add]
  have e5 : placeT (tileIdx tx _ _ hx) (Spec.below1d p r) = Spec.below1d (tileP p tx ty fto') r' := by
    refine placeT_eq hJ (fun i => ?_) fun i' hi' => ?_
    · unfold Spec.below1d
      simp only [r']
      rw [kx, place_in hJ, place_in hJ]
    · unfold Spec.below1d
      simp only [r']
      rw [place_out _ hi', place_out _ hi']
      split_ifs <;> rw [wave_zero]
  rw [e4, e5] at hs
  exact hs

theorem row_emb {fx fy fx' fy' : ℕ} {hx : Spec.SameOrders tx fx fx'} {hy : Spec.SameOrders ty fy fy'} (htx : 0 < tx) (hty : 0 < ty) (hf' : fy' = 0)
    {c' : Conv (FlatIdx fx' fy')} {c : Conv (FlatIdx fx fy)} (h : ConvEmb (tileFlat hx hy) c' c) : ConvEmb (tileIdx tx fx fx' hx) c'.row c.row := by
  have hr : ∀ i : Fin (2 * fx + 1), tileFlat hx hy (rowIdx i) = rowIdx (tileIdx tx fx fx' hx i) := by
    intro i
    unfold rowIdx
    rw [tileFlat_prod]
    congr 2
    apply Fin.ext
    show ty * 0 + fy' % ty = 0
    rw [hf']; simp
  have key : ∀ {M' : Matrix (FlatIdx fx' fy') (FlatIdx fx' fy') ℂ} {M : Matrix (FlatIdx fx fy) (FlatIdx fx fy) ℂ}, Emb (tileFlat hx hy) M' M →
      Emb (tileIdx tx fx fx' hx) (M'.submatrix rowIdx rowIdx) (M.submatrix rowIdx rowIdx) := by
    intro M' M hM r'
    refine place_cases (tileIdx_inj (h := hx) htx) (P := fun r' => ∀ c, M'.submatrix rowIdx rowIdx r' (tileIdx tx fx fx' hx c)
      = place (tileIdx tx fx fx' hx) (fun r => M.submatrix rowIdx rowIdx r c) r') (fun r c => ?_) (fun r' hr' c => ?_) r'
    · rw [place_in (tileIdx_inj htx), submatrix_apply, submatrix_apply, ← hr, ← hr, hM, place_in (tileFlat_inj htx hty)]
    · rw [place_out _ hr', submatrix_apply, ← hr, hM, place_out]
      unfold rowIdx
      rw [tileFlat_range]
      exact fun h => hr' h.2
  exact ⟨key h.epx, key h.epy, key h.epzi⟩

end

/-! ### Efficiencies -/

section
variable {s : Settings} {u : Ucell} {tx ty : ℕ} {fto' : ℕ × ℕ}

theorem weights_tile (htx : 0 < tx) (hty : 0 < ty) (hg : gratingType (Spec.supercell s u tx ty fto') = 0 ↔ gratingType s = 0) (k : Fin 4)
    {j i} {j' : Fin (2 * fto'.2 + 1)} {i' : Fin (2 * fto'.1 + 1)} (hj : Spec.rowOrder j' = ty * Spec.rowOrder j)
    (hi : Spec.colOrder i' = tx * Spec.colOrder i) : weights (Spec.supercell s u tx ty fto') k j' i' = weights s k j i := by
  have hx := kx_tile (p := s.p) (ty := ty) htx hi
  have hy := ky_tile (p := s.p) (tx := tx) hty hj
  unfold weights
  by_cases h : gratingType s = 0
  · rw [if_pos h, if_pos (hg.mpr h)]
    have e : ∀ n, kz1d n (kxVec (tileP s.p tx ty fto') s.p.wavelength) i' = kz1d n (kxVec s.p s.p.wavelength) i := by
      intro n
      unfold kz1d
      rw [hx]
    fin_cases k <;> simp only [Fin.zero_eta, Fin.mk_one, Fin.reduceFinMk, Matrix.cons_val, Matrix.cons_val_zero, Matrix.cons_val_one, e]
  · rw [if_neg h, if_neg (fun h' => h (hg.mp h'))]
    have e : ∀ n, kz2d n (kxF (tileP s.p tx ty fto') s.p.wavelength) (kyF (tileP s.p tx ty fto') s.p.wavelength) (finProdFinEquiv (j', i'))
        = kz2d n (kxF s.p s.p.wavelength) (kyF s.p s.p.wavelength) (finProdFinEquiv (j, i)) := by
      intro n
      unfold kz2d kxF kyF tileX tileY
      simp only [modNat_prod, divNat_prod]
      rw [hx, hy]
    fin_cases k <;> simp only [Fin.zero_eta, Fin.mk_one, Fin.reduceFinMk, Matrix.cons_val, Matrix.cons_val_zero, Matrix.cons_val_one, e]

theorem atMult_eff {fx fy fx' fy' : ℕ} {a : Fin (2 * fy + 1) → Fin (2 * fx + 1) → ℂ} {a' : Fin (2 * fy' + 1) → Fin (2 * fx' + 1) → ℂ}
    {w : Fin (2 * fy + 1) → Fin (2 * fx + 1) → ℂ} {w' : Fin (2 * fy' + 1) → Fin (2 * fx' + 1) → ℂ}
    {d : Fin (2 * fy + 1) → Fin (2 * fx + 1) → ℝ} {d' : Fin (2 * fy' + 1) → Fin (2 * fx' + 1) → ℝ} (h : Spec.AtMultiples tx ty a a')
    (hw : ∀ j i j' i', Spec.rowOrder j' = ty * Spec.rowOrder j → Spec.colOrder i' = tx * Spec.colOrder i → w' j' i' = w j i)
    (hd : ∀ j i, d j i = effOf (a j i) (w j i)) (hd' : ∀ j i, d' j i = effOf (a' j i) (w' j i)) : Spec.AtMultiples tx ty d d' := by
  refine ⟨fun j i j' i' hj hi => ?_, fun j' i' hn => ?_⟩
  · rw [hd, hd', h.1 j i j' i' hj hi, hw j i j' i' hj hi]
  · rw [hd', h.2 j' i' hn, effOf_eq, Complex.normSq_zero, zero_mul]

theorem atMult_add {fx fy fx' fy' : ℕ} {a b c : Fin (2 * fy + 1) → Fin (2 * fx + 1) → ℝ} {a' b' c' : Fin (2 * fy' + 1) → Fin (2 * fx' + 1) → ℝ}
    (ha : Spec.AtMultiples tx ty a a') (hb : Spec.AtMultiples tx ty b b') (hc : ∀ j i, c j i = a j i + b j i)
    (hc' : ∀ j i, c' j i = a' j i + b' j i) : Spec.AtMultiples tx ty c c' := by
  refine ⟨fun j i j' i' hj hi => ?_, fun j' i' hn => ?_⟩
  · rw [hc, hc', ha.1 j i j' i' hj hi, hb.1 j i j' i' hj hi]
  · rw [hc', ha.2 j' i' hn, hb.2 j' i' hn, add_zero]

theorem supercell_eff {fx fy fx' fy' : ℕ} {r : SubRes (2 * fy + 1) (2 * fx + 1)} {r' : SubRes (2 * fy' + 1) (2 * fx' + 1)}
    (h : Spec.AtMultiples tx ty r.R_s r'.R_s ∧ Spec.AtMultiples tx ty r.R_p r'.R_p ∧ Spec.AtMultiples tx ty r.T_s r'.T_s ∧
      Spec.AtMultiples tx ty r.T_p r'.T_p) {w : Fin 4 → Fin (2 * fy + 1) → Fin (2 * fx + 1) → ℂ} {w' : Fin 4 → Fin (2 * fy' + 1) → Fin (2 * fx' + 1) → ℂ}
    (hw : ∀ k j i j' i', Spec.rowOrder j' = ty * Spec.rowOrder j → Spec.colOrder i' = tx * Spec.colOrder i → w' k j' i' = w k j i)
    (hr : EffBy (w 0) (w 1) (w 2) (w 3) r) (hr' : EffBy (w' 0) (w' 1) (w' 2) (w' 3) r') : Spec.SupercellResult tx ty r r' := by
  obtain ⟨a1, a2, a3, a4⟩ := h
  have b1 := atMult_eff a1 (hw 0) hr.ri_s hr'.ri_s
  have b2 := atMult_eff a2 (hw 1) hr.ri_p hr'.ri_p
  have b3 := atMult_eff a3 (hw 2) hr.ti_s hr'.ti_s
  have b4 := atMult_eff a4 (hw 3) hr.ti_p hr'.ti_p
  exact ⟨⟨b1, b2, atMult_add b1 b2 hr.ri hr'.ri, b3, b4, atMult_add b3 b4 hr.ti hr'.ti⟩, a1, a2, a3, a4⟩

end

end Meent
