import Verif.Lemmas.ImageConv
import Verif.Lemmas.ReciprocitySolve

/-!
# Mirror images of solutions (helper lemmas)
-/

open Matrix

namespace Meent

set_option linter.unusedSectionVars false
set_option linter.unusedSimpArgs false

section
variable {m : Type} [Fintype m] [DecidableEq m]

/-- A tangential field with axes reversed, times `d`. -/
def imgT (d sx sy : ℂ) (a : Spec.Tangential) : Spec.Tangential := ⟨d * sx * a.Ex, d * sy * a.Ey, d * sy * a.Hx, d * sx * a.Hy⟩

/-- The fields with axes reversed, times `D` order by order. -/
def imgF (D : m → ℂ) (sx sy : ℂ) (f : Spec.OrderFields m) : Spec.OrderFields m :=
  ⟨fun t i => D i * sx * f.Ex t i, fun t i => D i * sy * f.Ey t i, fun t i => D i * f.Ez t i,
    fun t i => D i * sy * f.Hx t i, fun t i => D i * sx * f.Hy t i, fun t i => D i * (sx * sy) * f.Hz t i⟩

theorem gConj_mulVec {D : m → ℂ} (hD : ∀ i, D i ≠ 0) (M : Matrix m m ℂ) (z : ℂ) (v : m → ℂ) (i : m) :
    (gConj D M *ᵥ fun i => D i * z * v i) i = D i * z * (M *ᵥ v) i := by
  simp only [mulVec, dotProduct, gConj_apply]
  rw [Finset.mul_sum]
  refine Finset.sum_congr rfl fun j _ => ?_
  have := hD j
  field_simp

theorem maxwell_image {D : m → ℂ} (hD : ∀ i, D i ≠ 0) {sx sy : ℂ} (hx : sx ^ 2 = 1) (hy : sy ^ 2 = 1) {k0 : ℝ} {kx ky : m → ℂ}
    {c : Conv m} {S : Set ℝ} {f : Spec.OrderFields m} (h : Spec.Maxwell k0 kx ky c S f) :
    Spec.Maxwell k0 (fun i => sx * kx i) (fun i => sy * ky i) (c.gauge D) S (imgF D sx sy f) := by
  obtain ⟨a, b, x, y, h1, h2, h3, h4, h⟩ := h
  have hd : ∀ (z : ℂ) (u du : ℝ → m → ℂ), Spec.DerivZ S u du →
      Spec.DerivZ S (fun t i => D i * z * u t i) (fun t i => D i * z * du t i) := by
    intro z u du h t ht i
    have := (h t ht i).const_mul (D i * z)
    simpa only [mul_neg] using this
  refine ⟨_, _, _, _, hd sx _ _ h1, hd sy _ _ h2, hd sy _ _ h3, hd sx _ _ h4, ?_⟩
  intro t ht
  obtain ⟨e1, e2, e3, e4, e5, e6⟩ := h t ht
  refine ⟨?_, ?_, ?_, ?_, ?_, ?_⟩
  · ext i
    have := congrFun e1 i
    simp only [imgF, Pi.sub_apply, Pi.smul_apply, smul_eq_mul] at this ⊢
    linear_combination (D i * sy) * this
  · ext i
    have := congrFun e2 i
    simp only [imgF, Pi.sub_apply, Pi.smul_apply, smul_eq_mul] at this ⊢
    linear_combination (D i * sx) * this
  · ext i
    have := congrFun e3 i
    simp only [imgF, Pi.sub_apply, Pi.smul_apply, smul_eq_mul] at this ⊢
    linear_combination (D i * (sx * sy)) * this
  · ext i
    have := congrFun e4 i
    simp only [imgF, Conv.gauge, Pi.sub_apply, Pi.smul_apply, smul_eq_mul, gConj_mulVec hD] at this ⊢
    linear_combination (D i * sx) * this + (D i * sx * (-Complex.I * k0 * ky i * f.Hz t i)) * hy
  · ext i
    have := congrFun e5 i
    simp only [imgF, Conv.gauge, Pi.sub_apply, Pi.smul_apply, smul_eq_mul, gConj_mulVec hD] at this ⊢
    linear_combination (D i * sy) * this - (D i * sy * (-Complex.I * k0 * kx i * f.Hz t i)) * hx
  · ext i
    have := congrFun e6 i
    have e : ((fun i => -Complex.I * k0 * (sx * kx i) * (imgF D sx sy f).Hy t i)
        - fun i => -Complex.I * k0 * (sy * ky i) * (imgF D sx sy f).Hx t i)
        = fun i => D i * 1 * ((fun i => -Complex.I * k0 * kx i * f.Hy t i) - fun i => -Complex.I * k0 * ky i * f.Hx t i) i := by
      funext j
      simp only [imgF, Pi.sub_apply]
      linear_combination (D j * (-Complex.I * k0 * kx j * f.Hy t j)) * hx - (D j * (-Complex.I * k0 * ky j * f.Hx t j)) * hy
    show (gConj D c.epzi *ᵥ _) i = _
    rw [e, gConj_mulVec hD, mul_one]
    simp only [imgF, Pi.smul_apply, smul_eq_mul] at this ⊢
    rw [this]; ring

theorem solves_image {D : m → ℂ} (hD : ∀ i, D i ≠ 0) {sx sy : ℂ} (hx : sx ^ 2 = 1) (hy : sy ^ 2 = 1) {k0 : ℝ} {kx ky : m → ℂ} :
    ∀ {ls : List (Conv m × ℝ)} {fs : List (Spec.OrderFields m)} {top bot : m → Spec.Tangential},
    Spec.SolvesStack k0 kx ky ls fs top bot →
    Spec.SolvesStack k0 (fun i => sx * kx i) (fun i => sy * ky i) (ls.map fun x => (x.1.gauge D, x.2)) (fs.map (imgF D sx sy))
      (fun i => imgT (D i) sx sy (top i)) (fun i => imgT (D i) sx sy (bot i))
  | [], [], top, bot, h => by
    obtain rfl : top = bot := h
    rfl
  | (c, d) :: ls, f :: fs, top, bot, h => by
    obtain ⟨h1, h2, h3⟩ := h
    refine ⟨maxwell_image hD hx hy h1, ?_, solves_image hD hx hy h3⟩
    rw [← h2]; rfl
  | [], _ :: _, _, _, h => h.elim
  | _ :: _, [], _, _, h => h.elim

theorem gauge_const {z : ℂ} (hz : z ≠ 0) (D : m → ℂ) (c : Conv m) : c.gauge (fun i => z * D i) = c.gauge D := by
  have : ∀ M : Matrix m m ℂ, gConj (fun i => z * D i) M = gConj D M := by
    intro M
    ext i j
    rw [gConj_apply, gConj_apply, mul_inv]
    field_simp
  unfold Conv.gauge
  rw [this, this, this]

end

theorem sign_sq (b : Bool) : Spec.sign b ^ 2 = 1 := by unfold Spec.sign; cases b <;> norm_num

theorem norm_sq_one {z : ℂ} (h : z ^ 2 = 1) : ‖z‖ = 1 := by
  have : ‖z‖ ^ 2 = 1 := by rw [← norm_pow, h, norm_one]
  nlinarith [norm_nonneg z]

theorem ne_of_sq {z : ℂ} (h : z ^ 2 = 1) : z ≠ 0 := by
  rintro rfl; norm_num at h

/-- A plane wave with axes reversed. -/
theorem imgT_wave {d sx sy η φ φ' : ℂ} (hx : sx ^ 2 = 1) (hy : sy ^ 2 = 1) (hη : η ^ 2 = 1)
    (hc : Complex.cos φ' = η * sx * Complex.cos φ) (hs : Complex.sin φ' = η * sy * Complex.sin φ) (n κ e g : ℂ) :
    imgT d sx sy (Spec.planeWave n φ κ e g) = Spec.planeWave n φ' κ (d * (sx * sy * η) * e) (d * η * g) := by
  unfold imgT Spec.planeWave
  rw [hc, hs]
  congr 1
  · linear_combination (d * sx * e * Complex.sin φ) * (η ^ 2 * hy + hη) + (d * sx * κ / n ^ 2 * g * Complex.cos φ) * hη
  · linear_combination (-(d * sy * e * Complex.cos φ)) * (η ^ 2 * hx + hη) + (d * sy * κ / n ^ 2 * g * Complex.sin φ) * hη
  · linear_combination (-(d * sy * κ * e * Complex.cos φ)) * (η ^ 2 * hx + hη) + (d * sy * g * Complex.sin φ) * hη
  · linear_combination (-(d * sx * κ * e * Complex.sin φ)) * (η ^ 2 * hy + hη) - (d * sx * g * Complex.cos φ) * hη

theorem imgT_add (d sx sy : ℂ) (a b : Spec.Tangential) : imgT d sx sy (a + b) = imgT d sx sy a + imgT d sx sy b := by
  rw [tan_add, tan_add]
  unfold imgT
  congr 1 <;> ring

theorem arctan_neg_sign (z : ℂ) : ∃ σ : ℂ, σ ^ 2 = 1 ∧ Complex.cos (Complex.arctan (-z)) = σ * Complex.cos (Complex.arctan z) ∧
    Complex.sin (Complex.arctan (-z)) = -(σ * Complex.sin (Complex.arctan z)) := by
  have e : (1 + -z * Complex.I) / (1 - -z * Complex.I) = ((1 + z * Complex.I) / (1 - z * Complex.I))⁻¹ := by
    rw [inv_div]; congr 1 <;> ring
  unfold Complex.arctan
  rw [e]
  generalize (1 + z * Complex.I) / (1 - z * Complex.I) = w
  by_cases h : w.arg = Real.pi
  · have hl : Complex.log w⁻¹ = -Complex.log w + 2 * Real.pi * Complex.I := by
      rw [Complex.log_inv_eq_ite, if_pos h]
      have : (starRingEnd ℂ) (Complex.log w) = Complex.log w - 2 * Real.pi * Complex.I := by
        apply Complex.ext
        · simp
        · simp [Complex.log_im, h]; ring
      rw [this]; ring
    refine ⟨-1, by norm_num, ?_⟩
    have : -Complex.I / 2 * Complex.log w⁻¹ = Real.pi - (-Complex.I / 2 * Complex.log w) := by
      rw [hl]
      linear_combination (-(Real.pi : ℂ)) * Complex.I_sq
    rw [this, Complex.cos_pi_sub, Complex.sin_pi_sub]
    exact ⟨by ring, by ring⟩
  · refine ⟨1, by norm_num, ?_⟩
    rw [Complex.log_inv _ h, mul_neg, Complex.cos_neg, Complex.sin_neg]
    exact ⟨by ring, by ring⟩

/-- The azimuth of a wavevector with axes reversed. -/
theorem azimuth_image (mx my : Bool) (kx ky : ℂ) : ∃ η : ℂ, η ^ 2 = 1 ∧
    Complex.cos (Spec.azimuth (Spec.sign mx * kx) (Spec.sign my * ky)) = η * Spec.sign mx * Complex.cos (Spec.azimuth kx ky) ∧
    Complex.sin (Spec.azimuth (Spec.sign mx * kx) (Spec.sign my * ky)) = η * Spec.sign my * Complex.sin (Spec.azimuth kx ky) := by
  unfold Spec.azimuth
  by_cases h : kx = 0
  · subst h
    rw [mul_zero, if_pos rfl, if_pos rfl]
    have hc : ∀ q : Prop, [Decidable q] → Complex.cos (if q then -((Real.pi / 2 : ℝ) : ℂ) else ((Real.pi / 2 : ℝ) : ℂ)) = 0 := by
      intro q _
      split
      · rw [Complex.cos_neg, ← Complex.ofReal_cos, Real.cos_pi_div_two, Complex.ofReal_zero]
      · rw [← Complex.ofReal_cos, Real.cos_pi_div_two, Complex.ofReal_zero]
    have hs : ∀ q : Prop, [Decidable q] → Complex.sin (if q then -((Real.pi / 2 : ℝ) : ℂ) else ((Real.pi / 2 : ℝ) : ℂ))
        = if q then -1 else 1 := by
      intro q _
      split
      · rw [Complex.sin_neg, ← Complex.ofReal_sin, Real.sin_pi_div_two, Complex.ofReal_one]
      · rw [← Complex.ofReal_sin, Real.sin_pi_div_two, Complex.ofReal_one]
    rw [hc, hc, hs, hs]
    refine ⟨(if (Spec.sign my * ky).re < 0 then -1 else 1) * Spec.sign my * (if ky.re < 0 then -1 else 1), ?_, by ring, ?_⟩
    · rw [mul_pow, mul_pow, sign_sq]
      split_ifs <;> norm_num
    · have := sign_sq my
      split_ifs <;> linear_combination (norm := ring_nf) 0 * this <;> rw [this] <;> norm_num
  · have hx : Spec.sign mx * kx ≠ 0 := mul_ne_zero (ne_of_sq (sign_sq mx)) h
    rw [if_neg h, if_neg hx]
    obtain ⟨σ, hσ, h1, h2⟩ := arctan_neg_sign (ky / kx)
    by_cases hm : mx = my
    · subst hm
      refine ⟨Spec.sign mx, sign_sq mx, ?_⟩
      cases mx <;> simp [Spec.sign]
    · refine ⟨σ * Spec.sign mx, by rw [mul_pow, hσ, sign_sq, one_mul], ?_⟩
      have e : Spec.sign my * ky / (Spec.sign mx * kx) = -(ky / kx) := by
        cases mx <;> cases my <;> simp [Spec.sign, div_neg, neg_div] at hm ⊢
      rw [e, h1, h2]
      cases mx <;> cases my <;> simp [Spec.sign] at hm ⊢

/-! ### Solutions of the mirrored problem -/

section
variable {p : Params} {mx my : Bool} {θ' ψ' : ℂ} {φ' : Option ℂ} {pol' : ℝ}

open Spec (revIdx)

theorem imgE_mod (mx my : Bool) {fx fy : ℕ} (i : FlatIdx fx fy) : (imgE mx my i).modNat = revIdx mx i.modNat := by
  have := congrArg Prod.snd (imgE_symm mx my i)
  exact this.trans (revE_apply _ _)

theorem imgE_div (mx my : Bool) {fx fy : ℕ} (i : FlatIdx fx fy) : (imgE mx my i).divNat = revIdx my i.divNat := by
  have := congrArg Prod.fst (imgE_symm mx my i)
  exact this.trans (revE_apply _ _)

theorem sgnZ_cast (b : Bool) (m : ℤ) : ((sgnZ b m : ℤ) : ℂ) = Spec.sign b * (m : ℂ) := by
  unfold sgnZ Spec.sign; cases b <;> simp

theorem sign_real (b : Bool) : star (Spec.sign b) = Spec.sign b := by unfold Spec.sign; cases b <;> simp

theorem kx_image (ht : sinTheta p.theta = Complex.sin p.theta) (ht' : sinTheta θ' = Complex.sin θ')
    (h : Spec.MirrorDirection mx my p.theta p.phi θ' φ') (i : Fin (2 * p.fto.1 + 1)) :
    kxVec { p with theta := θ', phi := φ', pol := pol', psi := ψ' } p.wavelength i
      = Spec.sign mx * kxVec p p.wavelength (revIdx mx i) := by
  unfold kxVec
  simp only
  conv_rhs => rw [← sign_real, ← star_mul']
  have e : ((((revIdx mx i : Fin _) : ℕ) : ℤ) - (p.fto.1 : ℤ)) = sgnZ mx ((i : ℤ) - (p.fto.1 : ℤ)) := by
    rw [← sgnZ_order, revE_apply]
  rw [e, sgnZ_cast, ht, ht']
  congr 1
  linear_combination p.n_top * h.x - ((((i : ℤ) - (p.fto.1 : ℤ) : ℤ) : ℂ) * ((p.wavelength / p.period.1 : ℝ) : ℂ)) * sign_sq mx

theorem ky_image (ht : sinTheta p.theta = Complex.sin p.theta) (ht' : sinTheta θ' = Complex.sin θ')
    (h : Spec.MirrorDirection mx my p.theta p.phi θ' φ') (i : Fin (2 * p.fto.2 + 1)) :
    kyVec { p with theta := θ', phi := φ', pol := pol', psi := ψ' } p.wavelength i
      = Spec.sign my * kyVec p p.wavelength (revIdx my i) := by
  unfold kyVec
  simp only
  conv_rhs => rw [← sign_real, ← star_mul']
  have e : ((((revIdx my i : Fin _) : ℕ) : ℤ) - (p.fto.2 : ℤ)) = sgnZ my ((i : ℤ) - (p.fto.2 : ℤ)) := by
    rw [← sgnZ_order, revE_apply]
  rw [e, sgnZ_cast, ht, ht']
  congr 1
  linear_combination p.n_top * h.y - ((((i : ℤ) - (p.fto.2 : ℤ) : ℤ) : ℂ) * ((p.wavelength / p.period.2 : ℝ) : ℂ)) * sign_sq my

theorem kzOf_image (n kx ky : ℂ) : Spec.kzOf n (Spec.sign mx * kx) (Spec.sign my * ky) = Spec.kzOf n kx ky := by
  unfold Spec.kzOf; rw [mul_pow, mul_pow, sign_sq, sign_sq, one_mul, one_mul]

/-- The amplitudes in `r'` are those in `r` with the orders mirrored, up to phases. -/
structure MirrorNorm {a b : ℕ} (mx my : Bool) (r r' : SubRes a b) : Prop where
  R_s : ∀ j i, ‖r'.R_s j i‖ = ‖r.R_s (revIdx my j) (revIdx mx i)‖
  R_p : ∀ j i, ‖r'.R_p j i‖ = ‖r.R_p (revIdx my j) (revIdx mx i)‖
  T_s : ∀ j i, ‖r'.T_s j i‖ = ‖r.T_s (revIdx my j) (revIdx mx i)‖
  T_p : ∀ j i, ‖r'.T_p j i‖ = ‖r.T_p (revIdx my j) (revIdx mx i)‖

theorem incident_image {fx fy : ℕ} (j : Fin (2 * fy + 1)) (i : Fin (2 * fx + 1)) :
    Spec.incidentOrder (revIdx my j) (revIdx mx i) = Spec.incidentOrder j i := by
  unfold Spec.incidentOrder revIdx
  refine if_congr ?_ rfl rfl
  have := Fin.val_rev j; have := Fin.val_rev i
  split_ifs <;> omega

theorem image_core {wx wy : ℂ} (hwx : ‖wx‖ = 1) (hwy : ‖wy‖ = 1) (ht : sinTheta p.theta = Complex.sin p.theta)
    (ht' : sinTheta θ' = Complex.sin θ') (hd : Spec.MirrorDirection mx my p.theta p.phi θ' φ')
    {cs : List (Conv (FlatIdx p.fto.1 p.fto.2))} {ψ ψ1 : ℂ} (hψ : Spec.MirrorPsi mx my ψ ψ1)
    {r : SubRes (2 * p.fto.2 + 1) (2 * p.fto.1 + 1)} {fs} (h : Spec.Diffraction p cs ψ r fs) :
    ∃ r' z, z ^ 2 = 1 ∧ Spec.Diffraction { p with theta := θ', phi := φ', pol := pol', psi := ψ' }
      (cs.map fun c => (c.reindex (imgE mx my)).gauge (shiftD wx wy)) ψ1 r'
      ((fs.map (reindexF (imgE mx my))).map (imgF (fun i => z * shiftD wx wy i) (Spec.sign mx) (Spec.sign my))) ∧ MirrorNorm mx my r r' := by
  obtain ⟨c, hc, hsin, hcos⟩ := hψ
  have hwx0 : wx ≠ 0 := by rintro rfl; simp at hwx
  have hwy0 : wy ≠ 0 := by rintro rfl; simp at hwy
  have hη := fun i : FlatIdx p.fto.1 p.fto.2 => azimuth_image mx my (kxVec p p.wavelength (revIdx mx i.modNat))
    (kyVec p p.wavelength (revIdx my i.divNat))
  choose η hη0 hη1 hη2 using hη
  set o := ctr2 p.fto.1 p.fto.2 with ho
  have hz : (c * η o) ^ 2 = 1 := by rw [mul_pow, hc, hη0, one_mul]
  set D : FlatIdx p.fto.1 p.fto.2 → ℂ := fun i => (c * η o) * shiftD wx wy i with hD
  have hDn : ∀ i, ‖D i‖ = 1 := fun i => by
    simp only [hD, norm_mul, norm_sq_one hc, norm_sq_one (hη0 o), one_mul]
    exact norm_shiftD hwx hwy i
  have hD0 : ∀ i, D i ≠ 0 := fun i h0 => by have := hDn i; rw [h0, norm_zero] at this; exact zero_ne_one this
  have hs := solves_image hD0 (sign_sq mx) (sign_sq my) (solves_reindex (imgE mx my) h)
  refine ⟨{ R_s := fun j i => D (finProdFinEquiv (j, i)) * (Spec.sign mx * Spec.sign my * η (finProdFinEquiv (j, i))) *
              r.R_s (revIdx my j) (revIdx mx i)
            R_p := fun j i => D (finProdFinEquiv (j, i)) * η (finProdFinEquiv (j, i)) * r.R_p (revIdx my j) (revIdx mx i)
            T_s := fun j i => D (finProdFinEquiv (j, i)) * (Spec.sign mx * Spec.sign my * η (finProdFinEquiv (j, i))) *
              r.T_s (revIdx my j) (revIdx mx i)
            T_p := fun j i => D (finProdFinEquiv (j, i)) * η (finProdFinEquiv (j, i)) * r.T_p (revIdx my j) (revIdx mx i)
            de_ri_s := r.de_ri_s, de_ri_p := r.de_ri_p, de_ri := r.de_ri
            de_ti_s := r.de_ti_s, de_ti_p := r.de_ti_p, de_ti := r.de_ti },
    c * η o, hz, ?_, ?_⟩
  rotate_left
  · have h1 := norm_sq_one (sign_sq mx)
    have h2 := norm_sq_one (sign_sq my)
    have h3 := fun i => norm_sq_one (hη0 i)
    constructor <;> intro j i <;> simp only [norm_mul, hDn, h1, h2, h3, one_mul]
  · unfold Spec.Diffraction
    have e1 : (fun i : FlatIdx p.fto.1 p.fto.2 => kxVec { p with theta := θ', phi := φ', pol := pol', psi := ψ' } p.wavelength i.modNat)
        = fun i => Spec.sign mx * kxVec p p.wavelength (imgE mx my i).modNat := by
      funext i; rw [imgE_mod]; exact kx_image ht ht' hd _
    have e2 : (fun i : FlatIdx p.fto.1 p.fto.2 => kyVec { p with theta := θ', phi := φ', pol := pol', psi := ψ' } p.wavelength i.divNat)
        = fun i => Spec.sign my * kyVec p p.wavelength (imgE mx my i).divNat := by
      funext i; rw [imgE_div]; exact ky_image ht ht' hd _
    have e3 : (cs.map fun c => (c.reindex (imgE mx my)).gauge (shiftD wx wy)).zip p.thickness
        = ((cs.zip p.thickness).map fun x => (x.1.reindex (imgE mx my), x.2)).map fun x => (x.1.gauge D, x.2) := by
      rw [List.zip_map_left, List.map_map]
      refine List.map_congr_left fun x _ => ?_
      simp only [Prod.map_apply, id, Function.comp, hD]
      rw [gauge_const (ne_of_sq hz)]
      rfl
    have e4 : ∀ r', (∀ j i, r'.R_s j i = D (finProdFinEquiv (j, i)) * (Spec.sign mx * Spec.sign my * η (finProdFinEquiv (j, i))) *
              r.R_s (revIdx my j) (revIdx mx i)) →
          (∀ j i, r'.R_p j i = D (finProdFinEquiv (j, i)) * η (finProdFinEquiv (j, i)) * r.R_p (revIdx my j) (revIdx mx i)) →
          (fun i : FlatIdx p.fto.1 p.fto.2 => Spec.above { p with theta := θ', phi := φ', pol := pol', psi := ψ' } ψ1 r' i.divNat i.modNat)
        = fun i => imgT (D i) (Spec.sign mx) (Spec.sign my) (Spec.above p ψ r (imgE mx my i).divNat (imgE mx my i).modNat) := by
      intro r' h1 h2
      funext i
      rw [imgE_div, imgE_mod]
      unfold Spec.above
      simp only
      rw [kx_image ht ht' hd, ky_image ht ht' hd, kzOf_image, imgT_add,
        imgT_wave (sign_sq mx) (sign_sq my) (hη0 i) (hη1 i) (hη2 i),
        imgT_wave (sign_sq mx) (sign_sq my) (hη0 i) (hη1 i) (hη2 i), h1, h2, flat_eta, hd.z, incident_image, incident_if]
      congr 1
      · by_cases hi : i = o
        · subst hi
          have hDo : D o = c * η o := by
            have := shiftD_delta (fx := p.fto.1) (fy := p.fto.2) wx wy (ctr2 p.fto.1 p.fto.2)
            rw [deltaI0_eq2, if_pos rfl, mul_one] at this
            simp only [hD, ho]
            rw [this, mul_one]
          rw [hDo, hsin, hcos]
          have := hη0 o
          congr 1
          · linear_combination (-(c * Spec.sign mx * Spec.sign my * Complex.sin ψ * (if o = ctr2 p.fto.1 p.fto.2 then 1 else 0))) * this
          · linear_combination (-(c * p.n_top * Complex.cos ψ * (if o = ctr2 p.fto.1 p.fto.2 then 1 else 0))) * this
        · rw [if_neg hi]; simp only [mul_zero]
      · congr 1; ring
    have e5 : ∀ r', (∀ j i, r'.T_s j i = D (finProdFinEquiv (j, i)) * (Spec.sign mx * Spec.sign my * η (finProdFinEquiv (j, i))) *
              r.T_s (revIdx my j) (revIdx mx i)) →
          (∀ j i, r'.T_p j i = D (finProdFinEquiv (j, i)) * η (finProdFinEquiv (j, i)) * r.T_p (revIdx my j) (revIdx mx i)) →
          (fun i : FlatIdx p.fto.1 p.fto.2 => Spec.below { p with theta := θ', phi := φ', pol := pol', psi := ψ' } r' i.divNat i.modNat)
        = fun i => imgT (D i) (Spec.sign mx) (Spec.sign my) (Spec.below p r (imgE mx my i).divNat (imgE mx my i).modNat) := by
      intro r' h1 h2
      funext i
      rw [imgE_div, imgE_mod]
      unfold Spec.below
      simp only
      rw [kx_image ht ht' hd, ky_image ht ht' hd, kzOf_image,
        imgT_wave (sign_sq mx) (sign_sq my) (hη0 i) (hη1 i) (hη2 i), h1, h2, flat_eta]
      congr 1; ring
    simp only at e1 e2 e3 ⊢
    rw [e1, e2, e3, e4 _ (fun _ _ => rfl) (fun _ _ => rfl), e5 _ (fun _ _ => rfl) (fun _ _ => rfl)]
    exact hs

theorem imgE_row {fx fy : ℕ} (hf : fy = 0) (i : Fin (2 * fx + 1)) :
    imgE mx my (rowIdx i : FlatIdx fx fy) = rowIdx (revE mx _ i) := by
  subst hf
  unfold rowIdx imgE
  simp only [Equiv.trans_apply, Equiv.symm_apply_apply, Equiv.prodCongr_apply, Prod.map_apply]
  congr 2
  exact Subsingleton.elim _ _

theorem image_row {fx fy : ℕ} (hf : fy = 0) (wx wy : ℂ) (c : Conv (FlatIdx fx fy)) :
    ((c.reindex (imgE mx my)).gauge (shiftD wx wy)).row
      = (c.row.reindex (revE mx _)).gauge (fun i : Fin (2 * fx + 1) => wx ^ ((i.val : ℤ) - fx)) := by
  have hD : ∀ i : Fin (2 * fx + 1), shiftD wx wy (rowIdx i : FlatIdx fx fy) = wx ^ ((i.val : ℤ) - fx) := by
    intro i
    have h1 : Spec.orderX (rowIdx i : FlatIdx fx fy) = (i.val : ℤ) - fx := by
      show (((finProdFinEquiv.symm (finProdFinEquiv (0, i) : FlatIdx fx fy)).2.val : ℤ)) - fx = _
      rw [Equiv.symm_apply_apply]
    have h2 : Spec.orderY (rowIdx i : FlatIdx fx fy) = 0 := by
      show (((finProdFinEquiv.symm (finProdFinEquiv (0, i) : FlatIdx fx fy)).1.val : ℤ)) - fy = _
      rw [Equiv.symm_apply_apply, hf]; rfl
    unfold shiftD
    rw [h1, h2, zpow_zero, mul_one]
  have hM : ∀ M : Matrix (FlatIdx fx fy) (FlatIdx fx fy) ℂ,
      (gConj (shiftD wx wy) (M.submatrix (imgE mx my) (imgE mx my))).submatrix rowIdx rowIdx
        = gConj (fun i : Fin (2 * fx + 1) => wx ^ ((i.val : ℤ) - fx)) ((M.submatrix rowIdx rowIdx).submatrix (revE mx _) (revE mx _)) := by
    intro M
    ext i j
    simp only [submatrix_apply, gConj_apply, hD, imgE_row hf]
  unfold Conv.row Conv.reindex Conv.gauge
  simp only
  rw [hM, hM, hM]

theorem image_core1 {wx : ℂ} (hwx : ‖wx‖ = 1) (ht : sinTheta p.theta = Complex.sin p.theta)
    (ht' : sinTheta θ' = Complex.sin θ') (hd : Spec.MirrorDirection mx my p.theta p.phi θ' φ')
    {cs : List (Conv (Fin (2 * p.fto.1 + 1)))} {r : SubRes 1 (2 * p.fto.1 + 1)} {fs} (h : Spec.Diffraction1d p cs r fs) :
    ∃ r', Spec.Diffraction1d { p with theta := θ', phi := φ', pol := p.pol, psi := ψ' }
      (cs.map fun c => (c.reindex (revE mx _)).gauge (fun i => wx ^ ((i.val : ℤ) - p.fto.1))) r'
      ((fs.map (reindexF (revE mx _))).map (imgF (fun i => (if p.pol = 0 then 1 else Spec.sign mx) * wx ^ ((i.val : ℤ) - p.fto.1)) (Spec.sign mx) 1)) ∧
      MirrorNorm mx my r r' := by
  have hwx0 : wx ≠ 0 := by rintro rfl; simp at hwx
  set z : ℂ := if p.pol = 0 then 1 else Spec.sign mx with hzd
  have hz : z ^ 2 = 1 := by rw [hzd]; split; · norm_num
                            · exact sign_sq mx
  set D : Fin (2 * p.fto.1 + 1) → ℂ := fun i => z * wx ^ ((i.val : ℤ) - p.fto.1) with hD
  have hDn : ∀ i, ‖D i‖ = 1 := fun i => by
    simp only [hD, norm_mul, norm_sq_one hz, one_mul, norm_zpow, hwx, _root_.one_zpow]
  have hD0 : ∀ i, D i ≠ 0 := fun i h0 => by have := hDn i; rw [h0, norm_zero] at this; exact zero_ne_one this
  have hs := solves_image (sx := Spec.sign mx) (sy := 1) hD0 (sign_sq mx) (by norm_num) (solves_reindex (revE mx _) h)
  refine ⟨{ R_s := fun j i => D i * r.R_s (revIdx my j) (revIdx mx i)
            R_p := fun j i => D i * Spec.sign mx * r.R_p (revIdx my j) (revIdx mx i)
            T_s := fun j i => D i * r.T_s (revIdx my j) (revIdx mx i)
            T_p := fun j i => D i * Spec.sign mx * r.T_p (revIdx my j) (revIdx mx i)
            de_ri_s := r.de_ri_s, de_ri_p := r.de_ri_p, de_ri := r.de_ri
            de_ti_s := r.de_ti_s, de_ti_p := r.de_ti_p, de_ti := r.de_ti },
    ?_, ?_⟩
  rotate_left
  · have h1 := norm_sq_one (sign_sq mx)
    constructor <;> intro j i <;> simp only [norm_mul, hDn, h1, one_mul]
  · unfold Spec.Diffraction1d
    have e1 : kxVec { p with theta := θ', phi := φ', pol := p.pol, psi := ψ' } p.wavelength
        = fun i => Spec.sign mx * kxVec p p.wavelength (revE mx _ i) := by
      funext i; rw [revE_apply]; exact kx_image ht ht' hd _
    have e2 : (0 : Fin (2 * p.fto.1 + 1) → ℂ) = fun i => (1 : ℂ) * (0 : Fin (2 * p.fto.1 + 1) → ℂ) (revE mx _ i) := by
      funext i; simp
    have e3 : (cs.map fun c => (c.reindex (revE mx _)).gauge (fun i => wx ^ ((i.val : ℤ) - p.fto.1))).zip p.thickness
        = ((cs.zip p.thickness).map fun x => (x.1.reindex (revE mx _), x.2)).map fun x => (x.1.gauge D, x.2) := by
      rw [List.zip_map_left, List.map_map]
      refine List.map_congr_left fun x _ => ?_
      simp only [Prod.map_apply, id, Function.comp, hD]
      rw [gauge_const (ne_of_sq hz)]
      rfl
    have hw : ∀ (i : Fin (2 * p.fto.1 + 1)) (n κ e g : ℂ), imgT (D i) (Spec.sign mx) 1 (Spec.planeWave n 0 κ e g)
        = Spec.planeWave n 0 κ (D i * e) (D i * Spec.sign mx * g) := by
      intro i n κ e g
      rw [imgT_wave (sign_sq mx) (one_pow 2) (sign_sq mx) (φ' := 0) (by rw [← pow_two, sign_sq, one_mul]) (by simp)]
      congr 1
      linear_combination (D i * e) * sign_sq mx
    have hkz : ∀ n k : ℂ, Spec.kzOf n (Spec.sign mx * k) 0 = Spec.kzOf n k 0 := by
      intro n k; have := kzOf_image (mx := mx) (my := false) n k 0; rwa [mul_zero] at this
    have hj : ∀ j : Fin 1, revIdx my j = 0 := fun j => Subsingleton.elim _ _
    have hctr : ∀ i : Fin (2 * p.fto.1 + 1), (revIdx mx i).val = p.fto.1 ↔ i.val = p.fto.1 := by
      intro i; unfold revIdx; have := Fin.val_rev i; split_ifs <;> omega
    have hDc : ∀ i : Fin (2 * p.fto.1 + 1), i.val = p.fto.1 → D i = z := by
      intro i hi; simp only [hD, hi, sub_self, zpow_zero, mul_one]
    have e4 : ∀ r', (∀ j i, r'.R_s j i = D i * r.R_s (revIdx my j) (revIdx mx i)) →
          (∀ j i, r'.R_p j i = D i * Spec.sign mx * r.R_p (revIdx my j) (revIdx mx i)) →
          Spec.above1d { p with theta := θ', phi := φ', pol := p.pol, psi := ψ' } r'
        = fun i => imgT (D i) (Spec.sign mx) 1 (Spec.above1d p r (revE mx _ i)) := by
      intro r' h1 h2
      funext i
      rw [revE_apply]
      unfold Spec.above1d
      simp only
      rw [kx_image ht ht' hd, hkz, h1, h2, hj, hd.z]
      simp only [hctr]
      by_cases h0 : p.pol = 0
      · rw [if_pos h0, if_pos h0, imgT_add, hw, hw, mul_zero]
        congr 2
        by_cases hi : i.val = p.fto.1
        · rw [if_pos hi, hDc i hi, hzd, if_pos h0, one_mul]
        · rw [if_neg hi, mul_zero]
      · rw [if_neg h0, if_neg h0, imgT_add, hw, hw, mul_zero]
        congr 2
        by_cases hi : i.val = p.fto.1
        · rw [if_pos hi, hDc i hi, hzd, if_neg h0, ← pow_two, sign_sq, one_mul]
        · rw [if_neg hi, mul_zero]
    have e5 : ∀ r', (∀ j i, r'.T_s j i = D i * r.T_s (revIdx my j) (revIdx mx i)) →
          (∀ j i, r'.T_p j i = D i * Spec.sign mx * r.T_p (revIdx my j) (revIdx mx i)) →
          Spec.below1d { p with theta := θ', phi := φ', pol := p.pol, psi := ψ' } r'
        = fun i => imgT (D i) (Spec.sign mx) 1 (Spec.below1d p r (revE mx _ i)) := by
      intro r' h1 h2
      funext i
      rw [revE_apply]
      unfold Spec.below1d
      simp only
      rw [kx_image ht ht' hd, hkz, h1, h2, hj]
      by_cases h0 : p.pol = 0
      · rw [if_pos h0, if_pos h0, hw, mul_zero]
      · rw [if_neg h0, if_neg h0, hw, mul_zero]
    simp only at e1 e2 e3 ⊢
    rw [e1, e2, e3, e4 _ (fun _ _ => rfl) (fun _ _ => rfl), e5 _ (fun _ _ => rfl) (fun _ _ => rfl)]
    exact hs

end

/-! ### Efficiencies -/

section
open Spec (revIdx)

theorem MirrorNorm.eff {ny nx : ℕ} {mx my : Bool} {r r' : SubRes ny nx} (h : MirrorNorm mx my r r')
    {w w' : Fin 4 → Fin ny → Fin nx → ℂ} (hw : ∀ k j i, w' k j i = w k (revIdx my j) (revIdx mx i))
    (hr : EffBy (w 0) (w 1) (w 2) (w 3) r) (hr' : EffBy (w' 0) (w' 1) (w' 2) (w' 3) r') : Spec.MirrorEff mx my r r' := by
  have e : ∀ {a b c d : ℂ}, ‖a‖ = ‖b‖ → c = d → effOf a c = effOf b d := by
    intro a b c d h1 h2
    rw [effOf_eq, effOf_eq, Complex.normSq_eq_norm_sq, Complex.normSq_eq_norm_sq, h1, h2]
  have h1 : ∀ j i, r'.de_ri_s j i = r.de_ri_s (revIdx my j) (revIdx mx i) := fun j i => by
    rw [hr'.ri_s, hr.ri_s]; exact e (h.R_s j i) (hw _ _ _)
  have h2 : ∀ j i, r'.de_ri_p j i = r.de_ri_p (revIdx my j) (revIdx mx i) := fun j i => by
    rw [hr'.ri_p, hr.ri_p]; exact e (h.R_p j i) (hw _ _ _)
  have h3 : ∀ j i, r'.de_ti_s j i = r.de_ti_s (revIdx my j) (revIdx mx i) := fun j i => by
    rw [hr'.ti_s, hr.ti_s]; exact e (h.T_s j i) (hw _ _ _)
  have h4 : ∀ j i, r'.de_ti_p j i = r.de_ti_p (revIdx my j) (revIdx mx i) := fun j i => by
    rw [hr'.ti_p, hr.ti_p]; exact e (h.T_p j i) (hw _ _ _)
  exact ⟨h1, h2, fun j i => by rw [hr'.ri, hr.ri, h1, h2], h3, h4, fun j i => by rw [hr'.ti, hr.ti, h3, h4]⟩

variable {s : Settings} {mx my : Bool} {θ' ψ' : ℂ} {φ' : Option ℂ} {pol' : ℝ} {u : Ucell}

theorem weights_image (ht : sinTheta s.p.theta = Complex.sin s.p.theta) (ht' : sinTheta θ' = Complex.sin θ')
    (hd : Spec.MirrorDirection mx my s.p.theta s.p.phi θ' φ')
    (hg : gratingType (Spec.image mx my s u θ' φ' pol' ψ') = 0 ↔ gratingType s = 0) (k : Fin 4) (j i) :
    weights (Spec.image mx my s u θ' φ' pol' ψ') k j i = weights s k (revIdx my j) (revIdx mx i) := by
  have hx := kx_image (pol' := pol') (ψ' := ψ') ht ht' hd
  have hy := ky_image (pol' := pol') (ψ' := ψ') ht ht' hd
  unfold weights
  by_cases h : gratingType s = 0
  · rw [if_pos h, if_pos (hg.mpr h)]
    have e : ∀ n i, kz1d n (kxVec { s.p with theta := θ', phi := φ', pol := pol', psi := ψ' } s.p.wavelength) i
        = kz1d n (kxVec s.p s.p.wavelength) (revIdx mx i) := by
      intro n i
      unfold kz1d
      rw [hx, mul_pow, sign_sq, one_mul]
    fin_cases k <;> simp only [Fin.zero_eta, Fin.mk_one, Fin.reduceFinMk, Matrix.cons_val, Matrix.cons_val_zero, Matrix.cons_val_one, e, hd.z]
  · rw [if_neg h, if_neg (fun h' => h (hg.mp h'))]
    have e : ∀ n j i, kz2d n (kxF { s.p with theta := θ', phi := φ', pol := pol', psi := ψ' } s.p.wavelength)
        (kyF { s.p with theta := θ', phi := φ', pol := pol', psi := ψ' } s.p.wavelength) (finProdFinEquiv (j, i))
        = kz2d n (kxF s.p s.p.wavelength) (kyF s.p s.p.wavelength) (finProdFinEquiv (revIdx my j, revIdx mx i)) := by
      intro n j i
      unfold kz2d kxF kyF tileX tileY
      simp only [modNat_prod, divNat_prod]
      rw [hx, hy, mul_pow, mul_pow, sign_sq, sign_sq, one_mul, one_mul]
    fin_cases k <;> simp only [Fin.zero_eta, Fin.mk_one, Fin.reduceFinMk, Matrix.cons_val, Matrix.cons_val_zero, Matrix.cons_val_one, e, hd.z]

/-- The reported amplitudes are the only ones. -/
theorem solved_unique {la : LinAlg} {s : Settings} (hp : s.p.use_pinv = false) (ha : s.algo = .tmm) (hn : s.p.n_top ≠ 0)
    (hg : gratingType s ≠ 0) {sol : Solved s.p.fto.1 s.p.fto.2} (h : conv_solve la s = .ok sol) :
    ∃ cs y te tm, convMats la s = .ok cs ∧ sol.result = ⟨some y, some te, some tm⟩ ∧
      (∀ r, (∃ fs, Spec.Diffraction s.p cs s.p.psi r fs) → Spec.SameAmplitudes r y) ∧
      (∀ r, (∃ fs, Spec.Diffraction s.p cs ((Real.pi / 2 : ℝ) : ℂ) r fs) → Spec.SameAmplitudes r te) ∧
      ∀ r, (∃ fs, Spec.Diffraction s.p cs 0 r fs) → Spec.SameAmplitudes r tm := by
  obtain ⟨cs, hc, hu⟩ := C49_unique la s hp ha hn sol h
  cases sol with
  | tetm o => exact absurd (conv_solve_tetm.mp h).choose_spec.2.1 hg
  | conicalSmm => exact hu.elim
  | conical o =>
    exact ⟨cs, _, _, _, hc, rfl, fun r => (hu (s.p.psi, o.out.res) (mem_sel _ _ _ _).1 r).mp,
      fun r => (hu (((Real.pi / 2 : ℝ) : ℂ), o.out.res_te) (mem_sel _ _ _ _).2.1 r).mp,
      fun r => (hu (0, o.out.res_tm) (mem_sel _ _ _ _).2.2 r).mp⟩
  | twoD o =>
    exact ⟨cs, _, _, _, hc, rfl, fun r => (hu (s.p.psi, o.out.res) (mem_sel _ _ _ _).1 r).mp,
      fun r => (hu (((Real.pi / 2 : ℝ) : ℂ), o.out.res_te) (mem_sel _ _ _ _).2.1 r).mp,
      fun r => (hu (0, o.out.res_tm) (mem_sel _ _ _ _).2.2 r).mp⟩

theorem MirrorNorm.congr {ny nx : ℕ} {r r' r'' : SubRes ny nx} (h : MirrorNorm mx my r r') (h' : Spec.SameAmplitudes r' r'') :
    MirrorNorm mx my r r'' := by
  obtain ⟨h1, h2, h3, h4⟩ := h'
  exact ⟨h1 ▸ h.R_s, h2 ▸ h.R_p, h3 ▸ h.T_s, h4 ▸ h.T_p⟩

end

end Meent
