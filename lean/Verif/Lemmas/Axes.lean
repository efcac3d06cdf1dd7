import Verif.Lemmas.AxesConv
import Verif.Lemmas.Image
import Verif.Lemmas.Nan

/-!
# Solutions of problems with exchanged axes (helper lemmas)
-/

open Matrix

namespace Meent

set_option linter.unusedSectionVars false
set_option linter.unusedSimpArgs false

section
variable {m m' : Type} [Fintype m] [Fintype m']

/-- A tangential field with axes exchanged, times `c`. -/
def swapT (c : ℂ) (a : Spec.Tangential) : Spec.Tangential := ⟨c * a.Ey, c * a.Ex, -(c * a.Hy), -(c * a.Hx)⟩

/-- The fields with axes exchanged, times `c`. -/
def swapF (J : m' ≃ m) (c : ℂ) (f : Spec.OrderFields m) : Spec.OrderFields m' :=
  ⟨fun t i => c * f.Ey t (J i), fun t i => c * f.Ex t (J i), fun t i => c * f.Ez t (J i),
    fun t i => -(c * f.Hy t (J i)), fun t i => -(c * f.Hx t (J i)), fun t i => -(c * f.Hz t (J i))⟩

/-- The matrices of a layer with axes exchanged. -/
def Conv.swapBy (J : m' ≃ m) (c : Conv m) : Conv m' := ⟨c.epy.submatrix J J, c.epx.submatrix J J, c.epzi.submatrix J J⟩

theorem submatrix_mulVec_mul (J : m' ≃ m) (M : Matrix m m ℂ) (z : ℂ) (v : m → ℂ) (i : m') :
    (M.submatrix J J *ᵥ fun i => z * v (J i)) i = z * (M *ᵥ v) (J i) := by
  simp only [mulVec, dotProduct, submatrix_apply]
  rw [Finset.mul_sum, ← Equiv.sum_comp J]
  exact Finset.sum_congr rfl fun j _ => by ring

theorem maxwell_swap (J : m' ≃ m) (c : ℂ) {k0 : ℝ} {kx ky : m → ℂ} {cv : Conv m} {S : Set ℝ} {f : Spec.OrderFields m}
    (h : Spec.Maxwell k0 kx ky cv S f) :
    Spec.Maxwell k0 (fun i => ky (J i)) (fun i => kx (J i)) (cv.swapBy J) S (swapF J c f) := by
  obtain ⟨a, b, x, y, h1, h2, h3, h4, h⟩ := h
  have hd : ∀ (u du : ℝ → m → ℂ), Spec.DerivZ S u du →
      Spec.DerivZ S (fun t i => c * u t (J i)) (fun t i => c * du t (J i)) := by
    intro u du h t ht i
    have := (h t ht (J i)).const_mul c
    simpa only [mul_neg] using this
  have hd' : ∀ (u du : ℝ → m → ℂ), Spec.DerivZ S u du →
      Spec.DerivZ S (fun t i => -(c * u t (J i))) (fun t i => -(c * du t (J i))) := by
    intro u du h t ht i
    have := (h t ht (J i)).const_mul (-c)
    simpa only [neg_mul, mul_neg] using this
  refine ⟨_, _, _, _, hd _ _ h2, hd _ _ h1, hd' _ _ h4, hd' _ _ h3, ?_⟩
  intro t ht
  obtain ⟨e1, e2, e3, e4, e5, e6⟩ := h t ht
  refine ⟨?_, ?_, ?_, ?_, ?_, ?_⟩
  · ext i
    have := congrFun e2 (J i)
    simp only [swapF, Pi.sub_apply, Pi.smul_apply, smul_eq_mul] at this ⊢
    linear_combination (-c) * this
  · ext i
    have := congrFun e1 (J i)
    simp only [swapF, Pi.sub_apply, Pi.smul_apply, smul_eq_mul] at this ⊢
    linear_combination (-c) * this
  · ext i
    have := congrFun e3 (J i)
    simp only [swapF, Pi.sub_apply, Pi.smul_apply, smul_eq_mul] at this ⊢
    linear_combination (-c) * this
  · ext i
    have := congrFun e5 (J i)
    simp only [swapF, Conv.swapBy, Pi.sub_apply, Pi.smul_apply, smul_eq_mul, submatrix_mulVec_mul] at this ⊢
    linear_combination c * this
  · ext i
    have := congrFun e4 (J i)
    simp only [swapF, Conv.swapBy, Pi.sub_apply, Pi.smul_apply, smul_eq_mul, submatrix_mulVec_mul] at this ⊢
    linear_combination c * this
  · ext i
    have := congrFun e6 (J i)
    have e : ((fun i => -Complex.I * k0 * ky (J i) * (swapF J c f).Hy t i)
        - fun i => -Complex.I * k0 * kx (J i) * (swapF J c f).Hx t i)
        = fun i => c * ((fun i => -Complex.I * k0 * kx i * f.Hy t i) - fun i => -Complex.I * k0 * ky i * f.Hx t i) (J i) := by
      funext j
      simp only [swapF, Pi.sub_apply]
      ring
    show (cv.epzi.submatrix J J *ᵥ _) i = _
    rw [e, submatrix_mulVec_mul]
    simp only [swapF, Pi.smul_apply, smul_eq_mul] at this ⊢
    rw [this]; ring

theorem solves_swap (J : m' ≃ m) (c : ℂ) {k0 : ℝ} {kx ky : m → ℂ} :
    ∀ {ls : List (Conv m × ℝ)} {fs : List (Spec.OrderFields m)} {top bot : m → Spec.Tangential},
    Spec.SolvesStack k0 kx ky ls fs top bot →
    Spec.SolvesStack k0 (fun i => ky (J i)) (fun i => kx (J i)) (ls.map fun x => (x.1.swapBy J, x.2)) (fs.map (swapF J c))
      (fun i => swapT c (top (J i))) (fun i => swapT c (bot (J i)))
  | [], [], top, bot, h => by
    obtain rfl : top = bot := h
    rfl
  | (cv, d) :: ls, f :: fs, top, bot, h => by
    obtain ⟨h1, h2, h3⟩ := h
    refine ⟨maxwell_swap J c h1, ?_, solves_swap J c h3⟩
    rw [← h2]; rfl
  | [], _ :: _, _, _, h => h.elim
  | _ :: _, [], _, _, h => h.elim

end

/-- A plane wave with axes exchanged. -/
theorem swapT_wave {c η φ φ' : ℂ} (hη : η ^ 2 = 1)
    (hc : Complex.cos φ' = η * Complex.sin φ) (hs : Complex.sin φ' = η * Complex.cos φ) (n κ e g : ℂ) :
    swapT c (Spec.planeWave n φ κ e g) = Spec.planeWave n φ' κ (-(c * η * e)) (c * η * g) := by
  unfold swapT Spec.planeWave
  rw [hc, hs]
  congr 1
  · linear_combination (-(c * e * Complex.cos φ) + c * κ / n ^ 2 * g * Complex.sin φ) * hη
  · linear_combination ((c * e * Complex.sin φ) + c * κ / n ^ 2 * g * Complex.cos φ) * hη
  · linear_combination ((c * κ * e * Complex.sin φ) + c * g * Complex.cos φ) * hη
  · linear_combination ((c * κ * e * Complex.cos φ) - c * g * Complex.sin φ) * hη

theorem swapT_add (c : ℂ) (a b : Spec.Tangential) : swapT c (a + b) = swapT c a + swapT c b := by
  rw [tan_add, tan_add]
  unfold swapT
  congr 1 <;> ring

/-- The azimuth of a wavevector with axes exchanged. -/
theorem azimuth_swap {a b : ℝ} (h : a ≠ 0 ∨ b ≠ 0) : ∃ η : ℂ, η ^ 2 = 1 ∧
    Complex.cos (Spec.azimuth (b : ℂ) (a : ℂ)) = η * Complex.sin (Spec.azimuth (a : ℂ) (b : ℂ)) ∧
    Complex.sin (Spec.azimuth (b : ℂ) (a : ℂ)) = η * Complex.cos (Spec.azimuth (a : ℂ) (b : ℂ)) := by
  have hc2 : Complex.cos ((Real.pi / 2 : ℝ) : ℂ) = 0 := by
    rw [← Complex.ofReal_cos, Real.cos_pi_div_two, Complex.ofReal_zero]
  have hs2 : Complex.sin ((Real.pi / 2 : ℝ) : ℂ) = 1 := by
    rw [← Complex.ofReal_sin, Real.sin_pi_div_two, Complex.ofReal_one]
  have hz : ∀ x : ℝ, x ≠ 0 → Spec.azimuth (x : ℂ) ((0 : ℝ) : ℂ) = 0 := by
    intro x hx
    unfold Spec.azimuth
    rw [if_neg (Complex.ofReal_ne_zero.mpr hx), Complex.ofReal_zero, zero_div]
    simp [Complex.arctan]
  have hv : ∀ x : ℝ, ∃ η : ℂ, η ^ 2 = 1 ∧ Complex.cos (Spec.azimuth ((0 : ℝ) : ℂ) (x : ℂ)) = 0 ∧
      Complex.sin (Spec.azimuth ((0 : ℝ) : ℂ) (x : ℂ)) = η := by
    intro x
    unfold Spec.azimuth
    rw [if_pos Complex.ofReal_zero]
    split
    · exact ⟨-1, by norm_num, by rw [Complex.cos_neg, hc2], by rw [Complex.sin_neg, hs2]⟩
    · exact ⟨1, by norm_num, hc2, hs2⟩
  by_cases ha : a = 0
  · subst ha
    obtain ⟨η, h1, h2, h3⟩ := hv b
    rw [hz b (h.resolve_left (fun h => h rfl)), h2, h3, Complex.cos_zero, Complex.sin_zero]
    exact ⟨η, h1, by rw [← pow_two, h1], by rw [mul_zero]⟩
  · by_cases hb : b = 0
    · subst hb
      obtain ⟨η, h1, h2, h3⟩ := hv a
      rw [hz a ha, h2, h3, Complex.cos_zero, Complex.sin_zero]
      exact ⟨η, h1, by rw [mul_zero], by rw [mul_one]⟩
    · unfold Spec.azimuth
      rw [if_neg (Complex.ofReal_ne_zero.mpr ha), if_neg (Complex.ofReal_ne_zero.mpr hb), ← Complex.ofReal_div, ← Complex.ofReal_div,
        ← Complex.ofReal_arctan, ← Complex.ofReal_arctan]
      have e : a / b = (b / a)⁻¹ := (inv_div b a).symm
      rw [e]
      have hx : b / a ≠ 0 := div_ne_zero hb ha
      generalize b / a = x at hx ⊢
      simp only [← Complex.ofReal_cos, ← Complex.ofReal_sin]
      rcases lt_or_gt_of_ne hx with h0 | h0
      · refine ⟨-1, by norm_num, ?_, ?_⟩
        · rw [Real.arctan_inv_of_neg h0, show -(Real.pi / 2) - Real.arctan x = -(Real.pi / 2 + Real.arctan x) by ring, Real.cos_neg,
            add_comm, Real.cos_add_pi_div_two]
          push_cast; ring
        · rw [Real.arctan_inv_of_neg h0, show -(Real.pi / 2) - Real.arctan x = -(Real.pi / 2 + Real.arctan x) by ring, Real.sin_neg,
            add_comm, Real.sin_add_pi_div_two]
          push_cast; ring
      · refine ⟨1, by norm_num, ?_, ?_⟩
        · rw [Real.arctan_inv_of_pos h0, Real.cos_pi_div_two_sub, one_mul]
        · rw [Real.arctan_inv_of_pos h0, Real.sin_pi_div_two_sub, one_mul]

/-- The parameters with axes exchanged. -/
abbrev exchP (p : Params) (θ' : ℂ) (φ' : Option ℂ) (pol' : ℝ) (ψ' : ℂ) : Params :=
  { p with fto := (p.fto.2, p.fto.1), period := (p.period.2, p.period.1), theta := θ', phi := φ', pol := pol', psi := ψ' }

section
variable {p : Params} {θ' ψ' : ℂ} {φ' : Option ℂ} {pol' : ℝ}

theorem swapE_mod {fx fy : ℕ} (i : FlatIdx fy fx) : (swapE fx fy i).modNat = i.divNat := congrArg Prod.snd (swapE_symm i)

theorem swapE_div {fx fy : ℕ} (i : FlatIdx fy fx) : (swapE fx fy i).divNat = i.modNat := congrArg Prod.fst (swapE_symm i)

theorem kx_swap (ht : sinTheta p.theta = Complex.sin p.theta) (ht' : sinTheta θ' = Complex.sin θ')
    (h : Spec.ExchangedDirection p.theta p.phi θ' φ') (i : Fin (2 * p.fto.2 + 1)) :
    kxVec (exchP p θ' φ' pol' ψ') p.wavelength i = kyVec p p.wavelength i := by
  unfold kxVec kyVec
  simp only
  rw [ht, ht']
  congr 1
  linear_combination p.n_top * h.x

theorem ky_swap (ht : sinTheta p.theta = Complex.sin p.theta) (ht' : sinTheta θ' = Complex.sin θ')
    (h : Spec.ExchangedDirection p.theta p.phi θ' φ') (i : Fin (2 * p.fto.1 + 1)) :
    kyVec (exchP p θ' φ' pol' ψ') p.wavelength i = kxVec p p.wavelength i := by
  unfold kxVec kyVec
  simp only
  rw [ht, ht']
  congr 1
  linear_combination p.n_top * h.y

theorem kzOf_swap (n kx ky : ℂ) : Spec.kzOf n ky kx = Spec.kzOf n kx ky := by
  unfold Spec.kzOf
  rw [sub_right_comm]

theorem incident_swap {fx fy : ℕ} (j : Fin (2 * fy + 1)) (i : Fin (2 * fx + 1)) :
    Spec.incidentOrder (fx := fy) (fy := fx) i j = Spec.incidentOrder (fx := fx) (fy := fy) j i := by
  unfold Spec.incidentOrder
  exact if_congr and_comm rfl rfl

/-- The amplitudes in `r'` are those in `r` with the order indices exchanged, up to phases. -/
structure SwapNorm {a b : ℕ} (r : SubRes a b) (r' : SubRes b a) : Prop where
  R_s : ∀ j i, ‖r'.R_s j i‖ = ‖r.R_s i j‖
  R_p : ∀ j i, ‖r'.R_p j i‖ = ‖r.R_p i j‖
  T_s : ∀ j i, ‖r'.T_s j i‖ = ‖r.T_s i j‖
  T_p : ∀ j i, ‖r'.T_p j i‖ = ‖r.T_p i j‖

theorem SwapNorm.congr {ny nx : ℕ} {r : SubRes ny nx} {r' r'' : SubRes nx ny} (h : SwapNorm r r') (h' : Spec.SameAmplitudes r' r'') :
    SwapNorm r r'' := by
  obtain ⟨h1, h2, h3, h4⟩ := h'
  exact ⟨h1 ▸ h.R_s, h2 ▸ h.R_p, h3 ▸ h.T_s, h4 ▸ h.T_p⟩

theorem SwapNorm.eff {ny nx : ℕ} {r : SubRes ny nx} {r' : SubRes nx ny} (h : SwapNorm r r')
    {w : Fin 4 → Fin ny → Fin nx → ℂ} {w' : Fin 4 → Fin nx → Fin ny → ℂ} (hw : ∀ k j i, w' k j i = w k i j)
    (hr : EffBy (w 0) (w 1) (w 2) (w 3) r) (hr' : EffBy (w' 0) (w' 1) (w' 2) (w' 3) r') : Spec.ExchangedEff r r' := by
  have e : ∀ {a b c d : ℂ}, ‖a‖ = ‖b‖ → c = d → effOf a c = effOf b d := by
    intro a b c d h1 h2
    rw [effOf_eq, effOf_eq, Complex.normSq_eq_norm_sq, Complex.normSq_eq_norm_sq, h1, h2]
  have h1 : ∀ j i, r'.de_ri_s j i = r.de_ri_s i j := fun j i => by
    rw [hr'.ri_s, hr.ri_s]; exact e (h.R_s j i) (hw _ _ _)
  have h2 : ∀ j i, r'.de_ri_p j i = r.de_ri_p i j := fun j i => by
    rw [hr'.ri_p, hr.ri_p]; exact e (h.R_p j i) (hw _ _ _)
  have h3 : ∀ j i, r'.de_ti_s j i = r.de_ti_s i j := fun j i => by
    rw [hr'.ti_s, hr.ti_s]; exact e (h.T_s j i) (hw _ _ _)
  have h4 : ∀ j i, r'.de_ti_p j i = r.de_ti_p i j := fun j i => by
    rw [hr'.ti_p, hr.ti_p]; exact e (h.T_p j i) (hw _ _ _)
  exact ⟨h1, h2, fun j i => by rw [hr'.ri, hr.ri, h1, h2], h3, h4, fun j i => by rw [hr'.ti, hr.ti, h3, h4]⟩

/-- Real wavevectors, none of them along the normal. -/
def RealOblique (p : Params) : Prop := ∀ (j : Fin (2 * p.fto.2 + 1)) (i : Fin (2 * p.fto.1 + 1)), ∃ a b : ℝ,
  kxVec p p.wavelength i = a ∧ kyVec p p.wavelength j = b ∧ (a ≠ 0 ∨ b ≠ 0)

theorem exchange_core (ht : sinTheta p.theta = Complex.sin p.theta) (ht' : sinTheta θ' = Complex.sin θ')
    (hd : Spec.ExchangedDirection p.theta p.phi θ' φ') (hk : RealOblique p)
    {cs : List (Conv (FlatIdx p.fto.1 p.fto.2))} {ψ ψ1 : ℂ} (hψ : Spec.ExchangedPsi ψ ψ1)
    {r : SubRes (2 * p.fto.2 + 1) (2 * p.fto.1 + 1)} {fs} (h : Spec.Diffraction p cs ψ r fs) :
    ∃ r' fs', Spec.Diffraction (exchP p θ' φ' pol' ψ') (cs.map Conv.exchange) ψ1 r' fs' ∧ SwapNorm r r' := by
  obtain ⟨c, hc, hsin, hcos⟩ := hψ
  have hη : ∀ (j : Fin (2 * p.fto.2 + 1)) (i : Fin (2 * p.fto.1 + 1)), ∃ η : ℂ, η ^ 2 = 1 ∧
      Complex.cos (Spec.azimuth (kyVec p p.wavelength j) (kxVec p p.wavelength i))
        = η * Complex.sin (Spec.azimuth (kxVec p p.wavelength i) (kyVec p p.wavelength j)) ∧
      Complex.sin (Spec.azimuth (kyVec p p.wavelength j) (kxVec p p.wavelength i))
        = η * Complex.cos (Spec.azimuth (kxVec p p.wavelength i) (kyVec p p.wavelength j)) := by
    intro j i
    obtain ⟨a, b, ea, eb, hab⟩ := hk j i
    rw [ea, eb]
    exact azimuth_swap hab
  choose η hη0 hη1 hη2 using hη
  set z : ℂ := c * η (ctr p.fto.2) (ctr p.fto.1) with hz
  have hzn : ‖z‖ = 1 := by rw [hz, norm_mul, norm_sq_one hc, norm_sq_one (hη0 _ _), one_mul]
  have hs := solves_swap (swapE p.fto.1 p.fto.2) z h
  refine ⟨{ R_s := fun i j => -(z * η j i * r.R_s j i)
            R_p := fun i j => z * η j i * r.R_p j i
            T_s := fun i j => -(z * η j i * r.T_s j i)
            T_p := fun i j => z * η j i * r.T_p j i
            de_ri_s := fun i j => r.de_ri_s j i, de_ri_p := fun i j => r.de_ri_p j i, de_ri := fun i j => r.de_ri j i
            de_ti_s := fun i j => r.de_ti_s j i, de_ti_p := fun i j => r.de_ti_p j i, de_ti := fun i j => r.de_ti j i },
    fs.map (swapF (swapE p.fto.1 p.fto.2) z), ?_, ?_⟩
  rotate_left
  · have h3 := fun j i => norm_sq_one (hη0 j i)
    constructor <;> intro j i <;> simp only [norm_neg, norm_mul, hzn, h3, one_mul]
  · unfold Spec.Diffraction
    have e1 : (fun i : FlatIdx p.fto.2 p.fto.1 => kxVec (exchP p θ' φ' pol' ψ') p.wavelength i.modNat)
        = fun i => kyVec p p.wavelength (swapE p.fto.1 p.fto.2 i).divNat := by
      funext i; rw [swapE_div]; exact kx_swap ht ht' hd _
    have e2 : (fun i : FlatIdx p.fto.2 p.fto.1 => kyVec (exchP p θ' φ' pol' ψ') p.wavelength i.divNat)
        = fun i => kxVec p p.wavelength (swapE p.fto.1 p.fto.2 i).modNat := by
      funext i; rw [swapE_mod]; exact ky_swap ht ht' hd _
    have e3 : (cs.map Conv.exchange).zip p.thickness
        = (cs.zip p.thickness).map fun x => (x.1.swapBy (swapE p.fto.1 p.fto.2), x.2) := by
      rw [List.zip_map_left]
      rfl
    have e4 : ∀ r' : SubRes (2 * p.fto.1 + 1) (2 * p.fto.2 + 1), (∀ i j, r'.R_s i j = -(z * η j i * r.R_s j i)) →
          (∀ i j, r'.R_p i j = z * η j i * r.R_p j i) →
          (fun i : FlatIdx p.fto.2 p.fto.1 => Spec.above (exchP p θ' φ' pol' ψ') ψ1 r' i.divNat i.modNat)
        = fun i => swapT z (Spec.above p ψ r (swapE p.fto.1 p.fto.2 i).divNat (swapE p.fto.1 p.fto.2 i).modNat) := by
      intro r' h1 h2
      funext i
      rw [swapE_div, swapE_mod]
      generalize Fin.modNat i = j
      generalize Fin.divNat i = i
      unfold Spec.above
      simp only
      rw [kx_swap ht ht' hd, ky_swap ht ht' hd, kzOf_swap, swapT_add,
        swapT_wave (hη0 j i) (hη1 j i) (hη2 j i), swapT_wave (hη0 j i) (hη1 j i) (hη2 j i), h1, h2, hd.z, incident_swap]
      congr 1
      · by_cases hi : j = ctr p.fto.2 ∧ i = ctr p.fto.1
        · obtain ⟨rfl, rfl⟩ := hi
          rw [hsin, hcos, hz]
          have := hη0 (ctr p.fto.2) (ctr p.fto.1)
          congr 1
          · linear_combination (c * Complex.sin ψ * Spec.incidentOrder (ctr p.fto.2) (ctr p.fto.1)) * this
          · linear_combination (-(c * p.n_top * Complex.cos ψ * Spec.incidentOrder (ctr p.fto.2) (ctr p.fto.1))) * this
        · have : Spec.incidentOrder j i = 0 := by
            unfold Spec.incidentOrder
            rw [if_neg]
            rintro ⟨h1, h2⟩
            exact hi ⟨Fin.ext h1, Fin.ext h2⟩
          rw [this]; simp only [mul_zero, neg_zero]
      · congr 1; ring
    have e5 : ∀ r' : SubRes (2 * p.fto.1 + 1) (2 * p.fto.2 + 1), (∀ i j, r'.T_s i j = -(z * η j i * r.T_s j i)) →
          (∀ i j, r'.T_p i j = z * η j i * r.T_p j i) →
          (fun i : FlatIdx p.fto.2 p.fto.1 => Spec.below (exchP p θ' φ' pol' ψ') r' i.divNat i.modNat)
        = fun i => swapT z (Spec.below p r (swapE p.fto.1 p.fto.2 i).divNat (swapE p.fto.1 p.fto.2 i).modNat) := by
      intro r' h1 h2
      funext i
      rw [swapE_div, swapE_mod]
      generalize Fin.modNat i = j
      generalize Fin.divNat i = i
      unfold Spec.below
      simp only
      rw [kx_swap ht ht' hd, ky_swap ht ht' hd, kzOf_swap, swapT_wave (hη0 j i) (hη1 j i) (hη2 j i), h1, h2]
      congr 1; ring
    simp only at e1 e2 e3 ⊢
    rw [e1, e2, e3, e4 _ (fun _ _ => rfl) (fun _ _ => rfl), e5 _ (fun _ _ => rfl) (fun _ _ => rfl)]
    exact hs

end

section
variable {s : Settings} {θ' ψ' : ℂ} {φ' : Option ℂ} {pol' : ℝ} {u : Ucell}

theorem weights_swap (ht : sinTheta s.p.theta = Complex.sin s.p.theta) (ht' : sinTheta θ' = Complex.sin θ')
    (hd : Spec.ExchangedDirection s.p.theta s.p.phi θ' φ') (hg : gratingType s ≠ 0)
    (hg' : gratingType (Spec.exchangeAxes s u θ' φ' pol' ψ') ≠ 0) (k : Fin 4) (j i) :
    weights (Spec.exchangeAxes s u θ' φ' pol' ψ') k j i = weights s k i j := by
  have hx := kx_swap (pol' := pol') (ψ' := ψ') ht ht' hd
  have hy := ky_swap (pol' := pol') (ψ' := ψ') ht ht' hd
  unfold weights
  rw [if_neg hg, if_neg hg']
  have e : ∀ n (j : Fin (2 * s.p.fto.1 + 1)) (i : Fin (2 * s.p.fto.2 + 1)),
      kz2d n (kxF (exchP s.p θ' φ' pol' ψ') s.p.wavelength) (kyF (exchP s.p θ' φ' pol' ψ') s.p.wavelength) (finProdFinEquiv (j, i))
      = kz2d n (kxF s.p s.p.wavelength) (kyF s.p s.p.wavelength) (finProdFinEquiv (i, j)) := by
    intro n j i
    unfold kz2d kxF kyF tileX tileY
    simp only [modNat_prod, divNat_prod]
    rw [hx, hy, sub_right_comm]
  fin_cases k <;> simp only [Fin.zero_eta, Fin.mk_one, Fin.reduceFinMk, Matrix.cons_val, Matrix.cons_val_zero, Matrix.cons_val_one, e, hd.z]

/-- Wavevectors of a problem that was solved. -/
theorem solved_oblique {la : LinAlg} (hi : Spec.RealIllumination s.p) (ha : s.algo = .tmm) (hg : gratingType s ≠ 0)
    {cs} (hc : convMats la s = .ok cs) {sol} (h : conv_solve la s = .ok sol) : RealOblique s.p := by
  have hI := RealIncidence.of_spec hi
  have hn : ¬ ∃ i, kxF s.p s.p.wavelength i = 0 ∧ kyF s.p s.p.wavelength i = 0 := by
    intro hex
    have : conv_solve la s = .error .nan := by
      unfold conv_solve
      rw [bind_nan, hc]
      simp only [reduceCtorEq, false_or, Except.ok.injEq, exists_eq_left', solve_for_conv_nan, ha, true_and]
      exact ⟨hg, hex⟩
    rw [this] at h
    cases h
  obtain ⟨ph, hph⟩ : ∃ ph : ℝ, s.p.phi.getD 0 = (ph : ℂ) := by
    cases e : s.p.phi with
    | none => exact ⟨0, by simp⟩
    | some φ => exact ⟨φ.re, Complex.ext rfl (hi.phi_real φ e)⟩
  intro j i
  have hxe : kxF s.p s.p.wavelength (finProdFinEquiv (j, i)) = kxVec s.p s.p.wavelength i := by
    unfold kxF tileX; rw [modNat_prod]
  have hye : kyF s.p s.p.wavelength (finProdFinEquiv (j, i)) = kyVec s.p s.p.wavelength j := by
    unfold kyF tileY; rw [divNat_prod]
  obtain ⟨a, ea⟩ := hI.kxF_real hph s.p.wavelength (finProdFinEquiv (j, i))
  obtain ⟨b, eb⟩ := hI.kyF_real hph s.p.wavelength (finProdFinEquiv (j, i))
  refine ⟨a, b, hxe.symm.trans ea, hye.symm.trans eb, ?_⟩
  by_contra hab
  push Not at hab
  exact hn ⟨_, by rw [ea, hab.1, Complex.ofReal_zero], by rw [eb, hab.2, Complex.ofReal_zero]⟩

end

end Meent
