import Verif.Lemmas.SmallCell
import Verif.Lemmas.ThinFilm
import Verif.Lemmas.ReciprocitySolve

/-!
# Light in a layer whose matrices are multiples of the identity, in a plane that contains an axis (helper lemmas)
-/

open Matrix

namespace Meent

set_option linter.unusedSimpArgs false
set_option linter.unusedVariables false

/-- `film_maxwell` for a layer with principal permittivities: `e` across the plane of incidence, `e'` along it. -/
theorem tri_maxwell {m : Type} [Fintype m] [DecidableEq m] {k0 : ℝ} {kx ky : m → ℂ} {c s κ : ℂ} {ex ey ez : ℝ} {e e' : ℂ} (hez : (ez : ℂ) ≠ 0)
    {D : Set ℝ} {f : Spec.OrderFields m} (h : Spec.Maxwell k0 kx ky (triConv ex ey ez) D f) {i : m} (hx : kx i = κ * c) (hy : ky i = κ * s)
    (hcs : c ^ 2 + s ^ 2 = 1) (h1 : s * ex = s * e) (h2 : c * ey = c * e) (h3 : c * ex = c * e') (h4 : s * ey = s * e') :
    (∀ t ∈ D, HasDerivWithinAt (fun t => (f.tan t i).sE c s) (-(Complex.I * k0 * 1 * (f.tan t i).sH c s)) D t) ∧
    (∀ t ∈ D, HasDerivWithinAt (fun t => (f.tan t i).sH c s) (-(Complex.I * k0 * (e - κ ^ 2) * (f.tan t i).sE c s)) D t) ∧
    (∀ t ∈ D, HasDerivWithinAt (fun t => (f.tan t i).pH c s) (-(Complex.I * k0 * e' * (f.tan t i).pE c s)) D t) ∧
    (∀ t ∈ D, HasDerivWithinAt (fun t => (f.tan t i).pE c s) (-(Complex.I * k0 * ((ez - κ ^ 2) / ez) * (f.tan t i).pH c s)) D t) := by
  obtain ⟨zEx, zEy, zHx, zHy, d1, d2, d3, d4, h5⟩ := h
  have key : ∀ t ∈ D, _ := fun t ht => h5 t ht
  simp only [Spec.Tangential.sE, Spec.Tangential.sH, Spec.Tangential.pH, Spec.Tangential.pE, Spec.OrderFields.tan]
  refine ⟨fun t ht => ?_, fun t ht => ?_, fun t ht => ?_, fun t ht => ?_⟩ <;>
    obtain ⟨e1, e2, e3, e4, e5, e6⟩ := key t ht <;>
    have e1 := congrFun e1 i <;> have e2 := congrFun e2 i <;> have e3 := congrFun e3 i <;> have e4 := congrFun e4 i <;>
    have e5 := congrFun e5 i <;> have e6 := congrFun e6 i <;>
    simp only [triConv, Pi.sub_apply, Pi.smul_apply, smul_eq_mul, smul_mulVec, one_mulVec, hx, hy] at e1 e2 e3 e4 e5 e6
  · refine (((d1 t ht i).const_mul (-s)).add ((d2 t ht i).const_mul c)).congr_deriv ?_
    linear_combination s * e2 + c * e1
  · refine (((d3 t ht i).const_mul c).add ((d4 t ht i).const_mul s)).congr_deriv ?_
    linear_combination (-c) * e5 + s * e4 + κ * (c ^ 2 + s ^ 2) * e3 + (Complex.I * k0 * κ ^ 2 * (c * f.Ey t i - s * f.Ex t i)) * hcs
      + Complex.I * k0 * f.Ex t i * h1 - Complex.I * k0 * f.Ey t i * h2
  · refine (((d3 t ht i).const_mul (-s)).add ((d4 t ht i).const_mul c)).congr_deriv ?_
    linear_combination s * e5 + c * e4 + Complex.I * k0 * f.Ex t i * h3 + Complex.I * k0 * f.Ey t i * h4
  · refine ((((d1 t ht i).const_mul c).add ((d2 t ht i).const_mul s)).neg).congr_deriv ?_
    have e6' : (-Complex.I * k0 * (κ * c) * f.Hy t i - -Complex.I * k0 * (κ * s) * f.Hx t i) = ez * (Complex.I * k0 * f.Ez t i) := by
      rw [← e6]; field_simp
    field_simp
    linear_combination c * e2 * ez - s * e1 * ez + κ * (c ^ 2 + s ^ 2) * e6' + (Complex.I * k0 * κ ^ 2 * (c * f.Hy t i - s * f.Hx t i)) * hcs

theorem kz_top_ctr {p : Params} (h : Spec.RealIllumination p) :
    Spec.kzOf p.n_top (kxVec p p.wavelength (ctr p.fto.1)) (kyVec p p.wavelength (ctr p.fto.2)) = p.n_top * Complex.cos p.theta := by
  have hinc := RealIncidence.of_spec h
  have := hinc.kz_ctr2 (phi_getD_real h) p.wavelength
  unfold kz2d ctr2 kxF kyF tileX tileY at this
  rw [modNat_prod, divNat_prod] at this
  unfold Spec.kzOf
  rw [this, hinc.cos_eq, Complex.ofReal_mul, ← hinc.hn]

/-- Fields at the top of a layer from those at its bottom. -/
noncomputable def layerMatrix (δ Y : ℂ) : Matrix (Fin 2) (Fin 2) ℂ :=
  !![Complex.cos δ, Complex.I * Complex.sin δ / Y; Complex.I * Y * Complex.sin δ, Complex.cos δ]

variable {κ d : ℝ}

/-- Permittivities across and along the plane of incidence. -/
noncomputable def across (φ ex ey : ℝ) : ℝ := if Real.cos φ = 0 then ex else ey

theorem vec_eq {a b c e u v x y : ℂ} (h0 : u = a * x + b * y) (h1 : v = c * x + e * y) : ![u, v] = !![a, b; c, e] *ᵥ ![x, y] := by
  rw [h0, h1]
  ext k
  fin_cases k <;> simp [mulVec, dotProduct, Fin.sum_univ_two]

theorem cell_waves (hκ : 0 < κ) (a : Fin 2 → Fin 2 → ℂ) (φ : ℝ) (h0 : Real.cos φ = 0 ∨ Real.sin φ = 0) {ex ey ez : ℝ} (hez : ez ≠ 0)
    {β βp Y : ℂ} (hβ : β ≠ 0) (hY : Y ≠ 0) (b1 : β ^ 2 = ((across φ ex ey - κ ^ 2 : ℝ) : ℂ)) (b2 : (across φ ey ex : ℂ) * Y = βp)
    (b3 : (((ez - κ ^ 2) / ez : ℝ) : ℂ) = βp * Y) {ψ : ℂ} {r fs}
    (hd : Spec.Diffraction (cellSettings a φ κ (2 * κ) d).p [triConv ex ey ez] ψ r fs) :
    let y : ℂ := (2 * κ : ℝ) * Complex.cos ((Real.pi / 6 : ℝ) : ℂ)
    let z : ℂ := y / ((2 * κ : ℝ) : ℂ) ^ 2
    ![Complex.sin ψ + r.R_s (ctr _) (ctr _), y * Complex.sin ψ + -y * r.R_s (ctr _) (ctr _)]
      = layerMatrix (2 * Real.pi * β * d) β *ᵥ ![r.T_s (ctr _) (ctr _), y * r.T_s (ctr _) (ctr _)] ∧
    ![(2 * κ : ℝ) * Complex.cos ψ + -Complex.I * r.R_p (ctr _) (ctr _),
        z * ((2 * κ : ℝ) * Complex.cos ψ) + -z * (-Complex.I * r.R_p (ctr _) (ctr _))]
      = layerMatrix (2 * Real.pi * βp * d) Y *ᵥ ![-Complex.I * r.T_p (ctr _) (ctr _), z * (-Complex.I * r.T_p (ctr _) (ctr _))] := by
  have hi := cell_illumination (nb := 2 * κ) (d := d) hκ a φ
  generalize hs : cellSettings a φ κ (2 * κ) d = s at *
  have g1 : s.p.n_top = ((2 * κ : ℝ) : ℂ) := by rw [← hs]; rfl
  have g2 : s.p.n_bot = ((2 * κ : ℝ) : ℂ) := by rw [← hs]; rfl
  have g3 : s.p.theta = ((Real.pi / 6 : ℝ) : ℂ) := by rw [← hs]; rfl
  have g4 : s.p.thickness = [d] := by rw [← hs]; rfl
  have g5 : Spec.k0Of s.p = 2 * Real.pi := by rw [← hs]; simp [Spec.k0Of, cellSettings, exParams]
  have gx : Spec.orderKx s.p 0 = κ * Real.cos φ := by
    rw [← hs]; simp only [Spec.orderKx, cellSettings, exParams, Option.getD_some, Int.cast_zero, zero_mul, add_zero, Complex.ofReal_re]
    rw [Real.sin_pi_div_six]; ring
  have gy : Spec.orderKy s.p 0 = κ * Real.sin φ := by
    rw [← hs]; simp only [Spec.orderKy, cellSettings, exParams, Option.getD_some, Int.cast_zero, zero_mul, add_zero, Complex.ofReal_re]
    rw [Real.sin_pi_div_six]; ring
  have hx := kxVec_order hi (ctr s.p.fto.1)
  rw [colOrder_zero.mpr rfl] at hx
  have hy := kyVec_order hi (ctr s.p.fto.2)
  rw [rowOrder_zero.mpr rfl] at hy
  obtain ⟨κ', kx, ky⟩ := azimuth_polar (Spec.orderKx s.p 0) (Spec.orderKy s.p 0)
  rw [← hx, ← hy] at kx ky
  have kt := kz_top_ctr hi
  rw [g1, g3] at kt
  unfold Spec.Diffraction at hd
  rw [g4, g5] at hd
  cases fs with
  | nil => exact hd.elim
  | cons f fs =>
  cases fs with
  | cons _ _ => exact hd.2.2.elim
  | nil =>
  obtain ⟨hM, ht, hb⟩ := hd
  replace hb : f.tan d = _ := hb
  set A := Spec.azimuth (kxVec s.p s.p.wavelength (ctr s.p.fto.1)) (kyVec s.p s.p.wavelength (ctr s.p.fto.2)) with hA
  have hcs : Complex.cos A ^ 2 + Complex.sin A ^ 2 = 1 := by rw [add_comm]; exact Complex.sin_sq_add_cos_sq _
  have kx' : ((κ * Real.cos φ : ℝ) : ℂ) = κ' * Complex.cos A := by rw [← kx, hx, gx]
  have ky' : ((κ * Real.sin φ : ℝ) : ℂ) = κ' * Complex.sin A := by rw [← ky, hy, gy]
  have k2 : κ' ^ 2 = ((κ ^ 2 : ℝ) : ℂ) := by
    have e : ((κ * Real.cos φ : ℝ) : ℂ) ^ 2 + ((κ * Real.sin φ : ℝ) : ℂ) ^ 2 = ((κ ^ 2 : ℝ) : ℂ) := by
      have := Real.sin_sq_add_cos_sq φ
      have : (κ * Real.cos φ) ^ 2 + (κ * Real.sin φ) ^ 2 = κ ^ 2 := by linear_combination κ ^ 2 * this
      exact_mod_cast this
    rw [← e, kx', ky']
    linear_combination (-κ' ^ 2) * hcs
  have kn : κ' ≠ 0 := by
    rintro rfl
    rw [zero_pow two_ne_zero] at k2
    have : (κ ^ 2 : ℝ) = 0 := by exact_mod_cast k2.symm
    exact hκ.ne' (pow_eq_zero_iff two_ne_zero |>.mp this)
  have hz : (Complex.cos A = 0 ∧ across φ ex ey = ex ∧ across φ ey ex = ey) ∨ (Complex.sin A = 0 ∧ across φ ex ey = ey ∧ across φ ey ex = ex) := by
    by_cases hc : Real.cos φ = 0
    · left
      rw [hc, mul_zero, Complex.ofReal_zero] at kx'
      exact ⟨(mul_eq_zero.mp kx'.symm).resolve_left kn, if_pos hc, if_pos hc⟩
    · right
      rw [h0.resolve_left hc, mul_zero, Complex.ofReal_zero] at ky'
      exact ⟨(mul_eq_zero.mp ky'.symm).resolve_left kn, if_neg hc, if_neg hc⟩
  obtain ⟨m1, m2, m3, m4⟩ := tri_maxwell (e := (across φ ex ey : ℂ)) (e' := (across φ ey ex : ℂ)) (by exact_mod_cast hez) hM
    (i := (finProdFinEquiv (ctr s.p.fto.2, ctr s.p.fto.1) : FlatIdx s.p.fto.1 s.p.fto.2)) (c := Complex.cos A) (s := Complex.sin A) (κ := κ')
    (by rw [modNat_prod]; exact kx) (by rw [divNat_prod]; exact ky) hcs
    (by rcases hz with ⟨-, h, -⟩ | ⟨h, -, -⟩ <;> rw [h]; simp) (by rcases hz with ⟨h, -, -⟩ | ⟨-, h, -⟩ <;> rw [h]; simp)
    (by rcases hz with ⟨h, -, -⟩ | ⟨-, -, h⟩ <;> rw [h]; simp) (by rcases hz with ⟨-, -, h⟩ | ⟨h, -, -⟩ <;> rw [h]; simp)
  obtain ⟨p1, p2⟩ := film_ode (β := β) (Y := β) hβ (one_mul _) (by rw [k2, ← Complex.ofReal_sub, ← b1]; ring) m1 m2
  obtain ⟨q1, q2⟩ := film_ode (β := βp) (Y := Y) hY b2 (by rw [k2, ← b3]; push_cast; rfl) m3 m4
  have hin : Spec.incidentOrder (ctr s.p.fto.2) (ctr s.p.fto.1) = 1 := if_pos ⟨rfl, rfl⟩
  rw [ht, hb] at p1 p2 q1 q2
  simp only [Spec.above, Spec.below, modNat_prod, divNat_prod, (planeWave_parts _ _ _ _ _).1, (planeWave_parts _ _ _ _ _).2.1,
    (planeWave_parts _ _ _ _ _).2.2.1, (planeWave_parts _ _ _ _ _).2.2.2, (parts_add _ _ _ _).1, (parts_add _ _ _ _).2.1,
    (parts_add _ _ _ _).2.2.1, (parts_add _ _ _ _).2.2.2, hin, mul_one, g1, g2, g3, kt, neg_div, ← hA] at p1 p2 q1 q2
  have hk : ((2 * Real.pi : ℝ) : ℂ) = 2 * Real.pi := by push_cast; rfl
  rw [hk] at p1 p2 q1 q2
  exact ⟨vec_eq (by linear_combination p1) (by linear_combination p2), vec_eq (by linear_combination q1) (by linear_combination q2)⟩

theorem cell_te (hκ : 0 < κ) (a : Fin 2 → Fin 2 → ℂ) (φ : ℝ) (h0 : Real.cos φ = 0 ∨ Real.sin φ = 0) {ex ey ez : ℝ} (hez : ez ≠ 0)
    (hx : ((2 / (a 1 0 ^ 2 + a 0 0 ^ 2) + 2 / (a 1 1 ^ 2 + a 0 1 ^ 2)) / 2)⁻¹ = (ex : ℂ))
    (hy : (2 / (1 / a 1 0 ^ 2 + 1 / a 0 0 ^ 2) + 2 / (1 / a 1 1 ^ 2 + 1 / a 0 1 ^ 2)) / 2 = (ey : ℂ))
    (hz : ((a 1 0 ^ 2 + a 0 0 ^ 2) / 2 + (a 1 1 ^ 2 + a 0 1 ^ 2) / 2) / 2 = (ez : ℂ))
    {β βp Y : ℂ} (hβ : β ≠ 0) (hY : Y ≠ 0) (b1 : β ^ 2 = ((across φ ex ey - κ ^ 2 : ℝ) : ℂ)) (b2 : (across φ ey ex : ℂ) * Y = βp)
    (b3 : (((ez - κ ^ 2) / ez : ℝ) : ℂ) = βp * Y) {la : LinAlg} {sol} (h : conv_solve la (cellSettings a φ κ (2 * κ) d) = .ok sol) :
    ∃ y te tm, sol.result = ⟨some y, some te, some tm⟩ ∧ ∃ R T : ℂ, (∀ j i, te.de_ri j i = Complex.normSq R) ∧
      ![1 + R, (κ * Real.sqrt 3 : ℝ) * 1 + -((κ * Real.sqrt 3 : ℝ) : ℂ) * R]
        = layerMatrix (2 * Real.pi * β * d) β *ᵥ ![T, (κ * Real.sqrt 3 : ℝ) * T] := by
  have hi := cell_illumination (nb := 2 * κ) (d := d) hκ a φ
  have hg : gratingType (cellSettings a φ κ (2 * κ) d) = 2 := by simp [gratingType, cellSettings, exParams]
  have hκ2 : ((2 * κ : ℝ) : ℂ) ≠ 0 := by exact_mod_cast (by linarith : 0 < 2 * κ).ne'
  have hcos : Complex.cos ((Real.pi / 6 : ℝ) : ℂ) = ((Real.sqrt 3 / 2 : ℝ) : ℂ) := by rw [← Complex.ofReal_cos, Real.cos_pi_div_six]
  have h3 : Real.sqrt 3 ≠ 0 := by positivity
  have hcos0 : Complex.cos ((Real.pi / 6 : ℝ) : ℂ) ≠ 0 := by
    rw [hcos]; exact_mod_cast (div_ne_zero h3 two_ne_zero)
  have hs1 : Complex.sin ((Real.pi / 2 : ℝ) : ℂ) = 1 := by rw [← Complex.ofReal_sin, Real.sin_pi_div_two, Complex.ofReal_one]
  have hc1 : Complex.cos ((Real.pi / 2 : ℝ) : ℂ) = 0 := by rw [← Complex.ofReal_cos, Real.cos_pi_div_two, Complex.ofReal_zero]
  obtain ⟨cs, y, te, tm, hc, er, -, ⟨f2, d2⟩, ⟨f3, d3⟩⟩ :=
    solved_bvp (s := cellSettings a φ κ (2 * κ) d) rfl rfl hκ2 (by rw [hg]; decide) h
  obtain rfl := cell_conv hc hx hy hz
  obtain ⟨s2, p2⟩ := cell_waves hκ a φ h0 hez hβ hY b1 b2 b3 d2
  obtain ⟨-, p3⟩ := cell_waves hκ a φ h0 hez hβ hY b1 b2 b3 d3
  have den : filmDen ((2 * κ : ℝ) * Complex.cos ((Real.pi / 6 : ℝ) : ℂ) / ((2 * κ : ℝ) : ℂ) ^ 2)
      ((2 * κ : ℝ) * Complex.cos ((Real.pi / 6 : ℝ) : ℂ) / ((2 * κ : ℝ) : ℂ) ^ 2) (layerMatrix (2 * Real.pi * βp * d) Y) ≠ 0 := by
    intro e
    have := film_den p3
    rw [e, zero_mul, Complex.cos_zero, mul_one] at this
    exact mul_ne_zero (mul_ne_zero two_ne_zero (div_ne_zero (mul_ne_zero hκ2 hcos0) (pow_ne_zero 2 hκ2))) hκ2 this.symm
  have hp := (film_solve p2 den).1
  rw [hc1, mul_zero, zero_mul] at hp
  have hp0 : te.R_p (ctr _) (ctr _) = 0 := (mul_eq_zero.mp hp).resolve_left (neg_ne_zero.mpr Complex.I_ne_zero)
  have hE := conv_solve_eff h (x := te) (by rw [er]; exact .inr (.inl rfl))
  have hw : (weights (cellSettings a φ κ (2 * κ) d) 0 (ctr _) (ctr _)) = 1 := by
    have hw : ∀ k, weights (cellSettings a φ κ (2 * κ) d) k = _ := fun k => congrFun (if_neg (by rw [hg]; decide)) k
    simp only [hw, cons_val_zero]
    have kt := kz_top_ctr hi
    have : kz2d (cellSettings a φ κ (2 * κ) d).p.n_top (kxF (cellSettings a φ κ (2 * κ) d).p (cellSettings a φ κ (2 * κ) d).p.wavelength)
        (kyF (cellSettings a φ κ (2 * κ) d).p (cellSettings a φ κ (2 * κ) d).p.wavelength) (finProdFinEquiv (ctr _, ctr _))
        = (cellSettings a φ κ (2 * κ) d).p.n_top * Complex.cos (cellSettings a φ κ (2 * κ) d).p.theta := by
      refine Eq.trans ?_ kt
      simp only [kz2d, Spec.kzOf, kxF, kyF, tileX, tileY, modNat_prod, divNat_prod]
    rw [this]
    exact div_self (mul_ne_zero hκ2 hcos0)
  refine ⟨y, te, tm, er, te.R_s (ctr _) (ctr _), te.T_s (ctr _) (ctr _), fun j i => ?_, ?_⟩
  · have hj : j = ctr _ := Subsingleton.elim (α := Fin 1) _ _
    have hi : i = ctr _ := Subsingleton.elim (α := Fin 1) _ _
    rw [hj, hi, hE.ri, hE.ri_s, hE.ri_p, hp0, hw, effOf_eq, effOf_eq]
    simp
  · have e : ((2 * κ : ℝ) : ℂ) * Complex.cos ((Real.pi / 6 : ℝ) : ℂ) = ((κ * Real.sqrt 3 : ℝ) : ℂ) := by
      rw [hcos]; push_cast; ring
    simp only [hs1, e] at s2
    exact s2

/-- A half-wave layer between equal media reflects nothing. -/
theorem cell_half_wave {y β R T : ℂ} (hy : y ≠ 0) (h : ![1 + R, y * 1 + -y * R] = layerMatrix Real.pi β *ᵥ ![T, y * T]) : R = 0 := by
  have h0 := congrFun h 0
  have h1 := congrFun h 1
  simp only [layerMatrix, mulVec, dotProduct, Fin.sum_univ_two, Complex.cos_pi, Complex.sin_pi, of_apply, cons_val_zero, cons_val_one,
    mul_zero, zero_div, zero_mul, add_zero, zero_add] at h0 h1
  have : y * (2 * R) = 0 := by linear_combination y * h0 - h1
  simpa [hy] using this

/-- Other layers reflect something, unless their admittance is that of the media. -/
theorem cell_some_wave {y β δ R T : ℂ} (hy : y ≠ 0) (hβ : β ≠ 0) (hδ : Complex.sin δ ≠ 0) (hne : y ^ 2 ≠ β ^ 2)
    (h : ![1 + R, y * 1 + -y * R] = layerMatrix δ β *ᵥ ![T, y * T]) : R ≠ 0 := by
  rintro rfl
  have h0 := congrFun h 0
  have h1 := congrFun h 1
  simp only [layerMatrix, mulVec, dotProduct, Fin.sum_univ_two, of_apply, cons_val_zero, cons_val_one, mul_zero, add_zero, mul_one] at h0 h1
  have e : Complex.sin δ * T * (y ^ 2 - β ^ 2) * Complex.I = 0 := by
    field_simp at h0
    linear_combination β * h1 - y * h0
  have hT : T = 0 := by
    simpa [hδ, sub_ne_zero.mpr hne] using e
  rw [hT] at h0
  simp at h0

end Meent
