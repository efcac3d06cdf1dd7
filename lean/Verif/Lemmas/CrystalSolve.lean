import Verif.Lemmas.Crystal
import Verif.Lemmas.Nan

/-!
# Solving a stack of birefringent films (helper lemmas)
-/

open Matrix

namespace Meent

set_option linter.unusedSimpArgs false
set_option linter.unusedVariables false

/-- The bare interface under the same light. -/
noncomputable def noFilms (p : Params) : Settings :=
  { p := { p with thickness := [] }, ucell := .raster ⟨1, 1, []⟩, fourier_type := 0, enhanced_dfs := true, algo := .tmm }

section

variable {p : Params} {films : List Spec.Crystal} {c₂ : ℂ}

theorem bare_problem (h : Spec.LosslessCladdings p) (hc : Spec.RefractionCos p.n_top.re p.n_bot.re p.theta.re c₂) :
    Spec.FilmProblem (noFilms p) [] c₂ where
  n_top_real := h.n_top_real
  n_top_pos := h.n_top_pos
  theta_real := h.theta_real
  theta_lo := h.theta_lo
  theta_hi := h.theta_hi
  phi_real := h.phi_real
  psi_real := h.psi_real
  wavelength_pos := h.wavelength_pos
  period_x_pos := h.period_x_pos
  period_y_pos := h.period_y_pos
  n_bot_real := h.n_bot_real
  n_bot_pos := h.n_bot_pos
  layers := ⟨one_pos, one_pos, .nil⟩
  thickness := rfl
  refracts := fun f hf => absurd hf List.not_mem_nil
  cosine := hc

theorem Spec.Crystal.Refracts.of_sq {κ κ' : ℂ} (e : κ ^ 2 = κ' ^ 2) {f : Spec.Crystal} (h : f.Refracts κ) : f.Refracts κ' :=
  ⟨h.nx_ne, h.ny_ne, h.nz_ne, h.ks_ne, h.kp_ne, by rw [h.ordinary, e], by rw [← e]; exact h.extraordinary⟩

theorem crystals_1d (h : Spec.LosslessCladdings p) (hc : Spec.RefractionCos p.n_top.re p.n_bot.re p.theta.re c₂) (hphi : p.phi = none)
    (hth : p.thickness = films.map Spec.Crystal.d) (hr : ∀ f ∈ films, f.Refracts (p.n_top * Complex.sin p.theta))
    {r : SubRes 1 (2 * p.fto.1 + 1)} {fs} (hd : Spec.Diffraction1d p (films.map (crystalConv _)) r fs) :
    (p.pol = 0 →
      ![1 + r.R_s 0 (ctr _), p.n_top * Complex.cos p.theta * 1 + -(p.n_top * Complex.cos p.theta) * r.R_s 0 (ctr _)]
        = Spec.sMatrix (Spec.k0Of p) films *ᵥ ![r.T_s 0 (ctr _), p.n_bot * c₂ * r.T_s 0 (ctr _)]) ∧
    (p.pol ≠ 0 →
      ![1 + r.R_p 0 (ctr _), Complex.cos p.theta / p.n_top * 1 + -(Complex.cos p.theta / p.n_top) * r.R_p 0 (ctr _)]
        = Spec.pMatrix (Spec.k0Of p) films *ᵥ ![r.T_p 0 (ctr _), c₂ / p.n_bot * r.T_p 0 (ctr _)]) := by
  have hb := bare_problem h hc
  have kt : Spec.kzOf p.n_top (kxVec p p.wavelength (ctr p.fto.1)) 0 = p.n_top * Complex.cos p.theta := hb.kz_top1 hphi
  have kb : Spec.kzOf p.n_bot (kxVec p p.wavelength (ctr p.fto.1)) 0 = p.n_bot * c₂ := hb.kz_bot1 hphi
  unfold Spec.Diffraction1d at hd
  rw [hth, zip_crystals] at hd
  have hx := kxVec_order h.toRealIllumination (ctr p.fto.1)
  rw [colOrder_zero.mpr rfl] at hx
  have hk : (p.n_top * Complex.sin p.theta) ^ 2 = kxVec p p.wavelength (ctr p.fto.1) ^ 2 :=
    hb.kt_sq (c := 1) (d := 0) (by norm_num) (by rw [mul_one]; exact hx.symm) (by
      have : Spec.orderKy (noFilms p).p 0 = 0 := orderKy_none hphi
      rw [this]; simp)
  obtain ⟨a, b⟩ := crystals_stack (i := ctr p.fto.1) (c := Complex.cos 0) (s := Complex.sin 0) (κ := kxVec p p.wavelength (ctr p.fto.1))
    (by rw [Complex.cos_zero, mul_one]) (by rw [Complex.sin_zero, mul_zero]; rfl) (by simp) (fun f hf => (hr f hf).of_sq hk)
    (Or.inr Complex.sin_zero) hd
  have hnt : p.n_top ≠ 0 := hb.n_top_ne
  have hnb : p.n_bot ≠ 0 := hb.n_bot_ne
  have f1 : p.n_top * Complex.cos p.theta / p.n_top ^ 2 = Complex.cos p.theta / p.n_top := by field_simp
  have f2 : p.n_bot * c₂ / p.n_bot ^ 2 = c₂ / p.n_bot := by field_simp
  have hctr : (ctr p.fto.1).val = p.fto.1 := rfl
  constructor
  · intro h0
    simp only [Spec.above1d, Spec.below1d, if_pos h0, (planeWave_parts _ _ _ _ _).1, (planeWave_parts _ _ _ _ _).2.1,
      (parts_add _ _ _ _).1, (parts_add _ _ _ _).2.1, hctr, if_true, kt, kb] at a
    exact a
  · intro h0
    simp only [Spec.above1d, Spec.below1d, if_neg h0, (planeWave_parts _ _ _ _ _).2.2.1, (planeWave_parts _ _ _ _ _).2.2.2,
      (parts_add _ _ _ _).2.2.1, (parts_add _ _ _ _).2.2.2, hctr, if_true, kt, kb, neg_div, f1, f2] at b
    exact b

theorem crystals_2d (h : Spec.LosslessCladdings p) (hc : Spec.RefractionCos p.n_top.re p.n_bot.re p.theta.re c₂)
    (hth : p.thickness = films.map Spec.Crystal.d) (hr : ∀ f ∈ films, f.Refracts (p.n_top * Complex.sin p.theta))
    (ha : (∀ f ∈ films, f.nx = f.ny) ∨ kyVec p p.wavelength (ctr p.fto.2) = 0 ∧ kxVec p p.wavelength (ctr p.fto.1) ≠ 0)
    {ψ : ℂ} {r : SubRes (2 * p.fto.2 + 1) (2 * p.fto.1 + 1)} {fs} (hd : Spec.Diffraction p (films.map (crystalConv _)) ψ r fs) :
    ![Complex.sin ψ + r.R_s (ctr _) (ctr _),
        p.n_top * Complex.cos p.theta * Complex.sin ψ + -(p.n_top * Complex.cos p.theta) * r.R_s (ctr _) (ctr _)]
      = Spec.sMatrix (Spec.k0Of p) films *ᵥ ![r.T_s (ctr _) (ctr _), p.n_bot * c₂ * r.T_s (ctr _) (ctr _)] ∧
    ![p.n_top * Complex.cos ψ + -Complex.I * r.R_p (ctr _) (ctr _),
        Complex.cos p.theta / p.n_top * (p.n_top * Complex.cos ψ)
          + -(Complex.cos p.theta / p.n_top) * (-Complex.I * r.R_p (ctr _) (ctr _))]
      = Spec.pMatrix (Spec.k0Of p) films *ᵥ ![-Complex.I * r.T_p (ctr _) (ctr _),
        c₂ / p.n_bot * (-Complex.I * r.T_p (ctr _) (ctr _))] := by
  have hb := bare_problem h hc
  have kt : Spec.kzOf p.n_top (kxVec p p.wavelength (ctr p.fto.1)) (kyVec p p.wavelength (ctr p.fto.2)) = p.n_top * Complex.cos p.theta :=
    hb.kz_top2
  have kb : Spec.kzOf p.n_bot (kxVec p p.wavelength (ctr p.fto.1)) (kyVec p p.wavelength (ctr p.fto.2)) = p.n_bot * c₂ := hb.kz_bot2
  unfold Spec.Diffraction at hd
  rw [hth, zip_crystals] at hd
  have hx := kxVec_order h.toRealIllumination (ctr p.fto.1)
  rw [colOrder_zero.mpr rfl] at hx
  have hy := kyVec_order h.toRealIllumination (ctr p.fto.2)
  rw [rowOrder_zero.mpr rfl] at hy
  obtain ⟨κ, ex, ey⟩ := azimuth_polar (Spec.orderKx p 0) (Spec.orderKy p 0)
  have hcs : Complex.cos (Spec.azimuth (Spec.orderKx p 0) (Spec.orderKy p 0)) ^ 2
      + Complex.sin (Spec.azimuth (Spec.orderKx p 0) (Spec.orderKy p 0)) ^ 2 = 1 := by rw [add_comm]; exact Complex.sin_sq_add_cos_sq _
  have hk : (p.n_top * Complex.sin p.theta) ^ 2 = κ ^ 2 := hb.kt_sq hcs ex ey
  rw [← hx, ← hy] at ex ey hcs
  obtain ⟨a, b⟩ := crystals_stack (i := (finProdFinEquiv (ctr p.fto.2, ctr p.fto.1) : FlatIdx p.fto.1 p.fto.2))
    (c := Complex.cos (Spec.azimuth (kxVec p p.wavelength (ctr p.fto.1)) (kyVec p p.wavelength (ctr p.fto.2))))
    (s := Complex.sin (Spec.azimuth (kxVec p p.wavelength (ctr p.fto.1)) (kyVec p p.wavelength (ctr p.fto.2)))) (κ := κ)
    (by rw [modNat_prod]; exact ex) (by rw [divNat_prod]; exact ey) hcs (fun f hf => (hr f hf).of_sq hk)
    (ha.imp_right fun hh => by
      rw [Spec.azimuth, if_neg hh.2, hh.1, zero_div]
      simp [Complex.arctan]) hd
  have hnt : p.n_top ≠ 0 := hb.n_top_ne
  have hnb : p.n_bot ≠ 0 := hb.n_bot_ne
  have f1 : p.n_top * Complex.cos p.theta / p.n_top ^ 2 = Complex.cos p.theta / p.n_top := by field_simp
  have f2 : p.n_bot * c₂ / p.n_bot ^ 2 = c₂ / p.n_bot := by field_simp
  have hin : Spec.incidentOrder (ctr p.fto.2) (ctr p.fto.1) = 1 := if_pos ⟨rfl, rfl⟩
  constructor
  · simp only [Spec.above, Spec.below, modNat_prod, divNat_prod, (planeWave_parts _ _ _ _ _).1, (planeWave_parts _ _ _ _ _).2.1,
      (parts_add _ _ _ _).1, (parts_add _ _ _ _).2.1, hin, mul_one, kt, kb] at a
    exact a
  · simp only [Spec.above, Spec.below, modNat_prod, divNat_prod, (planeWave_parts _ _ _ _ _).2.2.1, (planeWave_parts _ _ _ _ _).2.2.2,
      (parts_add _ _ _ _).2.2.1, (parts_add _ _ _ _).2.2.2, hin, mul_one, kt, kb, neg_div, f1, f2] at b
    exact b

/-! ### Efficiencies -/

private theorem eff_mul' (e r w : ℂ) : effOf (e * r) w = Complex.normSq e * w.re * ‖r‖ ^ 2 := by
  rw [effOf_eq, Complex.normSq_mul, Complex.normSq_eq_norm_sq r]; ring

theorem crystal_eff {fx fy : ℕ} {e m : ℂ} {a b : ℝ} {x : SubRes (2 * fy + 1) (2 * fx + 1)}
    {w : Fin 4 → Fin (2 * fy + 1) → Fin (2 * fx + 1) → ℂ} (hE : EffBy (w 0) (w 1) (w 2) (w 3) x)
    (hz : ∀ j i, ¬(Spec.rowOrder j = 0 ∧ Spec.colOrder i = 0) → x.R_s j i = 0 ∧ x.R_p j i = 0 ∧ x.T_s j i = 0 ∧ x.T_p j i = 0)
    (h1 : x.R_s (ctr _) (ctr _) = e * Spec.filmR (p.n_top * Complex.cos p.theta) (p.n_bot * c₂) (Spec.sMatrix (Spec.k0Of p) films))
    (h2 : x.R_p (ctr _) (ctr _) = m * Spec.filmR (Complex.cos p.theta / p.n_top) (c₂ / p.n_bot) (Spec.pMatrix (Spec.k0Of p) films))
    (h3 : x.T_s (ctr _) (ctr _) = e * Spec.filmT (p.n_top * Complex.cos p.theta) (p.n_bot * c₂) (Spec.sMatrix (Spec.k0Of p) films))
    (h4 : x.T_p (ctr _) (ctr _) = m * Spec.filmT (Complex.cos p.theta / p.n_top) (c₂ / p.n_bot) (Spec.pMatrix (Spec.k0Of p) films))
    (w0 : Complex.normSq e * (w 0 (ctr _) (ctr _)).re = a) (w1 : Complex.normSq m * (w 1 (ctr _) (ctr _)).re = b)
    (w2 : Complex.normSq e * (w 2 (ctr _) (ctr _)).re = a * ((p.n_bot * c₂).re / (p.n_top * Complex.cos p.theta).re))
    (w3 : Complex.normSq m * (w 3 (ctr _) (ctr _)).re = b * ((c₂ / p.n_bot).re / (Complex.cos p.theta / p.n_top).re)) :
    Spec.CrystalEfficiencies p films c₂ a b x := by
  constructor
  · intro j i
    rw [hE.ri_s]
    split_ifs with hji
    · rw [rowOrder_zero.mp hji.1, colOrder_zero.mp hji.2, h1, eff_mul', w0]; rfl
    · rw [(hz j i hji).1]; exact effOf_zero _
  · intro j i
    rw [hE.ri_p]
    split_ifs with hji
    · rw [rowOrder_zero.mp hji.1, colOrder_zero.mp hji.2, h2, eff_mul', w1]; rfl
    · rw [(hz j i hji).2.1]; exact effOf_zero _
  · intro j i
    rw [hE.ti_s]
    split_ifs with hji
    · rw [rowOrder_zero.mp hji.1, colOrder_zero.mp hji.2, h3, eff_mul', w2, Spec.filmTransmittance]; ring
    · rw [(hz j i hji).2.2.1]; exact effOf_zero _
  · intro j i
    rw [hE.ti_p]
    split_ifs with hji
    · rw [rowOrder_zero.mp hji.1, colOrder_zero.mp hji.2, h4, eff_mul', w3, Spec.filmTransmittance]; ring
    · rw [(hz j i hji).2.2.2]; exact effOf_zero _
  · exact hE.ri
  · exact hE.ti

/-- A TE or TM solve. -/
theorem crystal_solve_1d {la : LinAlg} (hp : p.use_pinv = false) (h : Spec.LosslessCladdings p)
    (hc : Spec.RefractionCos p.n_top.re p.n_bot.re p.theta.re c₂) (hphi : p.phi = none)
    (hth : p.thickness = films.map Spec.Crystal.d) (hr : ∀ f ∈ films, f.Refracts (p.n_top * Complex.sin p.theta))
    {o : Out1D (2 * p.fto.1 + 1)} (hs : solve_1d la p p.wavelength (films.map (crystalConv _)) = .ok o) :
    (p.pol = 0 ∧ Spec.CrystalEfficiencies (fy := 0) p films c₂ 1 0 o.res) ∨
    (p.pol = 1 ∧ Spec.CrystalEfficiencies (fy := 0) p films c₂ 0 1 o.res) := by
  have hb := bare_problem h hc
  have hinc := RealIncidence.of_spec h.toRealIllumination
  have hnt : p.n_top ≠ 0 := hb.n_top_ne
  have hnb : p.n_bot ≠ 0 := hb.n_bot_ne
  have hcos : Complex.cos p.theta ≠ 0 := hb.cos_ne
  have y0 : p.n_top * Complex.cos p.theta = ((p.n_top.re * Real.cos p.theta.re : ℝ) : ℂ) := by
    rw [hinc.cos_eq, Complex.ofReal_mul, ← hinc.hn]
  have y1 : Complex.cos p.theta / p.n_top = ((Real.cos p.theta.re / p.n_top.re : ℝ) : ℂ) := by
    rw [hinc.cos_eq, Complex.ofReal_div, ← hinc.hn]
  have f2 : p.n_bot * c₂ / p.n_bot ^ 2 = c₂ / p.n_bot := by field_simp
  have kt : kz1d p.n_top (kxVec p p.wavelength) (ctr _) = p.n_top * Complex.cos p.theta := by
    have : Spec.kzOf p.n_top (kxVec p p.wavelength (ctr p.fto.1)) 0 = p.n_top * Complex.cos p.theta := hb.kz_top1 hphi
    rw [← this]; simp [kz1d, Spec.kzOf]
  have kb : kz1d p.n_bot (kxVec p p.wavelength) (ctr _) = p.n_bot * c₂ := by
    have : Spec.kzOf p.n_bot (kxVec p p.wavelength (ctr p.fto.1)) 0 = p.n_bot * c₂ := hb.kz_bot1 hphi
    rw [← this]; simp [kz1d, Spec.kzOf]
  have hsc : ∀ c ∈ films.map (crystalConv (Fin (2 * p.fto.1 + 1))), ScalarConv c := by
    intro c hcm
    obtain ⟨f, -, rfl⟩ := List.mem_map.mp hcm
    exact ⟨_, _, _, rfl⟩
  obtain ⟨fs, hd⟩ : ∃ fs, Spec.Diffraction1d p (films.map (crystalConv _)) o.res fs :=
    ((solve_1d_bvp hp hnt hs).2 o.res).mpr (by split_ifs <;> exact ⟨rfl, rfl⟩)
  obtain ⟨k1, k2⟩ := crystals_1d h hc hphi hth hr hd
  have hz := fun i hi => solve_1d_zero hp hnt hsc hs (i := i) hi
  obtain ⟨hl, init, r, x, hi, -, hx, rfl⟩ := (solve_1d_iff hp).mp hs
  obtain ⟨q1, q2⟩ := transfer_1d_1_kz hi
  rw [q1, q2] at hx
  have hE := transfer_1d_4_eff hx
  obtain ⟨R, T, -, -, -, hcase⟩ := transfer_1d_4_ok hx
  have hctr0 : ctr 0 = (0 : Fin (2 * 0 + 1)) := rfl
  have hrow : ∀ j : Fin (2 * 0 + 1), j = 0 := fun j => Fin.ext (by have := j.isLt; simp only [Fin.val_zero]; omega)
  have q0 : (kz1d p.n_top (kxVec p p.wavelength) (ctr _) / (p.n_top * Complex.cos p.theta)).re = 1 := by
    rw [kt, div_self (mul_ne_zero hnt hcos), Complex.one_re]
  have q2 : (kz1d p.n_bot (kxVec p p.wavelength) (ctr _) / (p.n_top * Complex.cos p.theta)).re
      = (p.n_bot * c₂).re / (p.n_top * Complex.cos p.theta).re := by
    rw [kb, y0, Complex.div_ofReal_re, Complex.ofReal_re]
  have q3 : (kz1d p.n_bot (kxVec p p.wavelength) (ctr _) / p.n_bot ^ 2 / (Complex.cos p.theta / p.n_top)).re
      = (c₂ / p.n_bot).re / (Complex.cos p.theta / p.n_top).re := by
    rw [kb, f2, y1, Complex.div_ofReal_re, Complex.ofReal_re]
  set w : Fin 4 → Fin (2 * 0 + 1) → Fin (2 * p.fto.1 + 1) → ℂ :=
    ![fun _ i => kz1d p.n_top (kxVec p p.wavelength) i / (p.n_top * Complex.cos p.theta),
      fun _ i => kz1d p.n_top (kxVec p p.wavelength) i / (p.n_top * Complex.cos p.theta),
      fun _ i => kz1d p.n_bot (kxVec p p.wavelength) i / (p.n_top * Complex.cos p.theta),
      fun _ i => kz1d p.n_bot (kxVec p p.wavelength) i / p.n_bot ^ 2 / (Complex.cos p.theta / p.n_top)] with hw
  have hE' : EffBy (w 0) (w 1) (w 2) (w 3) x.1 := hE
  rcases hcase with ⟨h0, -, -, -, -, z1, z2⟩ | ⟨h0, -, -, -, -, z1, z2⟩
  · left
    refine ⟨h0, ?_⟩
    have key := k1 h0
    have den : filmDen (p.n_top * Complex.cos p.theta) (p.n_bot * c₂) (Spec.sMatrix (Spec.k0Of p) films) ≠ 0 := by
      intro h0
      have := film_den key
      rw [h0, zero_mul] at this
      simp [hnt, hcos] at this
    obtain ⟨r0, t0⟩ := film_solve key den
    refine crystal_eff (fy := 0) (w := w) (e := 1) (m := 0) hE' (fun j i hji => ?_) r0 ((z1 0 _).trans (zero_mul _).symm) t0
      ((z2 0 _).trans (zero_mul _).symm) (by rw [map_one, one_mul]; exact q0) (by simp) (by rw [map_one, one_mul, one_mul]; exact q2) (by simp)
    have hi : i ≠ ctr p.fto.1 := fun e => hji ⟨rowOrder_zero.mpr ((hrow j).trans hctr0.symm), colOrder_zero.mpr e⟩
    rw [hrow j]
    exact ⟨((hz i hi).1 h0).1, z1 0 i, ((hz i hi).1 h0).2, z2 0 i⟩
  · right
    refine ⟨h0, ?_⟩
    have hne : p.pol ≠ 0 := by rw [h0]; exact one_ne_zero
    have key := k2 hne
    have den : filmDen (Complex.cos p.theta / p.n_top) (c₂ / p.n_bot) (Spec.pMatrix (Spec.k0Of p) films) ≠ 0 := by
      intro h0
      have := film_den key
      rw [h0, zero_mul] at this
      simp [hnt, hcos] at this
    obtain ⟨r0, t0⟩ := film_solve key den
    refine crystal_eff (fy := 0) (w := w) (e := 0) (m := 1) hE' (fun j i hji => ?_) ((z1 0 _).trans (zero_mul _).symm) r0
      ((z2 0 _).trans (zero_mul _).symm) t0 (by simp) (by rw [map_one, one_mul]; exact q0) (by simp) (by rw [map_one, one_mul, one_mul]; exact q3)
    have hi : i ≠ ctr p.fto.1 := fun e => hji ⟨rowOrder_zero.mpr ((hrow j).trans hctr0.symm), colOrder_zero.mpr e⟩
    rw [hrow j]
    exact ⟨z1 0 i, ((hz i hi).2 hne).1, z2 0 i, ((hz i hi).2 hne).2⟩

/-- A 2D solve. -/
theorem crystal_solve_2d {la : LinAlg} (hp : p.use_pinv = false) (h : Spec.LosslessCladdings p)
    (hc : Spec.RefractionCos p.n_top.re p.n_bot.re p.theta.re c₂)
    (hth : p.thickness = films.map Spec.Crystal.d) (hr : ∀ f ∈ films, f.Refracts (p.n_top * Complex.sin p.theta))
    (ha : (∀ f ∈ films, f.nx = f.ny) ∨ p.phi = none ∨ p.phi = some 0)
    {o : Out2D p.fto.1 p.fto.2} (hs : solve_2d la p p.wavelength (films.map (crystalConv _)) = .ok o) :
    Spec.CrystalEfficiencies p films c₂ (Real.sin p.psi.re ^ 2) (Real.cos p.psi.re ^ 2) o.out.res ∧
    Spec.CrystalEfficiencies p films c₂ 1 0 o.out.res_te ∧ Spec.CrystalEfficiencies p films c₂ 0 1 o.out.res_tm := by
  have hb := bare_problem h hc
  have hinc := RealIncidence.of_spec h.toRealIllumination
  have hnt : p.n_top ≠ 0 := hb.n_top_ne
  have hnb : p.n_bot ≠ 0 := hb.n_bot_ne
  have hcos : Complex.cos p.theta ≠ 0 := hb.cos_ne
  have y0 : p.n_top * Complex.cos p.theta = ((p.n_top.re * Real.cos p.theta.re : ℝ) : ℂ) := by
    rw [hinc.cos_eq, Complex.ofReal_mul, ← hinc.hn]
  have y1 : Complex.cos p.theta / p.n_top = ((Real.cos p.theta.re / p.n_top.re : ℝ) : ℂ) := by
    rw [hinc.cos_eq, Complex.ofReal_div, ← hinc.hn]
  have f2 : p.n_bot * c₂ / p.n_bot ^ 2 = c₂ / p.n_bot := by field_simp
  have kt : kz2d p.n_top (kxF p p.wavelength) (kyF p p.wavelength) (finProdFinEquiv (ctr _, ctr _)) = p.n_top * Complex.cos p.theta := by
    have : Spec.kzOf p.n_top (kxVec p p.wavelength (ctr p.fto.1)) (kyVec p p.wavelength (ctr p.fto.2)) = p.n_top * Complex.cos p.theta :=
      hb.kz_top2
    rw [← this]; simp only [kz2d, Spec.kzOf, kxF, kyF, tileX, tileY, modNat_prod, divNat_prod]
  have kb : kz2d p.n_bot (kxF p p.wavelength) (kyF p p.wavelength) (finProdFinEquiv (ctr _, ctr _)) = p.n_bot * c₂ := by
    have : Spec.kzOf p.n_bot (kxVec p p.wavelength (ctr p.fto.1)) (kyVec p p.wavelength (ctr p.fto.2)) = p.n_bot * c₂ := hb.kz_bot2
    rw [← this]; simp only [kz2d, Spec.kzOf, kxF, kyF, tileX, tileY, modNat_prod, divNat_prod]
  have hsc : ∀ c ∈ films.map (crystalConv (FlatIdx p.fto.1 p.fto.2)), ScalarConv c := by
    intro c hcm
    obtain ⟨f, -, rfl⟩ := List.mem_map.mp hcm
    exact ⟨_, _, _, rfl⟩
  have ha' : (∀ f ∈ films, f.nx = f.ny) ∨ kyVec p p.wavelength (ctr p.fto.2) = 0 ∧ kxVec p p.wavelength (ctr p.fto.1) ≠ 0 := by
    refine ha.imp_right fun hphi => ?_
    have hy : kyVec p p.wavelength (ctr p.fto.2) = 0 := by
      rw [kyVec_order h.toRealIllumination (ctr p.fto.2), rowOrder_zero.mpr rfl]
      rcases hphi with e | e <;> simp [Spec.orderKy, e]
    refine ⟨hy, fun hx => ?_⟩
    have hnan := (solve_2d_nan la p p.wavelength (films.map (crystalConv _))).mpr
      ⟨(finProdFinEquiv (ctr p.fto.2, ctr p.fto.1) : FlatIdx p.fto.1 p.fto.2), by simp only [kxF, tileX, modNat_prod]; exact hx, by
        simp only [kyF, tileY, divNat_prod]; exact hy⟩
    rw [hs] at hnan
    cases hnan
  have hz : ∀ x, x = o.out.res ∨ x = o.out.res_te ∨ x = o.out.res_tm →
      ∀ j i, ¬(Spec.rowOrder j = 0 ∧ Spec.colOrder i = 0) → x.R_s j i = 0 ∧ x.R_p j i = 0 ∧ x.T_s j i = 0 ∧ x.T_p j i = 0 :=
    fun x hx j i hji => solve_2d_zero hp hnt hsc hs hx (by rw [deltaI0_order, if_neg (fun hh => hji hh.symm)])
  have hu := (solve_2d_bvp hp hnt hs).2
  have hsol : ∀ i ∈ Spec.selectedInputs p.psi o.out.res o.out.res_te o.out.res_tm (true, true, true), ∃ fs, Spec.Diffraction p _ i.1 i.2 fs :=
    fun i hi => (hu i hi i.2).mpr ⟨rfl, rfl, rfl, rfl⟩
  simp only [Spec.selectedInputs, if_true, List.cons_append, List.nil_append, List.mem_cons, List.not_mem_nil, or_false,
    forall_eq_or_imp, forall_eq] at hsol
  obtain ⟨⟨_, d0⟩, ⟨_, d1⟩, ⟨_, d2⟩⟩ := hsol
  have hI : Complex.I * Complex.I = -1 := Complex.I_mul_I
  have hs1 : Complex.sin ((Real.pi / 2 : ℝ) : ℂ) = 1 := by rw [← Complex.ofReal_sin, Real.sin_pi_div_two, Complex.ofReal_one]
  have hc1 : Complex.cos ((Real.pi / 2 : ℝ) : ℂ) = 0 := by rw [← Complex.ofReal_cos, Real.cos_pi_div_two, Complex.ofReal_zero]
  obtain ⟨a0, b0⟩ := crystals_2d h hc hth hr ha' d0
  obtain ⟨a1, b1⟩ := crystals_2d h hc hth hr ha' d1
  obtain ⟨a2, b2⟩ := crystals_2d h hc hth hr ha' d2
  have den1 : filmDen (p.n_top * Complex.cos p.theta) (p.n_bot * c₂) (Spec.sMatrix (Spec.k0Of p) films) ≠ 0 := by
    intro h0
    have := film_den a1
    rw [h0, hs1, zero_mul] at this
    simp [hnt, hcos] at this
  have den2 : filmDen (Complex.cos p.theta / p.n_top) (c₂ / p.n_bot) (Spec.pMatrix (Spec.k0Of p) films) ≠ 0 := by
    intro h0
    have := film_den b2
    rw [h0, Complex.cos_zero, zero_mul] at this
    simp [hnt, hcos] at this
  have turn : ∀ {z w v : ℂ}, -Complex.I * z = p.n_top * w * v → z = Complex.I * p.n_top * w * v := by
    intro z w v hz
    linear_combination Complex.I * hz + z * hI
  obtain ⟨r0, t0⟩ := film_solve a0 den1
  obtain ⟨r1, t1⟩ := film_solve a1 den1
  obtain ⟨r2, t2⟩ := film_solve a2 den1
  obtain ⟨R0, T0⟩ := film_solve b0 den2
  obtain ⟨R1, T1⟩ := film_solve b1 den2
  obtain ⟨R2, T2⟩ := film_solve b2 den2
  rw [hs1] at r1 t1
  rw [Complex.sin_zero] at r2 t2
  have R1 := turn R1; have T1 := turn T1; have R2 := turn R2; have T2 := turn T2
  rw [hc1, mul_zero] at R1 T1
  rw [Complex.cos_zero, mul_one] at R2 T2
  obtain ⟨-, ⟨kzt, kzb, varphi, s0⟩, r, x, hi, -, hx, rfl⟩ := (solve_2d_iff hp).mp hs
  obtain ⟨g1, g2⟩ : kzt = kz2d p.n_top (kxF p p.wavelength) (kyF p p.wavelength) ∧ kzb = kz2d p.n_bot (kxF p p.wavelength) (kyF p p.wavelength) :=
    transfer_2d_1_kz hi
  obtain ⟨N, e1, e2, e3⟩ := out4_results hx
  subst g1 g2
  set w : Fin 4 → Fin (2 * p.fto.2 + 1) → Fin (2 * p.fto.1 + 1) → ℂ :=
    ![fun j i => kz2d p.n_top (kxF p p.wavelength) (kyF p p.wavelength) (finProdFinEquiv (j, i)) / (p.n_top * Complex.cos p.theta),
      fun j i => kz2d p.n_top (kxF p p.wavelength) (kyF p p.wavelength) (finProdFinEquiv (j, i)) / p.n_top ^ 2 / (p.n_top * Complex.cos p.theta),
      fun j i => kz2d p.n_bot (kxF p p.wavelength) (kyF p p.wavelength) (finProdFinEquiv (j, i)) / (p.n_top * Complex.cos p.theta),
      fun j i => kz2d p.n_bot (kxF p p.wavelength) (kyF p p.wavelength) (finProdFinEquiv (j, i)) / p.n_bot ^ 2 / (p.n_top * Complex.cos p.theta)]
    with hw
  have hE : ∀ y, y = x.res ∨ y = x.res_te ∨ y = x.res_tm → EffBy (w 0) (w 1) (w 2) (w 3) y := by
    rintro y hy
    rw [e1, e2, e3] at hy
    rcases hy with rfl | rfl | rfl <;>
      exact ⟨fun _ _ => rfl, fun _ _ => rfl, fun _ _ => rfl, fun _ _ => rfl, fun _ _ => rfl, fun _ _ => rfl⟩
  have hn2 : Complex.normSq p.n_top = p.n_top.re ^ 2 := by
    rw [hinc.hn, Complex.normSq_ofReal, Complex.ofReal_re]; ring
  have hp0 := h.n_top_pos
  have hc0 := hinc.cos_pos
  have q0 : (w 0 (ctr _) (ctr _)).re = 1 := by
    simp only [hw, cons_val_zero, kt]
    rw [div_self (mul_ne_zero hnt hcos), Complex.one_re]
  have q1 : Complex.normSq (Complex.I * p.n_top) * (w 1 (ctr _) (ctr _)).re = 1 := by
    simp only [hw, cons_val, kt]
    rw [div_right_comm, div_self (mul_ne_zero hnt hcos), map_mul, Complex.normSq_I, one_mul, hn2]
    have : (1 : ℂ) / p.n_top ^ 2 = ((1 / p.n_top.re ^ 2 : ℝ) : ℂ) := by
      rw [hinc.hn]; simp
    rw [this, Complex.ofReal_re]
    field_simp
  have q2 : (w 2 (ctr _) (ctr _)).re = (p.n_bot * c₂).re / (p.n_top * Complex.cos p.theta).re := by
    simp only [hw, cons_val, kb]
    rw [y0, Complex.div_ofReal_re, Complex.ofReal_re]
  have q3 : Complex.normSq (Complex.I * p.n_top) * (w 3 (ctr _) (ctr _)).re
      = (c₂ / p.n_bot).re / (Complex.cos p.theta / p.n_top).re := by
    simp only [hw, cons_val, kb, f2]
    rw [y1, y0, Complex.div_ofReal_re, Complex.ofReal_re, map_mul, Complex.normSq_I, one_mul, hn2]
    field_simp
  have hpsi : p.psi = (p.psi.re : ℂ) := Complex.ext rfl h.psi_real
  have n1 : Complex.normSq (Complex.sin p.psi) = Real.sin p.psi.re ^ 2 := by
    rw [hpsi, ← Complex.ofReal_sin, Complex.normSq_ofReal, Complex.ofReal_re]; ring
  have n2 : Complex.normSq (Complex.I * p.n_top * Complex.cos p.psi)
      = Real.cos p.psi.re ^ 2 * Complex.normSq (Complex.I * p.n_top) := by
    rw [map_mul _ (Complex.I * p.n_top)]
    have : Complex.normSq (Complex.cos p.psi) = Real.cos p.psi.re ^ 2 := by
      rw [hpsi, ← Complex.ofReal_cos, Complex.normSq_ofReal, Complex.ofReal_re]; ring
    rw [this]; ring
  clear_value w
  exact ⟨crystal_eff (w := w) (hE _ (.inl rfl)) (hz _ (.inl rfl)) r0 (turn R0) t0 (turn T0) (by rw [n1, q0, mul_one])
      (by rw [n2, mul_assoc, q1, mul_one]) (by rw [n1, q2]) (by rw [n2, mul_assoc, q3]),
    crystal_eff (w := w) (hE _ (.inr (.inl rfl))) (hz _ (.inr (.inl rfl))) r1 R1 t1 T1 (by simp [q0]) (by simp) (by simp [q2]) (by simp),
    crystal_eff (w := w) (hE _ (.inr (.inr rfl))) (hz _ (.inr (.inr rfl))) r2 R2 t2 T2 (by simp) q1 (by simp) (by rw [q3, one_mul])⟩

end

end Meent
