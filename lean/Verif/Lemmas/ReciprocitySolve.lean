import Verif.Lemmas.Reciprocity
import Verif.Lemmas.BvpSolve
import Verif.Spec.Reciprocity
import Verif.Lemmas.Branch
import Verif.Lemmas.Persym
import Verif.Props.C49

/-!
# Reciprocity of the solvers (helper lemmas)
-/

open Matrix

namespace Meent

set_option linter.unusedSectionVars false
set_option linter.unusedSimpArgs false

variable {p : Params}

theorem illumination_opposite (h : Spec.RealIllumination p) : Spec.RealIllumination { p with theta := -p.theta } where
  n_top_real := h.n_top_real
  n_top_pos := h.n_top_pos
  theta_real := by
    have := h.theta_real
    unfold Spec.IsReal at *
    simp [this]
  theta_lo := by have := h.theta_hi; simp only [Complex.neg_re]; linarith
  theta_hi := by have := h.theta_lo; simp only [Complex.neg_re]; linarith
  phi_real := h.phi_real
  psi_real := h.psi_real
  wavelength_pos := h.wavelength_pos
  period_x_pos := h.period_x_pos
  period_y_pos := h.period_y_pos

theorem inc_opposite (h : Spec.RealIllumination p) :
    p.n_top * sinTheta (-p.theta) = -(p.n_top * sinTheta p.theta) := by
  have := sinTheta_real (illumination_opposite h)
  simp only at this
  rw [this, sinTheta_real h, Complex.sin_neg]; ring

theorem kx_rev {n : ℂ} {θ : ℂ} {nb : ℂ} {th : List ℝ}
    (h : n * sinTheta θ = -(p.n_top * sinTheta p.theta)) (i : Fin (2 * p.fto.1 + 1)) :
    kxVec { p with n_top := n, theta := θ, n_bot := nb, thickness := th } p.wavelength i.rev = -kxVec p p.wavelength i := by
  unfold kxVec
  simp only
  rw [h, ← star_neg]
  congr 1
  have : (((i.rev : Fin _) : ℕ) : ℤ) = 2 * (p.fto.1 : ℤ) - (i : ℤ) := by
    have := Fin.val_rev i; omega
  rw [this]
  push_cast
  ring

theorem ky_rev {n : ℂ} {θ : ℂ} {nb : ℂ} {th : List ℝ}
    (h : n * sinTheta θ = -(p.n_top * sinTheta p.theta)) (i : Fin (2 * p.fto.2 + 1)) :
    kyVec { p with n_top := n, theta := θ, n_bot := nb, thickness := th } p.wavelength i.rev = -kyVec p p.wavelength i := by
  unfold kyVec
  simp only
  rw [h, ← star_neg]
  congr 1
  have : (((i.rev : Fin _) : ℕ) : ℤ) = 2 * (p.fto.2 : ℤ) - (i : ℤ) := by
    have := Fin.val_rev i; omega
  rw [this]
  push_cast
  ring

theorem kzOf_neg (n kx ky : ℂ) : Spec.kzOf n (-kx) (-ky) = Spec.kzOf n kx ky := by
  unfold Spec.kzOf; rw [neg_sq, neg_sq]

theorem incident_if (i : FlatIdx p.fto.1 p.fto.2) :
    Spec.incidentOrder i.divNat i.modNat = if i = ctr2 p.fto.1 p.fto.2 then 1 else 0 := by
  rw [delta_flat, deltaI0_eq2]

theorem incident_rev {fx fy : ℕ} (j : Fin (2 * fy + 1)) (i : Fin (2 * fx + 1)) :
    Spec.incidentOrder j.rev i.rev = Spec.incidentOrder j i := by
  unfold Spec.incidentOrder
  refine if_congr ?_ rfl rfl
  have := Fin.val_rev j; have := Fin.val_rev i; omega

theorem ntop_cos (h : Spec.RealIllumination p) :
    p.n_top * Complex.cos p.theta = ((p.n_top.re * Real.cos p.theta.re : ℝ) : ℂ) := by
  have hi := RealIncidence.of_spec h
  rw [hi.cos_eq]; conv_lhs => rw [hi.hn]
  push_cast; rfl

/-- Sides of the reflected p and s amplitudes weighted by an incident polarization. -/
noncomputable def recip (n ψ a b : ℂ) : ℂ := Complex.sin ψ * a + Complex.I * Complex.cos ψ * b / n

theorem refl_core {cs : List (Conv (FlatIdx p.fto.1 p.fto.2))} {ψ ψ' : ℂ}
    {r r' : SubRes (2 * p.fto.2 + 1) (2 * p.fto.1 + 1)} {fs gs}
    (h : Spec.RealIllumination p) (hJ : ∀ c ∈ cs, c.reindex revF = c.tr)
    (hd : Spec.Diffraction p cs ψ r fs) (hd' : Spec.Diffraction { p with theta := -p.theta } cs ψ' r' gs) :
    recip p.n_top ψ (r'.R_s (ctr _) (ctr _)) (r'.R_p (ctr _) (ctr _))
      = recip p.n_top ψ' (r.R_s (ctr _) (ctr _)) (r.R_p (ctr _) (ctr _)) := by
  have hinc := RealIncidence.of_spec h
  have ho := inc_opposite h
  have hx : ∀ i : FlatIdx p.fto.1 p.fto.2, kxVec { p with theta := -p.theta } p.wavelength (revF i).modNat
      = -kxVec p p.wavelength i.modNat := fun i => by rw [revF_mod]; exact kx_rev ho _
  have hy : ∀ i : FlatIdx p.fto.1 p.fto.2, kyVec { p with theta := -p.theta } p.wavelength (revF i).divNat
      = -kyVec p p.wavelength i.divNat := fun i => by rw [revF_div]; exact ky_rev ho _
  have hl := lorentz_reversed (J := revF) (fun x hx => hJ x.1 (List.of_mem_zip hx).1) hx hy hd hd'
  have hη : ∀ i : FlatIdx p.fto.1 p.fto.2, ∃ η : ℂ, η ≠ 0 ∧ SamePlane
      (Spec.azimuth (kxVec p p.wavelength i.modNat) (kyVec p p.wavelength i.divNat))
      (Spec.azimuth (-kxVec p p.wavelength i.modNat) (-kyVec p p.wavelength i.divNat)) η := fun i => azimuth_neg _ _
  choose η hη0 hη1 using hη
  have hn : p.n_top ≠ 0 := by
    intro h0; have := h.n_top_pos; rw [h0] at this; simp at this
  have hr : ∀ i : FlatIdx p.fto.1 p.fto.2, Spec.incidentOrder (revF i).divNat (revF i).modNat
      = if i = ctr2 p.fto.1 p.fto.2 then 1 else 0 := fun i => by
    rw [revF_mod, revF_div, incident_rev, incident_if]
  have hbot := lorentz_out (n := p.n_bot) (η := η)
      (kz := fun i => Spec.kzOf p.n_bot (kxVec p p.wavelength i.modNat) (kyVec p p.wavelength i.divNat))
      (ρ := fun i => r.T_s i.divNat i.modNat) (σ := fun i => -Complex.I * r.T_p i.divNat i.modNat)
      (ρ' := fun i => r'.T_s (revF i).divNat (revF i).modNat)
      (σ' := fun i => -Complex.I * r'.T_p (revF i).divNat (revF i).modNat)
      (a := fun i => Spec.below p r i.divNat i.modNat)
      (b := fun i => Spec.below { p with theta := -p.theta } r' (revF i).divNat (revF i).modNat) hη1 (fun i => rfl)
      (fun i => by unfold Spec.below; simp only; rw [hx, hy, kzOf_neg])
  have htop := lorentz_waves (ctr2 p.fto.1 p.fto.2) (n := p.n_top) (κ0 := p.n_top * Complex.cos p.theta)
      (A := Complex.sin ψ) (B := p.n_top * Complex.cos ψ) (A' := Complex.sin ψ') (B' := p.n_top * Complex.cos ψ')
      (η := η)
      (kz := fun i => Spec.kzOf p.n_top (kxVec p p.wavelength i.modNat) (kyVec p p.wavelength i.divNat))
      (ρ := fun i => r.R_s i.divNat i.modNat) (σ := fun i => -Complex.I * r.R_p i.divNat i.modNat)
      (ρ' := fun i => r'.R_s (revF i).divNat (revF i).modNat)
      (σ' := fun i => -Complex.I * r'.R_p (revF i).divNat (revF i).modNat)
      (a := fun i => Spec.above p ψ r i.divNat i.modNat)
      (b := fun i => Spec.above { p with theta := -p.theta } ψ' r' (revF i).divNat (revF i).modNat)
      hη1 (fun i => by unfold Spec.above; simp only; rw [incident_if])
      (fun i => by unfold Spec.above; simp only; rw [hx, hy, kzOf_neg, Complex.cos_neg, hr])
  have hl := (htop.symm.trans hl).trans hbot
  have hk : p.n_top * Complex.cos p.theta + Spec.kzOf p.n_top (kxVec p p.wavelength (ctr2 p.fto.1 p.fto.2).modNat)
      (kyVec p p.wavelength (ctr2 p.fto.1 p.fto.2).divNat) ≠ 0 := by
    have : Spec.kzOf p.n_top (kxVec p p.wavelength (ctr2 p.fto.1 p.fto.2).modNat)
      (kyVec p p.wavelength (ctr2 p.fto.1 p.fto.2).divNat) = _ := hinc.kz_ctr2 (phi_getD_real h) p.wavelength
    rw [this, ntop_cos h, ← Complex.ofReal_add]
    have := mul_pos h.n_top_pos hinc.cos_pos
    exact Complex.ofReal_ne_zero.mpr (by linarith)
  have hl := (mul_eq_zero.mp hl).resolve_left (mul_ne_zero (hη0 _) hk)
  have hc : revF (ctr2 p.fto.1 p.fto.2) = ctr2 p.fto.1 p.fto.2 := by
    have := hr (ctr2 _ _); rw [if_pos rfl, incident_if] at this
    by_contra hne; rw [if_neg hne] at this; exact zero_ne_one this
  have hm : (ctr2 p.fto.1 p.fto.2).modNat = ctr p.fto.1 := modNat_prod _ _
  have hv : (ctr2 p.fto.1 p.fto.2).divNat = ctr p.fto.2 := divNat_prod _ _
  simp only [hc, hm, hv] at hl
  unfold recip
  field_simp at hl ⊢
  linear_combination hl

theorem refl_core1 {cs : List (Conv (Fin (2 * p.fto.1 + 1)))} {r r' : SubRes 1 (2 * p.fto.1 + 1)} {fs gs}
    (h : Spec.RealIllumination p) (hphi : p.phi = none) (hJ : ∀ c ∈ cs, c.reindex Fin.revPerm = c.tr)
    (hd : Spec.Diffraction1d p cs r fs) (hd' : Spec.Diffraction1d { p with theta := -p.theta } cs r' gs) :
    if p.pol = 0 then r'.R_s 0 (ctr _) = r.R_s 0 (ctr _) else r'.R_p 0 (ctr _) = r.R_p 0 (ctr _) := by
  have hinc := RealIncidence.of_spec h
  have ho := inc_opposite h
  have hx : ∀ i : Fin (2 * p.fto.1 + 1), kxVec { p with theta := -p.theta } p.wavelength (Fin.revPerm i)
      = -kxVec p p.wavelength i := fun i => kx_rev ho _
  have hl := lorentz_reversed (J := Fin.revPerm) (fun x hx => hJ x.1 (List.of_mem_zip hx).1) hx
    (fun i => (neg_zero (G := ℂ)).symm) hd hd'
  have hn : p.n_top ≠ 0 := by
    intro h0; have := h.n_top_pos; rw [h0] at this; simp at this
  have hz : ∀ n kx, Spec.kzOf n (-kx) 0 = Spec.kzOf n kx 0 := fun n kx => by
    have := kzOf_neg n kx 0; rwa [neg_zero] at this
  have hη1 : ∀ i : Fin (2 * p.fto.1 + 1), SamePlane 0 0 1 := fun i => by simp [SamePlane]
  have hr : ∀ i : Fin (2 * p.fto.1 + 1), (i.rev.val = p.fto.1) ↔ i = ctr p.fto.1 := fun i => by
    rw [Fin.ext_iff]; have := Fin.val_rev i; simp only [ctr]; omega
  have hr' : ∀ i : Fin (2 * p.fto.1 + 1), (i.val = p.fto.1) ↔ i = ctr p.fto.1 := fun i => by
    rw [Fin.ext_iff]; simp only [ctr]
  have hk : p.n_top * Complex.cos p.theta + Spec.kzOf p.n_top (kxVec p p.wavelength (ctr p.fto.1)) 0 ≠ 0 := by
    have e : Spec.kzOf p.n_top (kxVec p p.wavelength (ctr p.fto.1)) 0 = ((p.n_top.re * Real.cos p.theta.re : ℝ) : ℂ) := by
      refine Eq.trans ?_ (hinc.kz_ctr hphi p.wavelength)
      unfold Spec.kzOf kz1d
      rw [zero_pow two_ne_zero, sub_zero]
    rw [e, ntop_cos h, ← Complex.ofReal_add]
    have := mul_pos h.n_top_pos hinc.cos_pos
    exact Complex.ofReal_ne_zero.mpr (by linarith)
  have hc : (ctr p.fto.1).rev = ctr p.fto.1 := (hr' _).mp ((hr _).mpr rfl)
  by_cases h0 : p.pol = 0
  · rw [if_pos h0]
    have hbot := lorentz_out (n := p.n_bot) (η := fun _ => 1) (φ := fun _ => 0) (φ' := fun _ => 0)
      (kz := fun i => Spec.kzOf p.n_bot (kxVec p p.wavelength i) 0)
      (ρ := fun i => r.T_s 0 i) (σ := fun i => 0) (ρ' := fun i => r'.T_s 0 i.rev) (σ' := fun i => 0)
      (a := Spec.below1d p r) (b := fun i => Spec.below1d { p with theta := -p.theta } r' (Fin.revPerm i)) hη1
      (fun i => by unfold Spec.below1d; simp only [h0, if_true])
      (fun i => by unfold Spec.below1d; simp only [h0, if_true]; rw [hx, hz]; rfl)
    have htop := lorentz_waves (ctr p.fto.1) (n := p.n_top) (κ0 := p.n_top * Complex.cos p.theta)
      (A := 1) (B := 0) (A' := 1) (B' := 0) (η := fun _ => 1) (φ := fun _ => 0) (φ' := fun _ => 0)
      (kz := fun i => Spec.kzOf p.n_top (kxVec p p.wavelength i) 0)
      (ρ := fun i => r.R_s 0 i) (σ := fun i => 0) (ρ' := fun i => r'.R_s 0 i.rev) (σ' := fun i => 0)
      (a := Spec.above1d p r) (b := fun i => Spec.above1d { p with theta := -p.theta } r' (Fin.revPerm i)) hη1
      (fun i => by unfold Spec.above1d; simp only [h0, if_true, hr', one_mul, zero_mul])
      (fun i => by
        unfold Spec.above1d; simp only [h0, if_true, one_mul, zero_mul, Complex.cos_neg]
        rw [hx, hz]; simp only [Fin.revPerm_apply, hr])
    have hl := (htop.symm.trans hl).trans hbot
    have hl := (mul_eq_zero.mp hl).resolve_left (mul_ne_zero one_ne_zero hk)
    simp only [hc] at hl
    linear_combination hl
  · rw [if_neg h0]
    have hbot := lorentz_out (n := p.n_bot) (η := fun _ => 1) (φ := fun _ => 0) (φ' := fun _ => 0)
      (kz := fun i => Spec.kzOf p.n_bot (kxVec p p.wavelength i) 0)
      (σ := fun i => r.T_p 0 i) (ρ := fun i => 0) (σ' := fun i => r'.T_p 0 i.rev) (ρ' := fun i => 0)
      (a := Spec.below1d p r) (b := fun i => Spec.below1d { p with theta := -p.theta } r' (Fin.revPerm i)) hη1
      (fun i => by unfold Spec.below1d; simp only [h0, if_false])
      (fun i => by unfold Spec.below1d; simp only [h0, if_false]; rw [hx, hz]; rfl)
    have htop := lorentz_waves (ctr p.fto.1) (n := p.n_top) (κ0 := p.n_top * Complex.cos p.theta)
      (A := 0) (B := 1) (A' := 0) (B' := 1) (η := fun _ => 1) (φ := fun _ => 0) (φ' := fun _ => 0)
      (kz := fun i => Spec.kzOf p.n_top (kxVec p p.wavelength i) 0)
      (σ := fun i => r.R_p 0 i) (ρ := fun i => 0) (σ' := fun i => r'.R_p 0 i.rev) (ρ' := fun i => 0)
      (a := Spec.above1d p r) (b := fun i => Spec.above1d { p with theta := -p.theta } r' (Fin.revPerm i)) hη1
      (fun i => by unfold Spec.above1d; simp only [h0, if_false, hr', one_mul, zero_mul])
      (fun i => by
        unfold Spec.above1d; simp only [h0, if_false, one_mul, zero_mul, Complex.cos_neg]
        rw [hx, hz]; simp only [Fin.revPerm_apply, hr])
    have hl := (htop.symm.trans hl).trans hbot
    have hl := (mul_eq_zero.mp hl).resolve_left (mul_ne_zero one_ne_zero hk)
    simp only [hc] at hl
    field_simp at hl
    linear_combination -hl

/-- Specular reflection efficiencies. -/
theorem eff_ctr {la : LinAlg} {s : Settings} (h : Spec.RealIllumination s.p) {sol : Solved s.p.fto.1 s.p.fto.2}
    (hs : conv_solve la s = .ok sol) (hg : gratingType s ≠ 0) {x} (hx : Spec.Reports sol.result x) :
    x.de_ri_s (ctr _) (ctr _) = ‖x.R_s (ctr _) (ctr _)‖ ^ 2 ∧
      x.de_ri_p (ctr _) (ctr _) = ‖x.R_p (ctr _) (ctr _)‖ ^ 2 / s.p.n_top.re ^ 2 := by
  have he := conv_solve_eff hs hx
  have hi := RealIncidence.of_spec h
  have hw : ∀ k, weights s k = _ := fun k => congrFun (if_neg hg) k
  have hk : kz2d s.p.n_top (kxF s.p s.p.wavelength) (kyF s.p s.p.wavelength) (finProdFinEquiv (ctr s.p.fto.2, ctr s.p.fto.1))
      = _ := hi.kz_ctr2 (phi_getD_real h) s.p.wavelength
  have hc : s.p.n_top.re * Real.cos s.p.theta.re ≠ 0 := (mul_pos h.n_top_pos hi.cos_pos).ne'
  have hn2 : s.p.n_top ^ 2 = ((s.p.n_top.re ^ 2 : ℝ) : ℂ) := by
    conv_lhs => rw [hi.hn]
    push_cast; rfl
  constructor
  · rw [he.ri_s, hw]
    show effOf _ (kz2d _ _ _ _ / _) = _
    rw [hk, ntop_cos h, effOf_real_div (Complex.ofReal_re _), div_self hc, mul_one]
  · rw [he.ri_p, hw]
    show effOf _ (kz2d _ _ _ _ / _ / _) = _
    rw [hk, ntop_cos h, hn2, ← Complex.ofReal_div, effOf_real_div (Complex.ofReal_re _)]
    have h1 := h.n_top_pos.ne'
    have h2 := hi.cos_pos.ne'
    field_simp

theorem eff_ctr1 {la : LinAlg} {s : Settings} (h : Spec.RealIllumination s.p) {o : Out1D (2 * s.p.fto.1 + 1)}
    (hs : conv_solve la s = .ok (.tetm o)) :
    o.res.de_ri_s 0 (ctr _) = ‖o.res.R_s 0 (ctr _)‖ ^ 2 ∧ o.res.de_ri_p 0 (ctr _) = ‖o.res.R_p 0 (ctr _)‖ ^ 2 ∧
      o.res.de_ri 0 (ctr _) = o.res.de_ri_s 0 (ctr _) + o.res.de_ri_p 0 (ctr _) := by
  have he := conv_solve_eff hs (x := o.res.row1 s.p.fto.2) (.inl rfl)
  obtain ⟨-, -, hg, -, -⟩ := conv_solve_tetm.mp hs
  obtain ⟨-, -, -, -, hphi, -⟩ := gratingType_zero hg
  have hi := RealIncidence.of_spec h
  have hw : ∀ k, weights s k = _ := fun k => congrFun (if_pos hg) k
  have hk := hi.kz_ctr hphi s.p.wavelength
  have hc : s.p.n_top.re * Real.cos s.p.theta.re ≠ 0 := (mul_pos h.n_top_pos hi.cos_pos).ne'
  refine ⟨?_, ?_, he.ri (ctr _) _⟩
  · refine (he.ri_s (ctr _) _).trans ?_
    rw [hw]
    show effOf _ (kz1d _ _ _ / _) = _
    rw [hk, ntop_cos h, effOf_real_div (Complex.ofReal_re _), div_self hc, mul_one]
    rfl
  · refine (he.ri_p (ctr _) _).trans ?_
    rw [hw]
    show effOf _ (kz1d _ _ _ / _) = _
    rw [hk, ntop_cos h, effOf_real_div (Complex.ofReal_re _), div_self hc, mul_one]
    rfl

/-- The part of a TE/TM result that belongs to the other polarization is zero. -/
theorem tetm_other {la : LinAlg} {s : Settings} {o : Out1D (2 * s.p.fto.1 + 1)} (hp : s.p.use_pinv = false)
    (hs : conv_solve la s = .ok (.tetm o)) :
    (s.p.pol = 0 ∧ (∀ j i, o.res.R_p j i = 0) ∧ ∀ j i, o.res.T_p j i = 0) ∨
    (s.p.pol = 1 ∧ (∀ j i, o.res.R_s j i = 0) ∧ ∀ j i, o.res.T_s j i = 0) := by
  obtain ⟨cs, -, -, -, h4⟩ := conv_solve_tetm.mp hs
  unfold solve_1d at h4
  simp only [Except.bind_ok, Except.ok.injEq] at h4
  obtain ⟨init, hinit, r, -, y, hy, rfl⟩ := h4
  rw [hp] at hy
  obtain ⟨R, T, -, -, -, ⟨h0, -, -, -, -, h1, h2⟩ | ⟨h0, -, -, -, -, h1, h2⟩⟩ := transfer_1d_4_ok hy
  · exact .inl ⟨h0, h1, h2⟩
  · exact .inr ⟨h0, h1, h2⟩

theorem refl_eff {n a b : ℂ} {t : ℝ} (hn : n = (t : ℂ)) (ht : 0 < t) (h : n * a = Complex.I * b) :
    ‖a‖ ^ 2 = ‖b‖ ^ 2 / t ^ 2 := by
  have := congrArg norm h
  rw [norm_mul, norm_mul, Complex.norm_I, one_mul, hn, Complex.norm_real, Real.norm_eq_abs, abs_of_pos ht] at this
  rw [← this]
  field_simp

theorem RealIllumination.n_top_ne (h : Spec.RealIllumination p) : p.n_top ≠ 0 := by
  intro h0; have := h.n_top_pos; rw [h0] at this; simp at this

theorem mem_sel {a b : ℕ} (ψ : ℂ) (x y z : SubRes a b) :
    (ψ, x) ∈ Spec.selectedInputs ψ x y z (true, true, true) ∧
    (((Real.pi / 2 : ℝ) : ℂ), y) ∈ Spec.selectedInputs ψ x y z (true, true, true) ∧
    ((0 : ℂ), z) ∈ Spec.selectedInputs ψ x y z (true, true, true) :=
  ⟨List.mem_append_left _ (List.mem_append_left _ (List.mem_singleton.mpr rfl)),
    List.mem_append_left _ (List.mem_append_right _ (List.mem_singleton.mpr rfl)),
    List.mem_append_right _ (List.mem_singleton.mpr rfl)⟩

/-- The three reported dictionaries of a conical or 2D solve belong to solutions of Maxwell's equations. -/
theorem solved_bvp {la : LinAlg} {s : Settings} (hp : s.p.use_pinv = false) (ha : s.algo = .tmm) (hn : s.p.n_top ≠ 0)
    (hg : gratingType s ≠ 0) {sol : Solved s.p.fto.1 s.p.fto.2} (h : conv_solve la s = .ok sol) :
    ∃ cs y te tm, convMats la s = .ok cs ∧ sol.result = ⟨some y, some te, some tm⟩ ∧
      (∃ fs, Spec.Diffraction s.p cs s.p.psi y fs) ∧ (∃ fs, Spec.Diffraction s.p cs ((Real.pi / 2 : ℝ) : ℂ) te fs) ∧
      ∃ fs, Spec.Diffraction s.p cs 0 tm fs := by
  obtain ⟨cs, hc, hu⟩ := C49_unique la s hp ha hn sol h
  cases sol with
  | tetm o => exact absurd (conv_solve_tetm.mp h).choose_spec.2.1 hg
  | conicalSmm => exact hu.elim
  | conical o =>
    exact ⟨cs, _, _, _, hc, rfl,
      (hu (s.p.psi, o.out.res) (mem_sel _ _ _ _).1 _).mpr ⟨rfl, rfl, rfl, rfl⟩,
      (hu (((Real.pi / 2 : ℝ) : ℂ), o.out.res_te) (mem_sel _ _ _ _).2.1 _).mpr ⟨rfl, rfl, rfl, rfl⟩,
      (hu (0, o.out.res_tm) (mem_sel _ _ _ _).2.2 _).mpr ⟨rfl, rfl, rfl, rfl⟩⟩
  | twoD o =>
    exact ⟨cs, _, _, _, hc, rfl,
      (hu (s.p.psi, o.out.res) (mem_sel _ _ _ _).1 _).mpr ⟨rfl, rfl, rfl, rfl⟩,
      (hu (((Real.pi / 2 : ℝ) : ℂ), o.out.res_te) (mem_sel _ _ _ _).2.1 _).mpr ⟨rfl, rfl, rfl, rfl⟩,
      (hu (0, o.out.res_tm) (mem_sel _ _ _ _).2.2 _).mpr ⟨rfl, rfl, rfl, rfl⟩⟩

theorem tetm_bvp {la : LinAlg} {s : Settings} (hp : s.p.use_pinv = false) (hn : s.p.n_top ≠ 0)
    {o : Out1D (2 * s.p.fto.1 + 1)} (h : conv_solve la s = .ok (.tetm o)) :
    ∃ cs, convMats la s = .ok cs ∧ ∃ fs, Spec.Diffraction1d s.p (cs.map Conv.row) o.res fs := by
  obtain ⟨cs, hc, -, ha, -⟩ := conv_solve_tetm.mp h
  obtain ⟨cs, hc, hu⟩ := C49_unique la s hp ha hn _ h
  refine ⟨cs, hc, (hu _).mpr ?_⟩
  split_ifs <;> exact ⟨rfl, rfl⟩

end Meent
