import Verif.Lemmas.ReciprocitySolve
import Verif.Lemmas.LayerCount

/-!
# Reciprocity of transmission (helper lemmas)
-/

open Matrix

namespace Meent

set_option linter.unusedSectionVars false
set_option linter.unusedSimpArgs false

section
variable {m : Type} [Fintype m]

theorem SamePlane.sq {φ φ' η : ℂ} (h : SamePlane φ φ' η) : η * η = 1 := by
  have h1 := Complex.sin_sq_add_cos_sq φ
  have h2 := Complex.sin_sq_add_cos_sq φ'
  rw [h.1, h.2] at h2
  linear_combination h2 - η ^ 2 * h1

theorem SamePlane.symm {φ φ' η : ℂ} (h : SamePlane φ φ' η) : SamePlane φ' φ η := by
  constructor
  · rw [h.1, ← mul_assoc, h.sq, one_mul]
  · rw [h.2, ← mul_assoc, h.sq, one_mul]

theorem lorentz_through [DecidableEq m] (o : m) {n κ0 A B : ℂ} {φ φ' η kz ρ σ τ υ : m → ℂ} {a b : m → Spec.Tangential}
    (hφ : ∀ i, SamePlane (φ i) (φ' i) (η i))
    (ha : ∀ i, a i = Spec.planeWave n (φ i) κ0 (A * if i = o then 1 else 0) (B * if i = o then 1 else 0)
      + Spec.planeWave n (φ i) (-kz i) (ρ i) (σ i))
    (hb : ∀ i, b i = Spec.planeWave n (φ' i) (kz i) (τ i) (υ i)) :
    lorentz a (fun i => flipT (b i)) = η o * (κ0 + kz o) * (A * τ o + B * υ o / n ^ 2) := by
  unfold lorentz
  have e : ∀ i, lor1 (a i) (flipT (b i)) = (κ0 + kz i) * η i *
      ((A * if i = o then 1 else 0) * τ i + (B * if i = o then 1 else 0) * υ i / n ^ 2) := by
    intro i
    rw [ha, hb, flipT_wave, (hφ i).wave, lor1_add_left, lor1_planeWave, lor1_planeWave]
    ring
  rw [Finset.sum_congr rfl fun i _ => e i, Finset.sum_eq_single o]
  · simp only [if_true]; ring
  · intro i _ hi
    simp only [hi, if_false, mul_zero, zero_mul, zero_div, add_zero]
  · intro h; exact absurd (Finset.mem_univ o) h

theorem zip_reverse {α β : Type} (a : List α) (b : List β) (h : a.length = b.length) :
    a.reverse.zip b.reverse = (a.zip b).reverse := by
  exact (List.reverse_zipWith h).symm

/-- The conserved form for a stack and the same stack upside down. -/
theorem lorentz_upside_down {J : m ≃ m} {k0 : ℝ} {kx ky kx' ky' : m → ℂ} {ls : List (Conv m × ℝ)}
    {fs gs : List (Spec.OrderFields m)} {a b a' b' : m → Spec.Tangential} (hJ : ∀ x ∈ ls, x.1.reindex J = x.1.tr)
    (hx : ∀ i, kx' (J i) = -kx i) (hy : ∀ i, ky' (J i) = -ky i)
    (h : Spec.SolvesStack k0 kx ky ls fs a b) (h' : Spec.SolvesStack k0 kx' ky' ls.reverse gs a' b') :
    lorentz a (fun i => flipT (b' (J i))) = lorentz (fun i => a' (J i)) (fun i => flipT (b i)) := by
  obtain ⟨gs', h2⟩ := solves_flip h'
  rw [List.reverse_reverse] at h2
  have := lorentz_reversed hJ hx hy h h2
  exact this.trans (lorentz_flip b fun i => a' (J i))

end

variable {p : Params}

/-- The parameters for light from below. -/
abbrev flipP (p : Params) (θ' : ℂ) : Params :=
  { p with n_top := p.n_bot, n_bot := p.n_top, theta := θ', thickness := p.thickness.reverse }

theorem inc_flip {θ' : ℂ} (h : Spec.RealIllumination p) (h' : Spec.RealIllumination (flipP p θ'))
    (hs : p.n_bot * Complex.sin θ' = -(p.n_top * Complex.sin p.theta)) :
    p.n_bot * sinTheta θ' = -(p.n_top * sinTheta p.theta) := by
  have := sinTheta_real h'
  simp only at this
  rw [this, sinTheta_real h, hs]

/-- One side of the law for a wave of polarization `ψ` sent from a medium of index `n`. -/
noncomputable def passed (n c ψ a b : ℂ) : ℂ := n * c * (Complex.sin ψ * a - Complex.I * Complex.cos ψ * b / n)

theorem trans_core {θ' : ℂ} {cs : List (Conv (FlatIdx p.fto.1 p.fto.2))} {ψ ψ' : ℂ}
    {r r' : SubRes (2 * p.fto.2 + 1) (2 * p.fto.1 + 1)} {fs gs}
    (h : Spec.RealIllumination p) (h' : Spec.RealIllumination (flipP p θ'))
    (hs : p.n_bot * Complex.sin θ' = -(p.n_top * Complex.sin p.theta)) (hlen : cs.length = p.thickness.length)
    (hJ : ∀ c ∈ cs, c.reindex revF = c.tr)
    (hd : Spec.Diffraction p cs ψ r fs) (hd' : Spec.Diffraction (flipP p θ') cs.reverse ψ' r' gs) :
    passed p.n_top (Complex.cos p.theta) ψ (r'.T_s (ctr _) (ctr _)) (r'.T_p (ctr _) (ctr _))
      = passed p.n_bot (Complex.cos θ') ψ' (r.T_s (ctr _) (ctr _)) (r.T_p (ctr _) (ctr _)) := by
  have hinc := RealIncidence.of_spec h
  have hinc' := RealIncidence.of_spec h'
  have ho := inc_flip h h' hs
  have hx : ∀ i : FlatIdx p.fto.1 p.fto.2, kxVec (flipP p θ') p.wavelength (revF i).modNat
      = -kxVec p p.wavelength i.modNat := fun i => by rw [revF_mod]; exact kx_rev ho _
  have hy : ∀ i : FlatIdx p.fto.1 p.fto.2, kyVec (flipP p θ') p.wavelength (revF i).divNat
      = -kyVec p p.wavelength i.divNat := fun i => by rw [revF_div]; exact ky_rev ho _
  have hd2 : Spec.SolvesStack (Spec.k0Of p) (fun i => kxVec (flipP p θ') p.wavelength i.modNat)
      (fun i => kyVec (flipP p θ') p.wavelength i.divNat) (cs.zip p.thickness).reverse gs
      (fun i => Spec.above (flipP p θ') ψ' r' i.divNat i.modNat) (fun i => Spec.below (flipP p θ') r' i.divNat i.modNat) := by
    rw [← zip_reverse _ _ hlen]; exact hd'
  have hl := lorentz_upside_down (J := revF) (fun x hx => hJ x.1 (List.of_mem_zip hx).1) hx hy hd hd2
  have hη : ∀ i : FlatIdx p.fto.1 p.fto.2, ∃ η : ℂ, η ≠ 0 ∧ SamePlane
      (Spec.azimuth (kxVec p p.wavelength i.modNat) (kyVec p p.wavelength i.divNat))
      (Spec.azimuth (-kxVec p p.wavelength i.modNat) (-kyVec p p.wavelength i.divNat)) η := fun i => azimuth_neg _ _
  choose η hη0 hη1 using hη
  have hr : ∀ i : FlatIdx p.fto.1 p.fto.2, Spec.incidentOrder (revF i).divNat (revF i).modNat
      = if i = ctr2 p.fto.1 p.fto.2 then 1 else 0 := fun i => by
    rw [revF_mod, revF_div, incident_rev, incident_if]
  have e1 := lorentz_through (ctr2 p.fto.1 p.fto.2) (n := p.n_top) (κ0 := p.n_top * Complex.cos p.theta)
      (A := Complex.sin ψ) (B := p.n_top * Complex.cos ψ) (η := η)
      (kz := fun i => Spec.kzOf p.n_top (kxVec p p.wavelength i.modNat) (kyVec p p.wavelength i.divNat))
      (ρ := fun i => r.R_s i.divNat i.modNat) (σ := fun i => -Complex.I * r.R_p i.divNat i.modNat)
      (τ := fun i => r'.T_s (revF i).divNat (revF i).modNat)
      (υ := fun i => -Complex.I * r'.T_p (revF i).divNat (revF i).modNat)
      (a := fun i => Spec.above p ψ r i.divNat i.modNat)
      (b := fun i => Spec.below (flipP p θ') r' (revF i).divNat (revF i).modNat)
      hη1 (fun i => by unfold Spec.above; simp only; rw [incident_if])
      (fun i => by unfold Spec.below; simp only; rw [hx, hy, kzOf_neg])
  have e2 := lorentz_through (ctr2 p.fto.1 p.fto.2) (n := p.n_bot) (κ0 := p.n_bot * Complex.cos θ')
      (A := Complex.sin ψ') (B := p.n_bot * Complex.cos ψ') (η := η)
      (kz := fun i => Spec.kzOf p.n_bot (kxVec p p.wavelength i.modNat) (kyVec p p.wavelength i.divNat))
      (ρ := fun i => r'.R_s (revF i).divNat (revF i).modNat)
      (σ := fun i => -Complex.I * r'.R_p (revF i).divNat (revF i).modNat)
      (τ := fun i => r.T_s i.divNat i.modNat) (υ := fun i => -Complex.I * r.T_p i.divNat i.modNat)
      (a := fun i => Spec.above (flipP p θ') ψ' r' (revF i).divNat (revF i).modNat)
      (b := fun i => Spec.below p r i.divNat i.modNat)
      (fun i => (hη1 i).symm) (fun i => by unfold Spec.above; simp only; rw [hx, hy, kzOf_neg, hr])
      (fun i => rfl)
  have hl := (e1.symm.trans hl).trans e2
  have hc : revF (ctr2 p.fto.1 p.fto.2) = ctr2 p.fto.1 p.fto.2 := by
    have := hr (ctr2 _ _); rw [if_pos rfl, incident_if] at this
    by_contra hne; rw [if_neg hne] at this; exact zero_ne_one this
  have hk1 : Spec.kzOf p.n_top (kxVec p p.wavelength (ctr2 p.fto.1 p.fto.2).modNat)
      (kyVec p p.wavelength (ctr2 p.fto.1 p.fto.2).divNat) = p.n_top * Complex.cos p.theta :=
    Eq.trans (hinc.kz_ctr2 (phi_getD_real h) p.wavelength) (ntop_cos h).symm
  have hk2 : Spec.kzOf p.n_bot (kxVec p p.wavelength (ctr2 p.fto.1 p.fto.2).modNat)
      (kyVec p p.wavelength (ctr2 p.fto.1 p.fto.2).divNat) = p.n_bot * Complex.cos θ' := by
    rw [← kzOf_neg, ← hx, ← hy, hc]
    exact Eq.trans (hinc'.kz_ctr2 (phi_getD_real h') p.wavelength) (ntop_cos h').symm
  have hm : (ctr2 p.fto.1 p.fto.2).modNat = ctr p.fto.1 := modNat_prod _ _
  have hv : (ctr2 p.fto.1 p.fto.2).divNat = ctr p.fto.2 := divNat_prod _ _
  have hl : η (ctr2 p.fto.1 p.fto.2) * (p.n_top * Complex.cos p.theta + p.n_top * Complex.cos p.theta) *
      (Complex.sin ψ * r'.T_s (ctr _) (ctr _) + p.n_top * Complex.cos ψ * (-Complex.I * r'.T_p (ctr _) (ctr _)) / p.n_top ^ 2)
      = η (ctr2 p.fto.1 p.fto.2) * (p.n_bot * Complex.cos θ' + p.n_bot * Complex.cos θ') *
      (Complex.sin ψ' * r.T_s (ctr _) (ctr _) + p.n_bot * Complex.cos ψ' * (-Complex.I * r.T_p (ctr _) (ctr _)) / p.n_bot ^ 2) := by
    rw [hm, hv] at hk1 hk2
    simp only [hc, hm, hv] at hl
    rw [hk1, hk2] at hl
    exact hl
  have hn := RealIllumination.n_top_ne h
  have hn' : p.n_bot ≠ 0 := RealIllumination.n_top_ne h'
  have h0 := hη0 (ctr2 p.fto.1 p.fto.2)
  unfold passed
  apply mul_left_cancel₀ (mul_ne_zero h0 two_ne_zero)
  refine Eq.trans ?_ (hl.trans ?_)
  · field_simp; ring
  · field_simp; ring

theorem trans_core1 {θ' : ℂ} {cs : List (Conv (Fin (2 * p.fto.1 + 1)))} {r r' : SubRes 1 (2 * p.fto.1 + 1)} {fs gs}
    (h : Spec.RealIllumination p) (h' : Spec.RealIllumination (flipP p θ')) (hphi : p.phi = none)
    (hs : p.n_bot * Complex.sin θ' = -(p.n_top * Complex.sin p.theta)) (hlen : cs.length = p.thickness.length)
    (hJ : ∀ c ∈ cs, c.reindex Fin.revPerm = c.tr)
    (hd : Spec.Diffraction1d p cs r fs) (hd' : Spec.Diffraction1d (flipP p θ') cs.reverse r' gs) :
    if p.pol = 0 then p.n_top * Complex.cos p.theta * r'.T_s 0 (ctr _) = p.n_bot * Complex.cos θ' * r.T_s 0 (ctr _)
    else Complex.cos p.theta / p.n_top * r'.T_p 0 (ctr _) = Complex.cos θ' / p.n_bot * r.T_p 0 (ctr _) := by
  have hinc := RealIncidence.of_spec h
  have hinc' := RealIncidence.of_spec h'
  have ho := inc_flip h h' hs
  have hx : ∀ i : Fin (2 * p.fto.1 + 1), kxVec (flipP p θ') p.wavelength (Fin.revPerm i)
      = -kxVec p p.wavelength i := fun i => kx_rev ho _
  have hd2 : Spec.SolvesStack (Spec.k0Of p) (kxVec (flipP p θ') p.wavelength) 0 (cs.zip p.thickness).reverse gs
      (Spec.above1d (flipP p θ') r') (Spec.below1d (flipP p θ') r') := by
    rw [← zip_reverse _ _ hlen]; exact hd'
  have hl := lorentz_upside_down (J := Fin.revPerm) (fun x hx => hJ x.1 (List.of_mem_zip hx).1) hx
    (fun i => (neg_zero (G := ℂ)).symm) hd hd2
  have hz : ∀ n kx, Spec.kzOf n (-kx) 0 = Spec.kzOf n kx 0 := fun n kx => by
    have := kzOf_neg n kx 0; rwa [neg_zero] at this
  have hη1 : ∀ i : Fin (2 * p.fto.1 + 1), SamePlane 0 0 1 := fun i => by simp [SamePlane]
  have hr : ∀ i : Fin (2 * p.fto.1 + 1), (i.rev.val = p.fto.1) ↔ i = ctr p.fto.1 := fun i => by
    rw [Fin.ext_iff]; have := Fin.val_rev i; simp only [ctr]; omega
  have hr' : ∀ i : Fin (2 * p.fto.1 + 1), (i.val = p.fto.1) ↔ i = ctr p.fto.1 := fun i => by
    rw [Fin.ext_iff]; simp only [ctr]
  have hc : (ctr p.fto.1).rev = ctr p.fto.1 := (hr' _).mp ((hr _).mpr rfl)
  have e0 : ∀ n kx, Spec.kzOf n kx 0 = star (csqrt (n ^ 2 - kx ^ 2)) := fun n kx => by
    unfold Spec.kzOf; rw [zero_pow two_ne_zero, sub_zero]
  have hk1 : Spec.kzOf p.n_top (kxVec p p.wavelength (ctr p.fto.1)) 0 = p.n_top * Complex.cos p.theta := by
    rw [e0]; exact Eq.trans (hinc.kz_ctr hphi p.wavelength) (ntop_cos h).symm
  have hk2 : Spec.kzOf p.n_bot (kxVec p p.wavelength (ctr p.fto.1)) 0 = p.n_bot * Complex.cos θ' := by
    rw [← hz, ← hx, Fin.revPerm_apply, hc, e0]
    exact Eq.trans (hinc'.kz_ctr hphi p.wavelength) (ntop_cos h').symm
  have hn := RealIllumination.n_top_ne h
  have hn' : p.n_bot ≠ 0 := RealIllumination.n_top_ne h'
  by_cases h0 : p.pol = 0
  · rw [if_pos h0]
    have e1 := lorentz_through (ctr p.fto.1) (n := p.n_top) (κ0 := p.n_top * Complex.cos p.theta)
      (A := 1) (B := 0) (η := fun _ => 1) (φ := fun _ => 0) (φ' := fun _ => 0)
      (kz := fun i => Spec.kzOf p.n_top (kxVec p p.wavelength i) 0)
      (ρ := fun i => r.R_s 0 i) (σ := fun i => 0) (τ := fun i => r'.T_s 0 i.rev) (υ := fun i => 0)
      (a := Spec.above1d p r) (b := fun i => Spec.below1d (flipP p θ') r' (Fin.revPerm i)) hη1
      (fun i => by unfold Spec.above1d; simp only [h0, if_true, hr', one_mul, zero_mul])
      (fun i => by unfold Spec.below1d; simp only [h0, if_true]; rw [hx, hz]; rfl)
    have e2 := lorentz_through (ctr p.fto.1) (n := p.n_bot) (κ0 := p.n_bot * Complex.cos θ')
      (A := 1) (B := 0) (η := fun _ => 1) (φ := fun _ => 0) (φ' := fun _ => 0)
      (kz := fun i => Spec.kzOf p.n_bot (kxVec p p.wavelength i) 0)
      (ρ := fun i => r'.R_s 0 i.rev) (σ := fun i => 0) (τ := fun i => r.T_s 0 i) (υ := fun i => 0)
      (a := fun i => Spec.above1d (flipP p θ') r' (Fin.revPerm i)) (b := Spec.below1d p r) hη1
      (fun i => by
        unfold Spec.above1d; simp only [h0, if_true, one_mul, zero_mul]
        rw [hx, hz]; simp only [Fin.revPerm_apply, hr])
      (fun i => by unfold Spec.below1d; simp only [h0, if_true])
    have hl := (e1.symm.trans hl).trans e2
    simp only [hk1, hk2, hc] at hl
    linear_combination hl / 2
  · rw [if_neg h0]
    have e1 := lorentz_through (ctr p.fto.1) (n := p.n_top) (κ0 := p.n_top * Complex.cos p.theta)
      (A := 0) (B := 1) (η := fun _ => 1) (φ := fun _ => 0) (φ' := fun _ => 0)
      (kz := fun i => Spec.kzOf p.n_top (kxVec p p.wavelength i) 0)
      (σ := fun i => r.R_p 0 i) (ρ := fun i => 0) (υ := fun i => r'.T_p 0 i.rev) (τ := fun i => 0)
      (a := Spec.above1d p r) (b := fun i => Spec.below1d (flipP p θ') r' (Fin.revPerm i)) hη1
      (fun i => by unfold Spec.above1d; simp only [h0, if_false, hr', one_mul, zero_mul])
      (fun i => by unfold Spec.below1d; simp only [h0, if_false]; rw [hx, hz]; rfl)
    have e2 := lorentz_through (ctr p.fto.1) (n := p.n_bot) (κ0 := p.n_bot * Complex.cos θ')
      (A := 0) (B := 1) (η := fun _ => 1) (φ := fun _ => 0) (φ' := fun _ => 0)
      (kz := fun i => Spec.kzOf p.n_bot (kxVec p p.wavelength i) 0)
      (σ := fun i => r'.R_p 0 i.rev) (ρ := fun i => 0) (υ := fun i => r.T_p 0 i) (τ := fun i => 0)
      (a := fun i => Spec.above1d (flipP p θ') r' (Fin.revPerm i)) (b := Spec.below1d p r) hη1
      (fun i => by
        unfold Spec.above1d; simp only [h0, if_false, one_mul, zero_mul]
        rw [hx, hz]; simp only [Fin.revPerm_apply, hr])
      (fun i => by unfold Spec.below1d; simp only [h0, if_false])
    have hl := (e1.symm.trans hl).trans e2
    simp only [hk1, hk2, hc] at hl
    field_simp at hl ⊢
    linear_combination hl

/-! ### Structures upside down -/

theorem mapM_reverse {α β : Type} {f : α → Res β} {l : List α} {l' : List β} (h : l.mapM f = .ok l') :
    l.reverse.mapM f = .ok l'.reverse := by
  rw [mapM_ok] at *
  exact List.forall₂_reverse_iff.mpr h

theorem convMats_reversed {la : LinAlg} {s : Settings} {θ' : ℂ} {cs : List (Conv (FlatIdx s.p.fto.1 s.p.fto.2))}
    (h : convMats la s = .ok cs) : convMats la (Spec.flipped s θ') = .ok cs.reverse := by
  rcases hu : s.ucell with u | ls
  · obtain ⟨hf, hm⟩ := (convMats_raster hu).mp h
    have hu' : (Spec.flipped s θ').ucell = .raster { u with layers := u.layers.reverse } := by
      simp only [hu, Spec.reversed]
    refine (convMats_raster (s := Spec.flipped s θ') hu').mpr ⟨hf, ?_⟩
    have := mapM_reverse hm
    rw [show Ucell.rasters { u with layers := u.layers.reverse } = u.rasters.reverse by
      simp only [Ucell.rasters, List.map_reverse]]
    exact this
  · have hu' : (Spec.flipped s θ').ucell = .vector ls.reverse := by simp only [hu, Spec.reversed]
    exact (convMats_vector (s := Spec.flipped s θ') hu').mpr (mapM_reverse ((convMats_vector hu).mp h))

theorem gratingType_reversed (s : Settings) (θ' : ℂ) : gratingType (Spec.flipped s θ') = gratingType s := by
  unfold gratingType
  rcases hu : s.ucell with u | ls <;> simp only [hu, Spec.reversed]

/-! ### Efficiencies -/

theorem kz_direct {s : Settings} {θ' : ℂ} (h : Spec.RealIllumination s.p) (h' : Spec.RealIllumination (flipP s.p θ'))
    (hs : s.p.n_bot * Complex.sin θ' = -(s.p.n_top * Complex.sin s.p.theta)) :
    Spec.orderKzRe s.p s.p.n_bot.re 0 0 = s.p.n_bot.re * Real.cos θ'.re := by
  have e1 : s.p.n_top = ((s.p.n_top.re : ℝ) : ℂ) := (RealIncidence.of_spec h).hn
  have e2 : s.p.n_bot = ((s.p.n_bot.re : ℝ) : ℂ) := (RealIncidence.of_spec h').hn
  have e3 : s.p.theta = ((s.p.theta.re : ℝ) : ℂ) := Complex.ext rfl h.theta_real
  have e4 : θ' = ((θ'.re : ℝ) : ℂ) := Complex.ext rfl h'.theta_real
  have hr : s.p.n_bot.re * Real.sin θ'.re = -(s.p.n_top.re * Real.sin s.p.theta.re) := by
    rw [e1, e2, e3, e4] at hs
    exact_mod_cast hs
  have hc : 0 < Real.cos θ'.re := (RealIncidence.of_spec h').cos_pos
  have hb : 0 < s.p.n_bot.re := h'.n_top_pos
  unfold Spec.orderKzRe Spec.inPlaneSq Spec.orderKx Spec.orderKy
  rw [Real.sqrt_eq_iff_mul_self_eq_of_pos (mul_pos hb hc)]
  have a1 := Real.sin_sq_add_cos_sq (s.p.phi.getD 0).re
  have a2 := Real.sin_sq_add_cos_sq θ'.re
  push_cast
  linear_combination s.p.n_bot.re ^ 2 * a2 + (s.p.n_top.re * Real.sin s.p.theta.re) ^ 2 * a1
    - (s.p.n_bot.re * Real.sin θ'.re - s.p.n_top.re * Real.sin s.p.theta.re) * hr

theorem colOrder_ctr (f : ℕ) : Spec.colOrder (ctr f) = 0 := colOrder_zero.mpr rfl
theorem rowOrder_ctr (f : ℕ) : Spec.rowOrder (ctr f) = 0 := rowOrder_zero.mpr rfl

/-- Efficiencies of direct transmission. -/
theorem eff_direct {la : LinAlg} {s : Settings} {θ' : ℂ} (h : Spec.RealIllumination s.p)
    (h' : Spec.RealIllumination (flipP s.p θ'))
    (hs : s.p.n_bot * Complex.sin θ' = -(s.p.n_top * Complex.sin s.p.theta)) {sol : Solved s.p.fto.1 s.p.fto.2}
    (hsol : conv_solve la s = .ok sol) {x} (hx : Spec.Reports sol.result x) :
    x.de_ti_s (ctr _) (ctr _) = ‖x.T_s (ctr _) (ctr _)‖ ^ 2 *
        (s.p.n_bot.re * Real.cos θ'.re / (s.p.n_top.re * Real.cos s.p.theta.re)) ∧
      x.de_ti_p (ctr _) (ctr _) = (pWeights s).2 * ‖x.T_p (ctr _) (ctr _)‖ ^ 2 *
        (s.p.n_bot.re * Real.cos θ'.re / (s.p.n_top.re * Real.cos s.p.theta.re)) ∧
      x.de_ti (ctr _) (ctr _) = x.de_ti_s (ctr _) (ctr _) + x.de_ti_p (ctr _) (ctr _) := by
  have hl := conv_solve_law h h'.n_top_real hsol hx
  have a := hl.ti_s (ctr _) (ctr _)
  have b := hl.ti_p (ctr _) (ctr _)
  rw [colOrder_ctr, rowOrder_ctr, kz_direct h h' hs] at a b
  exact ⟨a, b, hl.ti _ _⟩

theorem back_again {s : Settings} {θ' : ℂ} (hs : s.p.n_bot * Complex.sin θ' = -(s.p.n_top * Complex.sin s.p.theta)) :
    (flipP s.p θ').n_bot * Complex.sin s.p.theta = -((flipP s.p θ').n_top * Complex.sin (flipP s.p θ').theta) := by
  simp only
  rw [hs, neg_neg]

theorem flip_again {s : Settings} {θ' : ℂ} (h : Spec.RealIllumination s.p) :
    Spec.RealIllumination (flipP (flipP s.p θ') s.p.theta) :=
  ⟨h.n_top_real, h.n_top_pos, h.theta_real, h.theta_lo, h.theta_hi, h.phi_real, h.psi_real, h.wavelength_pos,
    h.period_x_pos, h.period_y_pos⟩

theorem trans_norm {a b X Y : ℂ} {x y : ℝ} (hX : ‖X‖ = x) (hY : ‖Y‖ = y) (hx : 0 < x) (h : X * a = Y * b) :
    ‖a‖ = y / x * ‖b‖ := by
  have := congrArg norm h
  rw [norm_mul, norm_mul, hX, hY] at this
  field_simp
  linarith

theorem norm_cos (h : Spec.RealIllumination p) : ‖Complex.cos p.theta‖ = Real.cos p.theta.re := by
  have hi := RealIncidence.of_spec h
  rw [hi.cos_eq, Complex.norm_real, Real.norm_eq_abs, abs_of_pos hi.cos_pos]

theorem norm_ncos (h : Spec.RealIllumination p) : ‖p.n_top * Complex.cos p.theta‖ = p.n_top.re * Real.cos p.theta.re ∧
    ‖Complex.cos p.theta / p.n_top‖ = Real.cos p.theta.re / p.n_top.re := by
  have hi := RealIncidence.of_spec h
  have e : ‖p.n_top‖ = p.n_top.re := by
    have := congrArg norm hi.hn
    rwa [Complex.norm_real, Real.norm_eq_abs, abs_of_pos h.n_top_pos] at this
  rw [norm_mul, norm_div, norm_cos h, e]
  exact ⟨rfl, rfl⟩

end Meent
