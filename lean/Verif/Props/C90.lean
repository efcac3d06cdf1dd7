import Verif.Lemmas.FieldMirror
import Verif.Props.C54
import Verif.Props.C81
import Verif.Props.C87

/-!
# C90: mirrored structures have mirrored fields
-/

open Matrix

namespace Meent

/-- **C90.**  Mirror every layer of the structure, the direction of incidence and the polarization. The fields are mirrored: the arrays for the structure hold
samples of functions of position, and the arrays for the mirrored structure hold samples of their mirror images, the electric field as a vector and the magnetic
field as an axial vector. -/
theorem C90_mirror (la la' : LinAlg) (s : Settings) (mx my : Bool) (θ' ψ' : ℂ) (φ' : Option ℂ) (pol' : ℝ)
    (u : Ucell) (hu : s.ucell = .raster u) (hny : 0 < u.ny) (hnx : 0 < u.nx) (hft : s.fourier_type = 1) (hi : Spec.RealIllumination s.p)
    (hi' : Spec.RealIllumination (Spec.image mx my s u θ' φ' pol' ψ').p)
    (hd : Spec.MirrorDirection mx my s.p.theta s.p.phi θ' φ') (hp : s.p.use_pinv = false) (ha : s.algo = .tmm)
    (hg : gratingType (Spec.image mx my s u θ' φ' pol' ψ') = 0 ↔ gratingType s = 0)
    (hpol : if gratingType s = 0 then pol' = s.p.pol else Spec.MirrorPsi mx my s.p.psi ψ')
    (sol sol' : Solved s.p.fto.1 s.p.fto.2) (h : conv_solve la s = .ok sol)
    (h' : conv_solve la' (Spec.image mx my s u θ' φ' pol' ψ') = .ok sol') :
    ∃ fields fields' : Spec.Fields Field3, Spec.AlwaysSampled s.p sol fields ∧
      Spec.AlwaysSampled (Spec.image mx my s u θ' φ' pol' ψ').p sol' fields' ∧ fields.Mirrored mx my fields' := by
  have hn := RealIllumination.n_top_ne hi
  have hw : s.p.wavelength ≠ 0 := hi.wavelength_pos.ne'
  have ht := sinTheta_real hi
  have ht' : sinTheta θ' = Complex.sin θ' := sinTheta_real hi'
  suffices hs : ∃ cs fields fields', convMats la s = .ok cs ∧ ProblemFields s.p cs sol fields ∧
      ProblemFields (Spec.image mx my s u θ' φ' pol' ψ').p (cs.map fun c => (c.reindex (imgE mx my)).gauge (shiftD 1 1)) sol' fields' ∧
      fields.Mirrored mx my fields' by
    obtain ⟨cs, fields, fields', hc, f1, f2, hm⟩ := hs
    exact ⟨fields, fields', problem_sampled hp hn hw h hc f1, problem_sampled (s := Spec.image mx my s u θ' φ' pol' ψ') hp hn hw h'
      (convMats_image_continuous hp hu hft hny hnx mx my θ' φ' pol' ψ' hc) f2, hm⟩
  by_cases h0 : gratingType s = 0
  · have h0' := hg.mpr h0
    rw [if_pos h0] at hpol
    subst hpol
    obtain ⟨o, rfl⟩ : ∃ o, sol = .tetm o := by
      rcases conv_solve_cases h with ⟨-, h1⟩ | ⟨h1, -⟩ | ⟨h1, -⟩
      · exact h1
      · omega
      · omega
    obtain ⟨o', rfl⟩ : ∃ o, sol' = .tetm o := by
      rcases conv_solve_cases h' with ⟨-, h1⟩ | ⟨h1, -⟩ | ⟨h1, -⟩
      · exact h1
      · omega
      · omega
    obtain ⟨-, -, -, -, -, hf⟩ := gratingType_zero h0
    obtain ⟨cs, hc, fs, hb⟩ := tetm_bvp hp hn h
    obtain ⟨cs', hc', hq⟩ := C49_unique la' (Spec.image mx my s u θ' φ' s.p.pol ψ') hp ha hn _ h'
    obtain rfl := Except.ok.inj ((convMats_image_continuous hp hu hft hny hnx mx my θ' φ' s.p.pol ψ' hc).symm.trans hc')
    obtain ⟨F', f1, f2⟩ := tetm_image_fields (my := my) (ψ' := ψ') hf ht ht' hd hb (fun r hr => (hq r).mp hr)
    exact ⟨cs, .tetm _, .tetm F', hc, ⟨fs, hb, rfl⟩, f1, f2⟩
  · have h0' : gratingType (Spec.image mx my s u θ' φ' pol' ψ') ≠ 0 := fun e => h0 (hg.mp e)
    rw [if_neg h0] at hpol
    obtain ⟨cs, y, te, tm, hc, er, ⟨f1, d1⟩, ⟨f2, d2⟩, ⟨f3, d3⟩⟩ := solved_bvp hp ha hn h0 h
    obtain ⟨cs', y', te', tm', hc', er', q1, q2, q3⟩ := solved_unique (s := Spec.image mx my s u θ' φ' pol' ψ') hp ha hn h0' h'
    obtain rfl := Except.ok.inj ((convMats_image_continuous hp hu hft hny hnx mx my θ' φ' pol' ψ' hc).symm.trans hc')
    obtain ⟨F1, a1, b1⟩ := wave_image (pol' := pol') (ψ' := ψ') ht ht' hd hpol ⟨f1, d1, rfl⟩ q1
    obtain ⟨F2, a2, b2⟩ := wave_image (pol' := pol') (ψ' := ψ') ht ht' hd (mirrorPsi_te mx my) ⟨f2, d2, rfl⟩ q2
    obtain ⟨F3, a3, b3⟩ := wave_image (pol' := pol') (ψ' := ψ') ht ht' hd (mirrorPsi_tm mx my) ⟨f3, d3, rfl⟩ q3
    exact ⟨cs, .vector _ _ _, .vector F1 F2 F3, hc, problem_vector er ⟨f1, d1, rfl⟩ ⟨f2, d2, rfl⟩ ⟨f3, d3, rfl⟩,
      problem_vector (p := (Spec.image mx my s u θ' φ' pol' ψ').p) er' a1 a2 a3, b1, b2, b3⟩

private theorem lossy_image (θ' : ℂ) (hθ : θ' = -((Real.pi / 6 : ℝ) : ℂ)) :
    ∃ o, conv_solve exLA (Spec.image true false (lossySettings 0 none 1) ⟨1, 2, [fun _ j => if j = 0 then 1 - 2 * Complex.I else 2 - Complex.I]⟩ θ' none 0
      (lossySettings 0 none 1).p.psi) = .ok (.tetm o) := by
  subst hθ
  have A := lossySettings_absorbing 0 none (by simp) 1
  have I := exOpp_real 0 none (by simp)
  have G : gratingType (Spec.image true false (lossySettings 0 none 1) ⟨1, 2, [fun _ j => if j = 0 then 1 - 2 * Complex.I else 2 - Complex.I]⟩
      (-((Real.pi / 6 : ℝ) : ℂ)) none 0 (lossySettings 0 none 1).p.psi) = 0 := by
    simp [gratingType, lossySettings, exParams]
  refine C56_te exLA exLA_basis _ rfl rfl
    { n_top_real := I.n_top_real, n_top_pos := I.n_top_pos, theta_real := I.theta_real, theta_lo := I.theta_lo, theta_hi := I.theta_hi
      phi_real := I.phi_real, psi_real := I.psi_real, wavelength_pos := I.wavelength_pos
      period_x_pos := I.period_x_pos
      period_y_pos := I.period_y_pos
      layers := ⟨Or.inl rfl, ?_⟩
      thickness_pos := A.thickness_pos, thickness_some := A.thickness_some
      layers_enough := by simp [lossySettings, exParams, Spec.layerCount]
      n_bot_real := A.n_bot_real, n_bot_pos := A.n_bot_pos
      not_normal := Or.inl G
      orders := fun _ => rfl } _ rfl G rfl ?_
  · intro l hl
    rw [List.mem_singleton.mp hl]
    refine ⟨fun i j => ?_, ⟨0, by simp⟩, ⟨0, by simp⟩, ?_⟩
    · simp only [Spec.OrdinaryMedium, Spec.mirrored]
      split <;> simp
    · simp only [Spec.AbsorbingMedium, Spec.mirrored]
      split <;> simp
  · intro l hl
    rw [List.mem_singleton.mp hl]
    refine ⟨-4, fun i j => ?_⟩
    have h1 : ((1 - 2 * Complex.I) ^ 2).im = -4 := by simp [pow_two]; norm_num
    have h2 : ((2 - Complex.I) ^ 2).im = -4 := by simp [pow_two]; norm_num
    simp only [Spec.mirrored]
    split
    · exact h1
    · exact h2

/-- Not vacuous: the grating of two absorbing media at 30° in TE with the orders -1, 0 and 1. Its mirror image has the two media exchanged and light from -30°. -/
example : ∃ sol sol', conv_solve exLA (lossySettings 0 none 1) = .ok sol ∧
    conv_solve exLA (Spec.image true false (lossySettings 0 none 1) ⟨1, 2, [fun _ j => if j = 0 then 1 - 2 * Complex.I else 2 - Complex.I]⟩
      (-((Real.pi / 6 : ℝ) : ℂ)) none 0 (lossySettings 0 none 1).p.psi) = .ok sol' ∧
    ∃ fields fields' : Spec.Fields Field3, Spec.AlwaysSampled (lossySettings 0 none 1).p sol fields ∧
      Spec.AlwaysSampled (Spec.image true false (lossySettings 0 none 1) ⟨1, 2, [fun _ j => if j = 0 then 1 - 2 * Complex.I else 2 - Complex.I]⟩
        (-((Real.pi / 6 : ℝ) : ℂ)) none 0 (lossySettings 0 none 1).p.psi).p sol' fields' ∧ fields.Mirrored true false fields' := by
  obtain ⟨o, h⟩ := C81.lossy_base
  obtain ⟨o', h'⟩ := lossy_image _ rfl
  have I := exOpp_real 0 none (by simp)
  have G : gratingType (lossySettings 0 none 1) = 0 := by simp [gratingType, lossySettings, exParams]
  exact ⟨_, _, h, h', C90_mirror exLA exLA (lossySettings 0 none 1) true false _ _ none 0 _ rfl (by norm_num) (by norm_num) rfl
    (lossySettings_absorbing 0 none (by simp) 1).toRealIllumination
    ⟨I.n_top_real, I.n_top_pos, I.theta_real, I.theta_lo, I.theta_hi, I.phi_real, I.psi_real, I.wavelength_pos, I.period_x_pos, I.period_y_pos⟩
    (exDirection none (.inl rfl)) rfl rfl (by simp [gratingType, lossySettings, exParams]) (by rw [if_pos G]; rfl) _ _ h h'⟩

private theorem film_ok (pol ψ : ℝ) (s : Settings)
    (hs : s = { C81.film pol 1 (1, 1) (1, 1) 2 3 with p := { (C81.film pol 1 (1, 1) (1, 1) 2 3).p with psi := (ψ : ℂ) } }) :
    ∃ sol, conv_solve exLA s = .ok sol := by
  subst hs
  have I := lossy_illumination pol (some 0) (by intro φ h; cases h; rfl) 1 1
  have A := lossySettings_absorbing pol (some 0) (Or.inr rfl) 1
  exact C56_films exLA exLA_basis _ rfl rfl
    { n_top_real := I.n_top_real, n_top_pos := I.n_top_pos, theta_real := I.theta_real, theta_lo := I.theta_lo, theta_hi := I.theta_hi
      phi_real := I.phi_real, psi_real := Complex.ofReal_im _, wavelength_pos := I.wavelength_pos
      period_x_pos := I.period_x_pos
      period_y_pos := I.period_y_pos
      layers := ⟨Or.inl rfl, by
        intro l hl
        rw [List.mem_singleton.mp hl]
        exact ⟨fun i j => by simp [Spec.OrdinaryMedium], ⟨0, by simp [Spec.homogeneousRaster]⟩, ⟨0, by simp [Spec.homogeneousRaster]⟩, by simp [Spec.AbsorbingMedium]⟩⟩
      thickness_pos := A.thickness_pos, thickness_some := A.thickness_some
      layers_enough := by simp [C81.film, exParams, Spec.layerCount, Spec.homogeneousRaster]
      n_bot_real := A.n_bot_real, n_bot_pos := A.n_bot_pos
      not_normal := Or.inr (by
        rintro ⟨m, k, -, -, h⟩
        have := h.1
        simp only [C81.film, exParams, Option.getD_some, Complex.cos_zero] at this
        rw [← Complex.ofReal_sin, Real.sin_pi_div_six] at this
        have h2 : ((1 / 2 + m : ℝ) : ℂ) = 0 := by
          push_cast
          push_cast at this
          rw [← this]; ring
        have h3 : (1 / 2 + m : ℝ) = 0 := by exact_mod_cast h2
        have h4 : (2 * m + 1 : ℤ) = 0 := by
          have : (2 * m + 1 : ℝ) = 0 := by linarith
          exact_mod_cast this
        omega)
      orders := fun h => by simp [gratingType, C81.film, Spec.homogeneousRaster] at h } 2 3 [2 - Complex.I] rfl

/-- Not vacuous, 2D: an absorbing film at 30° with any polarization angle and nine orders; the mirror reverses the y axis and the polarization angle. -/
example (pol : ℝ) : ∃ sol sol', conv_solve exLA (C81.film pol 1 (1, 1) (1, 1) 2 3) = .ok sol ∧
    conv_solve exLA (Spec.image false true (C81.film pol 1 (1, 1) (1, 1) 2 3) (Spec.homogeneousRaster 2 3 [2 - Complex.I]) ((Real.pi / 6 : ℝ) : ℂ) (some 0) pol
      (-((Real.pi / 2 * (1 - pol) : ℝ) : ℂ))) = .ok sol' ∧
    ∃ fields fields' : Spec.Fields Field3, Spec.AlwaysSampled (C81.film pol 1 (1, 1) (1, 1) 2 3).p sol fields ∧
      Spec.AlwaysSampled (Spec.image false true (C81.film pol 1 (1, 1) (1, 1) 2 3) (Spec.homogeneousRaster 2 3 [2 - Complex.I]) ((Real.pi / 6 : ℝ) : ℂ) (some 0) pol
        (-((Real.pi / 2 * (1 - pol) : ℝ) : ℂ))).p sol' fields' ∧ fields.Mirrored false true fields' := by
  obtain ⟨sol, h⟩ := film_ok pol (Real.pi / 2 * (1 - pol)) (C81.film pol 1 (1, 1) (1, 1) 2 3) rfl
  obtain ⟨sol', h'⟩ := film_ok pol (-(Real.pi / 2 * (1 - pol)))
    (Spec.image false true (C81.film pol 1 (1, 1) (1, 1) 2 3) (Spec.homogeneousRaster 2 3 [2 - Complex.I]) ((Real.pi / 6 : ℝ) : ℂ) (some 0) pol
      (-((Real.pi / 2 * (1 - pol) : ℝ) : ℂ))) (by rw [Complex.ofReal_neg]; rfl)
  have I := lossy_illumination pol (some 0) (by intro φ h; cases h; rfl) 1 1
  have G : gratingType (C81.film pol 1 (1, 1) (1, 1) 2 3) ≠ 0 := by simp [gratingType, C81.film, Spec.homogeneousRaster]
  have J : Spec.RealIllumination (C81.film pol 1 (1, 1) (1, 1) 2 3).p :=
    ⟨I.n_top_real, I.n_top_pos, I.theta_real, I.theta_lo, I.theta_hi, I.phi_real, I.psi_real, I.wavelength_pos, I.period_x_pos, I.period_y_pos⟩
  have J' : Spec.RealIllumination (Spec.image false true (C81.film pol 1 (1, 1) (1, 1) 2 3) (Spec.homogeneousRaster 2 3 [2 - Complex.I])
      ((Real.pi / 6 : ℝ) : ℂ) (some 0) pol (-((Real.pi / 2 * (1 - pol) : ℝ) : ℂ))).p :=
    ⟨I.n_top_real, I.n_top_pos, I.theta_real, I.theta_lo, I.theta_hi, I.phi_real, by
      simp only [Spec.IsReal, Complex.neg_im, Complex.ofReal_im, neg_zero], I.wavelength_pos, I.period_x_pos, I.period_y_pos⟩
  have D : Spec.MirrorDirection false true (C81.film pol 1 (1, 1) (1, 1) 2 3).p.theta (C81.film pol 1 (1, 1) (1, 1) 2 3).p.phi ((Real.pi / 6 : ℝ) : ℂ) (some 0) :=
    ⟨by simp [Spec.sign, C81.film, exParams], by simp [Spec.sign, C81.film, exParams], by simp [C81.film, exParams]⟩
  have P : Spec.MirrorPsi false true (C81.film pol 1 (1, 1) (1, 1) 2 3).p.psi (-((Real.pi / 2 * (1 - pol) : ℝ) : ℂ)) :=
    ⟨1, one_pow 2, by simp [Spec.sign, C81.film, exParams], by simp [C81.film, exParams]⟩
  refine ⟨sol, sol', h, h', ?_⟩
  exact C90_mirror exLA exLA (C81.film pol 1 (1, 1) (1, 1) 2 3) false true _ _ _ _ _ rfl (by simp [Spec.homogeneousRaster])
    (by simp [Spec.homogeneousRaster]) rfl J J' D rfl rfl
    (by simp [gratingType, C81.film, Spec.homogeneousRaster]) (by rw [if_neg G]; exact P) sol sol' h h'

end Meent

#print axioms Meent.C90_mirror
