import Verif.Lemmas.Image
import Verif.Lemmas.ReciprocityExample
import Verif.Props.C39
import Verif.Spec.Image

/-!
# C54: mirror symmetry
-/

namespace Meent

private theorem mirrorNorm_tetm {la la' : LinAlg} {s : Settings} {mx my : Bool} {θ' ψ' : ℂ} {φ' : Option ℂ}
    {u : Ucell} (hu : s.ucell = .raster u) (hnx : 0 < u.nx) (hn : s.p.n_top ≠ 0)
    (ht : sinTheta s.p.theta = Complex.sin s.p.theta) (ht' : sinTheta θ' = Complex.sin θ')
    (hd : Spec.MirrorDirection mx my s.p.theta s.p.phi θ' φ') (hp : s.p.use_pinv = false)
    {o o' : Out1D (2 * s.p.fto.1 + 1)} (h : conv_solve la s = .ok (.tetm o))
    (h' : conv_solve la' (Spec.image mx my s u θ' φ' s.p.pol ψ') = .ok (.tetm o')) : MirrorNorm mx my o.res o'.res := by
  obtain ⟨-, -, hg, -, -⟩ := conv_solve_tetm.mp h
  obtain ⟨-, -, -, ha', -⟩ := conv_solve_tetm.mp h'
  obtain ⟨u', hu', hy, -, -, hf⟩ := gratingType_zero hg
  obtain rfl : u = u' := Structure.raster.inj (hu.symm.trans hu')
  obtain ⟨cs, hc, fs, hb⟩ := tetm_bvp hp hn h
  obtain ⟨wx, wy, hwx, -, hci⟩ := convMats_image (la' := la') hp hu (by omega) hnx mx my θ' φ' s.p.pol ψ' hc
  obtain ⟨cs', hc', hq⟩ := C49_unique la' (Spec.image mx my s u θ' φ' s.p.pol ψ') hp ha' hn _ h'
  obtain rfl := Except.ok.inj (hci.symm.trans hc')
  obtain ⟨r', hd', hN⟩ := image_core1 (my := my) (φ' := φ') (ψ' := ψ') hwx ht ht' hd hb
  have e : (cs.map fun c => (Conv.reindex (imgE mx my) c).gauge (shiftD wx wy)).map Conv.row
      = (cs.map Conv.row).map fun c => (Conv.reindex (revE mx _) c).gauge (fun i => wx ^ ((i.val : ℤ) - s.p.fto.1)) := by
    rw [List.map_map, List.map_map]
    exact List.map_congr_left fun c _ => image_row hf wx wy c
  rw [← e] at hd'
  have key := (hq r').mp ⟨_, hd'⟩
  rcases tetm_other hp h with ⟨h0, a1, a2⟩ | ⟨h0, a1, a2⟩ <;>
  rcases tetm_other (s := Spec.image mx my s u θ' φ' s.p.pol ψ') hp h' with ⟨h0', b1, b2⟩ | ⟨h0', b1, b2⟩
  · rw [if_pos h0'] at key
    exact ⟨fun j i => by rw [← key.1]; exact hN.R_s j i, fun j i => by rw [a1, b1], fun j i => by rw [← key.2]; exact hN.T_s j i, fun j i => by rw [a2, b2]⟩
  · exact absurd (h0.symm.trans h0') zero_ne_one
  · exact absurd (h0'.symm.trans h0) zero_ne_one
  · rw [if_neg (by rw [h0']; exact one_ne_zero)] at key
    exact ⟨fun j i => by rw [a1, b1], fun j i => by rw [← key.1]; exact hN.R_p j i, fun j i => by rw [a2, b2], fun j i => by rw [← key.2]; exact hN.T_p j i⟩

private theorem MirrorNorm.row1 {mx my : Bool} {n : ℕ} {r r' : SubRes 1 n} (N : MirrorNorm mx my r r') (fy : ℕ) :
    MirrorNorm mx my (r.row1 fy) (r'.row1 fy) := by
  have h0 : Spec.revIdx my (0 : Fin 1) = 0 := Subsingleton.elim _ _
  exact ⟨fun j i => by have := N.R_s 0 i; rw [h0] at this; exact this, fun j i => by have := N.R_p 0 i; rw [h0] at this; exact this,
    fun j i => by have := N.T_s 0 i; rw [h0] at this; exact this, fun j i => by have := N.T_p 0 i; rw [h0] at this; exact this⟩

private theorem MirrorEff.unrow1 {mx my : Bool} {n fy : ℕ} {r r' : SubRes 1 n}
    (E : Spec.MirrorEff mx my (r.row1 fy) (r'.row1 fy)) : Spec.MirrorEff mx my r r' := by
  have h0 : ∀ j : Fin 1, j = 0 := fun j => Subsingleton.elim _ _
  exact ⟨fun j i => by rw [h0 j, h0 (Spec.revIdx my 0)]; exact E.de_ri_s 0 i,
    fun j i => by rw [h0 j, h0 (Spec.revIdx my 0)]; exact E.de_ri_p 0 i,
    fun j i => by rw [h0 j, h0 (Spec.revIdx my 0)]; exact E.de_ri 0 i,
    fun j i => by rw [h0 j, h0 (Spec.revIdx my 0)]; exact E.de_ti_s 0 i,
    fun j i => by rw [h0 j, h0 (Spec.revIdx my 0)]; exact E.de_ti_p 0 i,
    fun j i => by rw [h0 j, h0 (Spec.revIdx my 0)]; exact E.de_ti 0 i⟩

/-- **C54, TE and TM.** Mirroring every layer's raster and the direction of incidence mirrors the diffraction orders:
all efficiencies are the same, at the mirrored orders.  Any two eigensolvers; both Fourier types. -/
theorem C54_mirror_tetm (la la' : LinAlg) (s : Settings) (mx my : Bool) (θ' ψ' : ℂ) (φ' : Option ℂ)
    (u : Ucell) (hu : s.ucell = .raster u) (hnx : 0 < u.nx) (hi : Spec.RealIllumination s.p)
    (hi' : Spec.RealIllumination (Spec.image mx my s u θ' φ' s.p.pol ψ').p)
    (hd : Spec.MirrorDirection mx my s.p.theta s.p.phi θ' φ') (hp : s.p.use_pinv = false)
    (o o' : Out1D (2 * s.p.fto.1 + 1)) (h : conv_solve la s = .ok (.tetm o))
    (h' : conv_solve la' (Spec.image mx my s u θ' φ' s.p.pol ψ') = .ok (.tetm o')) :
    Spec.MirrorEff mx my o.res o'.res := by
  have hn := RealIllumination.n_top_ne hi
  have ht := sinTheta_real hi
  have ht' : sinTheta θ' = Complex.sin θ' := sinTheta_real hi'
  have N := mirrorNorm_tetm hu hnx hn ht ht' hd hp h h'
  obtain ⟨-, -, hg, -, -⟩ := conv_solve_tetm.mp h
  obtain ⟨-, -, hg', -, -⟩ := conv_solve_tetm.mp h'
  have E := (N.row1 s.p.fto.2).eff (weights_image (u := u) (pol' := s.p.pol) (ψ' := ψ') ht ht' hd ⟨fun _ => hg, fun _ => hg'⟩)
    (conv_solve_eff h (x := o.res.row1 s.p.fto.2) (.inl rfl)) (conv_solve_eff h' (x := o'.res.row1 s.p.fto.2) (.inl rfl))
  exact MirrorEff.unrow1 E

/-- **C54, conical and 2D.** The same for TE and TM incidence (`res_te_inc`, `res_tm_inc`), and for the configured
polarization if the mirrored problem has the mirrored polarization. -/
theorem C54_mirror (la la' : LinAlg) (s : Settings) (mx my : Bool) (θ' ψ' : ℂ) (φ' : Option ℂ) (pol' : ℝ)
    (u : Ucell) (hu : s.ucell = .raster u) (hny : 0 < u.ny) (hnx : 0 < u.nx) (hi : Spec.RealIllumination s.p)
    (hi' : Spec.RealIllumination (Spec.image mx my s u θ' φ' pol' ψ').p)
    (hd : Spec.MirrorDirection mx my s.p.theta s.p.phi θ' φ') (hp : s.p.use_pinv = false) (ha : s.algo = .tmm)
    (hg : gratingType s ≠ 0) (hg' : gratingType (Spec.image mx my s u θ' φ' pol' ψ') ≠ 0)
    (sol sol' : Solved s.p.fto.1 s.p.fto.2) (h : conv_solve la s = .ok sol)
    (h' : conv_solve la' (Spec.image mx my s u θ' φ' pol' ψ') = .ok sol') :
    ∃ y te tm y' te' tm', sol.result = ⟨some y, some te, some tm⟩ ∧ sol'.result = ⟨some y', some te', some tm'⟩ ∧
      Spec.MirrorEff mx my te te' ∧ Spec.MirrorEff mx my tm tm' ∧
      (Spec.MirrorPsi mx my s.p.psi ψ' → Spec.MirrorEff mx my y y') := by
  have hn := RealIllumination.n_top_ne hi
  have ht := sinTheta_real hi
  have ht' : sinTheta θ' = Complex.sin θ' := sinTheta_real hi'
  obtain ⟨cs, y, te, tm, hc, er, ⟨f1, d1⟩, ⟨f2, d2⟩, ⟨f3, d3⟩⟩ := solved_bvp hp ha hn hg h
  obtain ⟨cs', y', te', tm', hc', er', q1, q2, q3⟩ :=
    solved_unique (s := Spec.image mx my s u θ' φ' pol' ψ') hp ha hn hg' h'
  obtain ⟨wx, wy, hwx, hwy, hci⟩ := convMats_image (la' := la') hp hu hny hnx mx my θ' φ' pol' ψ' hc
  obtain rfl := Except.ok.inj (hci.symm.trans hc')
  have W := weights_image (u := u) (pol' := pol') (ψ' := ψ') ht ht' hd
    ⟨fun h => absurd h hg', fun h => absurd h hg⟩
  have hte : Spec.MirrorPsi mx my ((Real.pi / 2 : ℝ) : ℂ) ((Real.pi / 2 : ℝ) : ℂ) := by
    refine ⟨Spec.sign mx * Spec.sign my, by rw [mul_pow, sign_sq, sign_sq, one_mul], ?_, ?_⟩
    · rw [← mul_assoc, mul_mul_mul_comm, ← pow_two, ← pow_two, sign_sq, sign_sq, one_mul, one_mul]
    · rw [← Complex.ofReal_cos, Real.cos_pi_div_two, Complex.ofReal_zero, mul_zero]
  have htm : Spec.MirrorPsi mx my 0 0 := ⟨1, one_pow 2, by simp, by simp⟩
  have E : ∀ {ψ ψ1 : ℂ} {r r1 : SubRes (2 * s.p.fto.2 + 1) (2 * s.p.fto.1 + 1)} {fs}, Spec.Diffraction s.p cs ψ r fs →
      Spec.MirrorPsi mx my ψ ψ1 →
      (∀ r, (∃ fs, Spec.Diffraction (Spec.image mx my s u θ' φ' pol' ψ').p
        (cs.map fun c => (c.reindex (imgE mx my)).gauge (shiftD wx wy)) ψ1 r fs) → Spec.SameAmplitudes r r1) →
      Spec.Reports sol.result r → Spec.Reports sol'.result r1 → Spec.MirrorEff mx my r r1 := by
    intro ψ ψ1 r r1 fs hd1 hψ hq hr hr1
    obtain ⟨r', z, -, hd', hN⟩ := image_core (pol' := pol') (ψ' := ψ') hwx hwy ht ht' hd hψ hd1
    exact (hN.congr (hq r' ⟨_, hd'⟩)).eff W (conv_solve_eff h hr) (conv_solve_eff h' hr1)
  exact ⟨y, te, tm, y', te', tm', er, er',
    E d2 hte q2 (by rw [er]; exact .inr (.inl rfl)) (by rw [er']; exact .inr (.inl rfl)),
    E d3 htm q3 (by rw [er]; exact .inr (.inr rfl)) (by rw [er']; exact .inr (.inr rfl)),
    fun hψ => E d1 hψ q1 (by rw [er]; exact .inl rfl) (by rw [er']; exact .inl rfl)⟩

private theorem MirrorEff.same {mx my : Bool} {ny nx : ℕ} {r r' : SubRes ny nx} (h : Spec.MirrorEff mx my r r')
    (e : Spec.SameEff r r') : Spec.MirrorEff mx my r r :=
  ⟨fun j i => by rw [← h.de_ri_s, e.de_ri_s], fun j i => by rw [← h.de_ri_p, e.de_ri_p], fun j i => by rw [← h.de_ri, e.de_ri],
    fun j i => by rw [← h.de_ti_s, e.de_ti_s], fun j i => by rw [← h.de_ti_p, e.de_ti_p], fun j i => by rw [← h.de_ti, e.de_ti]⟩

/-- The solve of the mirrored structure, where that is the structure itself up to a translation. -/
private theorem self_image {la : LinAlg} {s : Settings} {mx my : Bool} {u : Ucell} (hu : s.ucell = .raster u)
    (hny : 0 < u.ny) (hnx : 0 < u.nx) {sy sx : ℕ} (hm : Spec.mirrorAll mx my u = Spec.rollAll sy sx u)
    (hp : s.p.use_pinv = false) {sol : Solved s.p.fto.1 s.p.fto.2} (h : conv_solve la s = .ok sol) :
    ∃ sol' : Solved s.p.fto.1 s.p.fto.2,
      conv_solve exLA (Spec.image mx my s u s.p.theta s.p.phi s.p.pol s.p.psi) = .ok sol' ∧
      Spec.SameEfficiencies sol.result sol'.result := by
  obtain ⟨sol', h'⟩ := C39_success exLA_basis hp hu hny hnx sy sx h
  have hT := C39_translation hp hu hny hnx sy sx h h'
  have : ∀ v, v = Spec.rollAll sy sx u → conv_solve exLA (Spec.withUcell s (.raster v)) = .ok sol' := by
    rintro _ rfl; exact h'
  exact ⟨sol', this _ hm, hT⟩

private theorem gratingType_image {s : Settings} {mx my : Bool} {u : Ucell} (hu : s.ucell = .raster u) :
    gratingType (Spec.image mx my s u s.p.theta s.p.phi s.p.pol s.p.psi) = gratingType s := by
  unfold gratingType
  rw [hu]

/-- **C54, symmetric structures, TE and TM.** If the mirrored structure is the structure itself up to a translation (of
all layers together), and the direction of incidence is its own mirror image, then the diffraction pattern is
symmetric. -/
theorem C54_symmetric_tetm (la : LinAlg) (s : Settings) (mx my : Bool) (u : Ucell) (hu : s.ucell = .raster u)
    (hnx : 0 < u.nx) (hi : Spec.RealIllumination s.p) (sy sx : ℕ) (hm : Spec.mirrorAll mx my u = Spec.rollAll sy sx u)
    (hd : Spec.MirrorDirection mx my s.p.theta s.p.phi s.p.theta s.p.phi) (hp : s.p.use_pinv = false)
    (o : Out1D (2 * s.p.fto.1 + 1)) (h : conv_solve la s = .ok (.tetm o)) : Spec.MirrorEff mx my o.res o.res := by
  obtain ⟨-, -, hg, -, -⟩ := conv_solve_tetm.mp h
  obtain ⟨u', hu', hy, -⟩ := gratingType_zero hg
  obtain rfl : u = u' := Structure.raster.inj (hu.symm.trans hu')
  obtain ⟨sol', h', hT⟩ := self_image hu (by omega) hnx hm hp h
  have hg' := (gratingType_image (mx := mx) (my := my) hu).trans hg
  obtain ⟨o', rfl⟩ : ∃ o', sol' = .tetm o' := by
    rcases conv_solve_cases h' with ⟨-, h1⟩ | ⟨h1, -⟩ | ⟨h1, -⟩
    · exact h1
    · rw [hg'] at h1; cases h1
    · rw [hg'] at h1; cases h1
  have M := C54_mirror_tetm la _ s mx my s.p.theta s.p.psi s.p.phi u hu hnx hi hi hd hp o o' h h'
  obtain ⟨S, -, -⟩ := hT
  cases S with
  | some S =>
    refine MirrorEff.same M ⟨?_, ?_, ?_, ?_, ?_, ?_⟩ <;> funext j i <;> obtain rfl : j = 0 := Subsingleton.elim _ _
    · exact congrFun (congrFun S.de_ri_s ⟨0, by omega⟩) i
    · exact congrFun (congrFun S.de_ri_p ⟨0, by omega⟩) i
    · exact congrFun (congrFun S.de_ri ⟨0, by omega⟩) i
    · exact congrFun (congrFun S.de_ti_s ⟨0, by omega⟩) i
    · exact congrFun (congrFun S.de_ti_p ⟨0, by omega⟩) i
    · exact congrFun (congrFun S.de_ti ⟨0, by omega⟩) i

/-- **C54, symmetric structures, conical and 2D.** The same for TE and TM incidence, and for the configured
polarization if that is its own mirror image (pure TE or pure TM). -/
theorem C54_symmetric (la : LinAlg) (s : Settings) (mx my : Bool) (u : Ucell) (hu : s.ucell = .raster u)
    (hny : 0 < u.ny) (hnx : 0 < u.nx) (hi : Spec.RealIllumination s.p) (sy sx : ℕ)
    (hm : Spec.mirrorAll mx my u = Spec.rollAll sy sx u)
    (hd : Spec.MirrorDirection mx my s.p.theta s.p.phi s.p.theta s.p.phi) (hp : s.p.use_pinv = false) (ha : s.algo = .tmm)
    (hg : gratingType s ≠ 0) (sol : Solved s.p.fto.1 s.p.fto.2) (h : conv_solve la s = .ok sol) :
    ∃ y te tm, sol.result = ⟨some y, some te, some tm⟩ ∧ Spec.MirrorEff mx my te te ∧ Spec.MirrorEff mx my tm tm ∧
      (Spec.MirrorPsi mx my s.p.psi s.p.psi → Spec.MirrorEff mx my y y) := by
  obtain ⟨sol', h', hT⟩ := self_image hu hny hnx hm hp h
  have hg' := (gratingType_image (mx := mx) (my := my) hu).trans_ne hg
  obtain ⟨y, te, tm, y', te', tm', er, er', E1, E2, E3⟩ :=
    C54_mirror la _ s mx my s.p.theta s.p.psi s.p.phi s.p.pol u hu hny hnx hi hi hd hp ha hg hg' sol sol' h h'
  rw [er, er'] at hT
  obtain ⟨S1, S2, S3⟩ := hT
  cases S1 with
  | some S1 => cases S2 with
    | some S2 => cases S3 with
      | some S3 => exact ⟨y, te, tm, er, MirrorEff.same E1 S2, MirrorEff.same E2 S3, fun hψ => MirrorEff.same (E3 hψ) S1⟩

private theorem exCell_mirror : Spec.mirrorAll true false exCell = Spec.rollAll 0 1 exCell := by
  unfold Spec.mirrorAll Spec.rollAll
  simp only [exCell, List.map_cons, List.map_nil]
  congr 2
  funext i j
  fin_cases j <;> rfl

private theorem exCell_mirror_y : Spec.mirrorAll false true exCell = Spec.rollAll 0 0 exCell := by
  unfold Spec.mirrorAll Spec.rollAll
  simp only [exCell, List.map_cons, List.map_nil]
  congr 2
  funext i j
  fin_cases j <;> rfl

theorem exDirection (φ : Option ℂ) (hφ : φ = none ∨ φ = some 0) :
    Spec.MirrorDirection true false ((Real.pi / 6 : ℝ) : ℂ) φ (-((Real.pi / 6 : ℝ) : ℂ)) φ := by
  rcases hφ with rfl | rfl <;> exact ⟨by simp [Spec.sign], by simp [Spec.sign], by simp⟩

private theorem exImage_ok {pol : ℝ} {φ : Option ℂ} {sol : Solved 0 0}
    (h : conv_solve exLA (Spec.opposite (exSettings pol φ)) = .ok sol) :
    ∃ sol' : Solved 0 0, conv_solve exLA (Spec.image true false (exSettings pol φ) exCell (-((Real.pi / 6 : ℝ) : ℂ)) φ pol
      (exSettings pol φ).p.psi) = .ok sol' := by
  obtain ⟨sol', h', -⟩ := self_image (s := Spec.opposite (exSettings pol φ)) (mx := true) (my := false) rfl
    (by simp [exCell]) (by simp [exCell]) exCell_mirror rfl h
  exact ⟨sol', h'⟩

theorem exImage_tetm {pol : ℝ} (hpol : pol = 0 ∨ pol = 1) {sol : Solved 0 0}
    (h : conv_solve exLA (Spec.opposite (exSettings pol none)) = .ok sol) :
    ∃ o', conv_solve exLA (Spec.image true false (exSettings pol none) exCell (-((Real.pi / 6 : ℝ) : ℂ)) none pol
      (exSettings pol none).p.psi) = .ok (.tetm o') := by
  obtain ⟨sol', h'⟩ := exImage_ok h
  have hg : gratingType (Spec.image true false (exSettings pol none) exCell (-((Real.pi / 6 : ℝ) : ℂ)) none pol
      (exSettings pol none).p.psi) = 0 := by simp [gratingType, exSettings, exCell, exParams, hpol]
  rcases conv_solve_cases h' with ⟨-, o', rfl⟩ | ⟨h1, -⟩ | ⟨h1, -⟩
  · exact ⟨o', h'⟩
  · rw [hg] at h1; cases h1
  · rw [hg] at h1; cases h1

theorem exOpp_real (pol : ℝ) (phi : Option ℂ) (hphi : ∀ φ, phi = some φ → Spec.IsReal φ) :
    Spec.RealIllumination { exParams pol phi with theta := -((Real.pi / 6 : ℝ) : ℂ) } := by
  have h := exParams_real pol phi hphi
  have hπ := Real.pi_pos
  refine ⟨h.n_top_real, h.n_top_pos, ?_, ?_, ?_, h.phi_real, h.psi_real, h.wavelength_pos, h.period_x_pos, h.period_y_pos⟩ <;>
    simp only [Spec.IsReal, Complex.neg_im, Complex.neg_re, Complex.ofReal_im, Complex.ofReal_re, neg_zero] <;> linarith

/-- Non-vacuity: the two-pixel grating at 30°, TE and TM; its mirror image has the pixels exchanged and light from
-30°. -/
example : ∃ o o', conv_solve exLA (exSettings 0 none) = .ok (.tetm o) ∧
    conv_solve exLA (Spec.image true false (exSettings 0 none) exCell (-((Real.pi / 6 : ℝ) : ℂ)) none 0
      (exSettings 0 none).p.psi) = .ok (.tetm o') ∧ Spec.MirrorEff true false o.res o'.res := by
  obtain ⟨o, ho⟩ := exTE_ok
  obtain ⟨o₁, ho₁⟩ := exTE_opp_ok
  obtain ⟨o', h'⟩ := exImage_tetm (.inl rfl) ho₁
  exact ⟨o, o', ho, h', C54_mirror_tetm exLA exLA (exSettings 0 none) true false _ _ _ exCell rfl (by simp [exCell])
    (exParams_real 0 none (by simp)) (exOpp_real 0 none (by simp)) (exDirection none (.inl rfl)) rfl o o' ho h'⟩

example : ∃ o o', conv_solve exLA (exSettings 1 none) = .ok (.tetm o) ∧
    conv_solve exLA (Spec.image true false (exSettings 1 none) exCell (-((Real.pi / 6 : ℝ) : ℂ)) none 1
      (exSettings 1 none).p.psi) = .ok (.tetm o') ∧ Spec.MirrorEff true false o.res o'.res := by
  obtain ⟨o, ho⟩ := exTM_ok
  obtain ⟨o₁, ho₁⟩ := exTM_opp_ok
  obtain ⟨o', h'⟩ := exImage_tetm (.inr rfl) ho₁
  exact ⟨o, o', ho, h', C54_mirror_tetm exLA exLA (exSettings 1 none) true false _ _ _ exCell rfl (by simp [exCell])
    (exParams_real 1 none (by simp)) (exOpp_real 1 none (by simp)) (exDirection none (.inl rfl)) rfl o o' ho h'⟩

/-- Non-vacuity: the same with the conical solver; and, mirrored along y, the grating is its own image. -/
example (pol : ℝ) : ∃ sol sol' : Solved 0 0, conv_solve exLA (exSettings pol (some 0)) = .ok sol ∧
    conv_solve exLA (Spec.image true false (exSettings pol (some 0)) exCell (-((Real.pi / 6 : ℝ) : ℂ)) (some 0) pol
      (exSettings pol (some 0)).p.psi) = .ok sol' ∧
    (∃ te te', sol.result.res_te_inc = some te ∧ sol'.result.res_te_inc = some te' ∧ Spec.MirrorEff true false te te') ∧
    ∃ te, sol.result.res_te_inc = some te ∧ Spec.MirrorEff false true te te := by
  have hφ : ∀ φ : ℂ, some (0 : ℂ) = some φ → Spec.IsReal φ := by intro φ h; cases h; rfl
  obtain ⟨o, ho⟩ := exCon_ok pol
  obtain ⟨o₁, ho₁⟩ := exCon_opp_ok pol
  obtain ⟨sol', h'⟩ := exImage_ok ho₁
  have hg : gratingType (exSettings pol (some 0)) ≠ 0 := by simp [gratingType, exSettings, exCell, exParams]
  obtain ⟨y, te, tm, y', te', tm', e1, e2, E, -⟩ := C54_mirror exLA exLA (exSettings pol (some 0)) true false _ _ _ _ exCell rfl
    (by simp [exCell]) (by simp [exCell]) (exParams_real pol (some 0) hφ) (exOpp_real pol (some 0) hφ)
    (exDirection (some 0) (.inr rfl)) rfl rfl hg hg _ sol' ho h'
  obtain ⟨y1, te1, tm1, e3, E', -⟩ := C54_symmetric exLA (exSettings pol (some 0)) false true exCell rfl (by simp [exCell])
    (by simp [exCell]) (exParams_real pol (some 0) hφ) 0 0 exCell_mirror_y
    ⟨by simp [Spec.sign], by simp [Spec.sign, exSettings, exParams], rfl⟩ rfl rfl hg _ ho
  exact ⟨_, sol', ho, h', ⟨te, te', congrArg Result.res_te_inc e1, congrArg Result.res_te_inc e2, E⟩, te1,
    congrArg Result.res_te_inc e3, E'⟩

end Meent

#print axioms Meent.C54_mirror_tetm
#print axioms Meent.C54_mirror
#print axioms Meent.C54_symmetric_tetm
#print axioms Meent.C54_symmetric
