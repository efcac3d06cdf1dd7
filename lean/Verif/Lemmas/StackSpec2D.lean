import Verif.Lemmas.Stack2D

/-!
# Conical and 2D stacks: from the settings to the solvers (helper lemmas)
-/

open Matrix

namespace Meent

set_option linter.unusedSectionVars false
set_option linter.unusedSimpArgs false
set_option linter.unusedVariables false

theorem modeMatrix_eq (s : Settings) (c : Conv (FlatIdx s.p.fto.1 s.p.fto.2)) :
    Spec.modeMatrix s c = omega2LR (Spec.kxOf s.p) (Spec.kyOf s.p) c := (omega_spec _ _ _).symm

theorem cutoff2D_iff {s : Settings} (h : Spec.RealIllumination s.p) (c : Conv (FlatIdx s.p.fto.1 s.p.fto.2)) :
    IsUnit (omega2LR (kxF s.p s.p.wavelength) (kyF s.p s.p.wavelength) c).det ↔ ¬ Spec.AtCutoff2D s c := by
  rw [kxF_eq_kxOf h, kyF_eq_kyOf h]
  unfold Spec.AtCutoff2D
  rw [modeMatrix_eq, isUnit_iff_ne_zero, exists_mulVec_eq_zero_iff]

theorem cutoffCon_iff {s : Settings} (h : Spec.RealIllumination s.p) (c : Conv (FlatIdx s.p.fto.1 s.p.fto.2)) :
    (IsUnit (diagonal (fun i => kxF s.p s.p.wavelength i ^ 2) - c.epy).det ∧
      IsUnit (diagonal (kxF s.p s.p.wavelength) * c.epzi * diagonal (kxF s.p s.p.wavelength) - 1).det ∧
      IsUnit (diagonal (fun i => kyF s.p s.p.wavelength i ^ 2) + (diagonal (fun i => kxF s.p s.p.wavelength i ^ 2) - c.epy)).det ∧
      IsUnit (diagonal (fun i => kyF s.p s.p.wavelength i ^ 2)
        + (diagonal (kxF s.p s.p.wavelength) * c.epzi * diagonal (kxF s.p s.p.wavelength) - 1) * c.epx).det) ↔ ¬ Spec.AtCutoffConical s c := by
  rw [kxF_eq_kxOf h, kyF_eq_kyOf h, diag_add_sub, diag_sq, diag_sq]
  unfold Spec.AtCutoffConical
  simp only [isUnit_iff_ne_zero, ne_eq]
  simp only [← exists_mulVec_eq_zero_iff]
  constructor
  · rintro ⟨h1, h2, h3, h4⟩ ⟨v, hv, e | e | e | e⟩
    · exact h1 ⟨v, hv, e⟩
    · exact h2 ⟨v, hv, e⟩
    · exact h3 ⟨v, hv, e⟩
    · exact h4 ⟨v, hv, e⟩
  · intro hn
    refine ⟨fun ⟨v, hv, e⟩ => hn ⟨v, hv, Or.inl e⟩, fun ⟨v, hv, e⟩ => hn ⟨v, hv, Or.inr (Or.inl e)⟩,
      fun ⟨v, hv, e⟩ => hn ⟨v, hv, Or.inr (Or.inr (Or.inl e))⟩, fun ⟨v, hv, e⟩ => hn ⟨v, hv, Or.inr (Or.inr (Or.inr e))⟩⟩

theorem power_form {m : Type} [Fintype m] [DecidableEq m] (kx ky : m → ℂ) (c : Conv m) (w : m ⊕ m → ℂ) :
    beta (jXY * omegaR kx ky c) w w
      = -(star w ⬝ᵥ (fromBlocks (c.epx - diagonal ky * diagonal ky) (diagonal ky * diagonal kx) (diagonal kx * diagonal ky)
          (c.epy - diagonal kx * diagonal kx) *ᵥ w)) := by
  have e : jXY * omegaR kx ky c = -fromBlocks (c.epx - diagonal ky * diagonal ky) (diagonal ky * diagonal kx) (diagonal kx * diagonal ky)
      (c.epy - diagonal kx * diagonal kx) := by
    unfold jXY omegaR
    simp only [diag_sq]
    rw [fromBlocks_multiply, fromBlocks_neg]
    simp only [Matrix.zero_mul, zero_add, add_zero, Matrix.neg_mul, Matrix.one_mul, neg_sub]
  rw [e, beta_neg_mat]
  rfl

theorem forward_iff {s : Settings} (h : Spec.RealIllumination s.p) (c : Conv (FlatIdx s.p.fto.1 s.p.fto.2)) :
    Forward (kxF s.p s.p.wavelength) (kyF s.p s.p.wavelength) c ↔ ¬ Spec.BackwardMode s c := by
  rw [kxF_eq_kxOf h, kyF_eq_kyOf h]
  unfold Forward Spec.BackwardMode
  simp only [modeMatrix_eq, power_form, Complex.neg_re]
  constructor
  · rintro hf ⟨E, b, hb, he, hlt⟩
    have := hf b hb E he
    linarith
  · intro hn b hb w hw
    by_contra hlt
    push Not at hlt
    exact hn ⟨w, b, hb, hw, by linarith⟩

/-- Undamped waves do not exist in layers that absorb somewhere. -/
theorem side_forward {m : Type} [Fintype m] [DecidableEq m] {kx ky : m → ℂ} {c : Conv m} (hkx : ∀ i, star (kx i) = kx i)
    (hky : ∀ i, star (ky i) = ky i) (hc : SideConv Complex.I c) : Forward kx ky c := by
  intro b hb w hw
  by_cases hw0 : w = 0
  · rw [hw0]; simp [beta]
  exfalso
  set v : m ⊕ m → ℂ := (Complex.I * b)⁻¹ • (omegaR kx ky c *ᵥ w) with hv
  have hIb : Complex.I * (b : ℂ) ≠ 0 := mul_ne_zero Complex.I_ne_zero (by exact_mod_cast hb.ne')
  have hR : omegaR kx ky c *ᵥ w = (Complex.I * b) • v := by rw [hv, smul_smul, mul_inv_cancel₀ hIb, one_smul]
  have hL : omegaL kx ky c *ᵥ v = (Complex.I * b) • w := by
    rw [hv, mulVec_smul, mulVec_mulVec, omegaL_mul_omegaR, hw, smul_smul]
    congr 1
    field_simp
    rw [Complex.I_sq]
    ring
  have h1 := strict_omegaR hkx hky hc w hw0
  have e1 : beta (jXY * omegaR kx ky c) w w = (Complex.I * b) * beta jXY w v := by
    rw [← beta_mulVec_right, hR]
    unfold beta
    rw [mulVec_smul, dotProduct_smul, smul_eq_mul]
  have e2 : beta (jXYᴴ * omegaL kx ky c) v v = (Complex.I * b) * star (beta jXY w v) := by
    rw [← beta_mulVec_right, hL, star_beta]
    unfold beta
    rw [mulVec_smul, dotProduct_smul, smul_eq_mul]
  have h2 : (beta (jXYᴴ * omegaL kx ky c) v v).im ≤ 0 := by
    rw [beta_jXY_omegaL c hkx hky]
    rw [Complex.sub_im, IsHermitian.beta_im isHermitian_one]
    have := hc.lossy.z (diagonal ky *ᵥ (v ∘ Sum.inl) - diagonal kx *ᵥ (v ∘ Sum.inr))
    linarith
  rw [e1] at h1
  rw [e2] at h2
  simp only [Complex.mul_im, Complex.mul_re, Complex.I_re, Complex.I_im, Complex.ofReal_re, Complex.ofReal_im, Complex.star_def,
    Complex.conj_re, Complex.conj_im] at h1 h2
  nlinarith

theorem stack_last2 {la : LinAlg} {s : Settings} {u : Ucell} (hp : s.p.use_pinv = false)
    (h : Spec.OrdinaryStack s u) (hny : 0 < u.ny)
    {cs : List (Conv (FlatIdx s.p.fto.1 s.p.fto.2))} (hcs : convMats la s = .ok cs) (hlow : Spec.LowestAbsorbs s u) :
    ∃ x, (cs.zip s.p.thickness).getLast? = some x ∧ SideConv Complex.I x.1 := by
  obtain ⟨l, hl, hab⟩ := hlow
  have hlen := stack_length h hcs
  have hle := h.layers_enough
  set k := s.p.thickness.length with hk
  rw [List.getLast?_eq_getElem?, List.length_take, min_eq_left hle] at hl
  have hkpos : 0 < k := by
    rcases Nat.eq_zero_or_pos k with h0 | h0
    · rw [h0] at hl; simp at hl
    · exact h0
  rw [List.getElem?_take_of_lt (by omega)] at hl
  have h1 : k - 1 < cs.length := by omega
  have h2 : k - 1 < s.p.thickness.length := by omega
  obtain ⟨l', hl', hside, -⟩ := convMats_class hp h hny hcs (List.getElem?_eq_getElem h1)
  obtain rfl : l' = l := by rw [hl] at hl'; cases hl'; rfl
  refine ⟨(cs[k - 1], s.p.thickness[k - 1]), ?_, hside hab⟩
  rw [List.getLast?_eq_getElem?, List.length_zip, min_eq_right (by omega), ← hk]
  rw [List.getElem?_zip_eq_some]
  exact ⟨by simp [h1], by simp [h2]⟩

theorem stack_kind {la : LinAlg} {s : Settings} {u : Ucell} (hp : s.p.use_pinv = false)
    (h : Spec.OrdinaryStack s u) (hny : 0 < u.ny)
    {cs : List (Conv (FlatIdx s.p.fto.1 s.p.fto.2))} (hcs : convMats la s = .ok cs) {c} (hc : c ∈ cs) :
    SideConv Complex.I c ∨ ClearConv c := by
  obtain ⟨k, hk⟩ := List.mem_iff_getElem?.mp hc
  obtain ⟨l, hl, h1, h2⟩ := convMats_class hp h hny hcs hk
  rcases transparent_or_absorbs (h.media l (List.mem_of_getElem? hl)) with ht | ha
  · exact Or.inr (h2 ht)
  · exact Or.inl (h1 ha)

theorem escape_2d {s : Settings} (h : Spec.RealIllumination s.p) (hnb : s.p.n_bot.im = 0) (he : Spec.AllEscape2D s) :
    s.p.n_bot.re ≠ 0 ∧ ∀ i, 0 < (kz2d s.p.n_bot (kxF s.p s.p.wavelength) (kyF s.p s.p.wavelength) i).re := by
  constructor
  · intro h0
    have h1 := he ⟨0, by omega⟩ ⟨0, by omega⟩
    rw [h0] at h1
    unfold Spec.inPlaneSq at h1
    nlinarith [sq_nonneg (Spec.orderKx s.p (Spec.colOrder (⟨0, by omega⟩ : Fin (2 * s.p.fto.1 + 1)))),
      sq_nonneg (Spec.orderKy s.p (Spec.rowOrder (⟨0, by omega⟩ : Fin (2 * s.p.fto.2 + 1))))]
  · intro i
    obtain ⟨⟨j, i⟩, rfl⟩ := finProdFinEquiv.surjective i
    rw [kz2d_order_re h hnb]
    exact Real.sqrt_pos.mpr (sub_pos.mpr (he i j))

theorem stack_2d {la : LinAlg} (hb : Spec.ReturnsBasis la) {s : Settings} {u : Ucell} (hp : s.p.use_pinv = false) (ha : s.algo = .tmm)
    (h : Spec.OrdinaryStack s u) (hny : 0 < u.ny) (hg : gratingType s = 2) (hnb : s.p.n_bot.im = 0)
    (hnn : ¬ Spec.SomeAlongNormal s.p)
    (hlow : Spec.LowestAbsorbs s u ∨ Spec.AllEscape2D s)
    {cs : List (Conv (FlatIdx s.p.fto.1 s.p.fto.2))} (hcs : convMats la s = .ok cs)
    (hm : ∀ c ∈ cs.take s.p.thickness.length, Spec.LayerHasModes s c ∧ ¬ Spec.AtCutoff2D s c ∧ ¬ Spec.BackwardMode s c) :
    ∃ o, conv_solve la s = .ok (.twoD o) := by
  obtain ⟨ph, hph⟩ := phi_real h.toRealIllumination
  have hi := RealIncidence.of_spec h.toRealIllumination
  have hx := kxF_eq_kxOf h.toRealIllumination
  have hy := kyF_eq_kyOf h.toRealIllumination
  have hlen : s.p.thickness.length ≤ cs.length := by rw [stack_length h hcs]; exact h.layers_enough
  have hv : ∃ v, varphiAll (kxF s.p s.p.wavelength) (kyF s.p s.p.wavelength) = .ok v := by
    refine varphiAll_exists ?_
    rw [normal_iff h.theta_hi]
    exact hnn
  obtain ⟨o, ho⟩ := solve_2d_stack (la := la) (nb := s.p.n_bot.re) hp hph hi (Complex.ext rfl hnb) h.wavelength_pos h.thickness_pos hlen hv
    (fun x hx' => by
      obtain ⟨⟨-, -, -, m3⟩, hcut, hbw⟩ := hm x.1 (mem_zip_take hx')
      refine ⟨?_, ?_⟩
      · rcases stack_kind hp h hny hcs (List.of_mem_zip (a := x.1) (b := x.2) hx').1 with hk | hk
        · exact Or.inl hk
        · exact Or.inr ⟨hk, (cutoff2D_iff h.toRealIllumination _).mpr hcut, (forward_iff h.toRealIllumination _).mpr hbw⟩
      · rw [eig_unit_iff hb, omega_spec, hx, hy]
        exact m3 hg)
    (by
      rcases hlow with hl | he
      · exact Or.inr (stack_last2 hp h hny hcs hl)
      · exact Or.inl (escape_2d h.toRealIllumination hnb he))
  exact ⟨_, conv_solve_twoD.mpr ⟨cs, hcs, hg, ha, ho⟩⟩

theorem stack_con {la : LinAlg} (hb : Spec.ReturnsBasis la) {s : Settings} {u : Ucell} (hp : s.p.use_pinv = false) (ha : s.algo = .tmm)
    (h : Spec.OrdinaryStack s u) (hg : gratingType s = 1) (hf : s.p.fto.2 = 0) (hnb : s.p.n_bot.im = 0)
    (hnn : ¬ Spec.SomeAlongNormal s.p)
    (hlow : Spec.LowestAbsorbs s u ∨ Spec.AllEscape2D s)
    {cs : List (Conv (FlatIdx s.p.fto.1 s.p.fto.2))} (hcs : convMats la s = .ok cs)
    (hm : ∀ c ∈ cs.take s.p.thickness.length, Spec.LayerHasModes s c ∧ ¬ Spec.AtCutoffConical s c) :
    ∃ o, conv_solve la s = .ok (.conical o) := by
  obtain ⟨u', hu, hny, -⟩ := gratingType_one hg
  obtain rfl : u' = u := by have := h.raster; rw [hu] at this; cases this; rfl
  obtain ⟨ph, hph⟩ := phi_real h.toRealIllumination
  have hi := RealIncidence.of_spec h.toRealIllumination
  have hx := kxF_eq_kxOf h.toRealIllumination
  have hy := kyF_eq_kyOf h.toRealIllumination
  have hlen : s.p.thickness.length ≤ cs.length := by rw [stack_length h hcs]; exact h.layers_enough
  have hv : ∃ v, varphiAll (kxF s.p s.p.wavelength) (kyF s.p s.p.wavelength) = .ok v := by
    refine varphiAll_exists ?_
    rw [normal_iff h.theta_hi]
    exact hnn
  have hz := convMats_epzi_epy hp hu (fun l hl i i' j => by
    have : i = i' := by apply Fin.ext; have := i.isLt; have := i'.isLt; omega
    rw [this]) hcs hf
  obtain ⟨o, ho⟩ := solve_con_stack (la := la) (nb := s.p.n_bot.re) hp hph hi (Complex.ext rfl hnb) h.wavelength_pos h.thickness_pos hlen hv hf
    (fun x hx' => by
      obtain ⟨⟨-, -, m2, -⟩, hcut⟩ := hm x.1 (mem_zip_take hx')
      have hmem := (List.of_mem_zip (a := x.1) (b := x.2) hx').1
      refine ⟨?_, hz _ hmem, ?_, ?_⟩
      · rcases stack_kind hp h (by omega) hcs hmem with hk | hk
        · exact Or.inl hk
        · exact Or.inr ⟨hk, (cutoffCon_iff h.toRealIllumination _).mpr hcut⟩
      · rw [eig_unit_iff hb, diag_add_sub, hx, hy]
        exact (m2 hg).1
      · rw [eig_unit_iff hb, diag_sq, hx, hy]
        exact (m2 hg).2)
    (by
      rcases hlow with hl | he
      · exact Or.inr (stack_last2 hp h (by omega) hcs hl)
      · exact Or.inl (escape_2d h.toRealIllumination hnb he))
  exact ⟨_, conv_solve_conical.mpr ⟨cs, hcs, hg, ha, ho⟩⟩

/-! ### What a successful step says -/

theorem unit_of_eig {n : Type} [Fintype n] [DecidableEq n] {la : LinAlg} {A : Matrix n n ℂ} (h1 : IsUnit (la.eig A).2.det)
    (h2 : IsUnit (diagonal fun i => csqrt ((la.eig A).1 i)).det) : IsUnit A.det := by
  have e := congrArg det (la.eig_law A)
  rw [det_mul, det_mul] at e
  have h3 : IsUnit (diagonal (la.eig A).1).det := by
    refine isUnit_diag fun i => ?_
    have := isUnit_diag_ne h2 i
    intro h0
    apply this
    have h4 := csqrt_sq ((la.eig A).1 i)
    rw [h0] at h4
    rw [h0]
    exact pow_eq_zero_iff (two_ne_zero) |>.mp h4
  exact isUnit_of_mul_isUnit_left (by rw [e]; exact h1.mul h3)

theorem cutoff_step2d {la : LinAlg} {m : Type} [Fintype m] [DecidableEq m] {k0 : ℝ} {kx ky varphi : m → ℂ}
    {c : Conv m} {d : ℝ} {s : TState (m ⊕ m)} {r} (h : step2d la false k0 kx ky varphi c d s = .ok r) :
    IsUnit (omega2LR kx ky c).det := by
  have hW := eig_step2d h
  unfold step2d at h
  simp only [Except.bind_ok] at h
  obtain ⟨M, hM, -⟩ := h
  simp only [transfer_2d_2, Except.bind_ok, meeinv_false_ok, Except.ok.injEq] at hM
  obtain ⟨Qi, ⟨hq, -⟩, -⟩ := hM
  exact unit_of_eig hW hq

theorem unit_antitri_corner {m : Type} [Fintype m] [DecidableEq m] {B C D : Matrix m m ℂ} (h : IsUnit (fromBlocks 0 B C D).det) :
    IsUnit C.det := by
  rw [isUnit_iff_ne_zero] at h ⊢
  intro h0
  obtain ⟨v, hv, e⟩ := Matrix.exists_mulVec_eq_zero_iff.mpr h0
  refine h (Matrix.exists_mulVec_eq_zero_iff.mp ⟨Sum.elim v 0, fun h1 => hv (funext fun i => congrFun h1 (.inl i)), ?_⟩)
  rw [fromBlocks_mulVec]
  have e1 : (Sum.elim v 0 : m ⊕ m → ℂ) ∘ Sum.inl = v := rfl
  have e2 : (Sum.elim v 0 : m ⊕ m → ℂ) ∘ Sum.inr = 0 := rfl
  rw [e1, e2, e, mulVec_zero, mulVec_zero, zero_mulVec]
  funext i
  rcases i with i | i <;> simp

theorem cutoff_stepCon {la : LinAlg} {m : Type} [Fintype m] [DecidableEq m] {k0 : ℝ} {kx ky varphi : m → ℂ}
    {c : Conv m} {d : ℝ} {s : TState (m ⊕ m)} {r} (h : stepCon la false k0 kx ky varphi c d s = .ok r) :
    IsUnit (diagonal (fun i => kx i ^ 2) - c.epy).det ∧ IsUnit (diagonal kx * c.epzi * diagonal kx - 1).det ∧
    IsUnit (diagonal (fun i => ky i ^ 2) + (diagonal (fun i => kx i ^ 2) - c.epy)).det ∧
    IsUnit (diagonal (fun i => ky i ^ 2) + (diagonal kx * c.epzi * diagonal kx - 1) * c.epx).det := by
  obtain ⟨hb1, hb2⟩ := eig_stepCon h
  unfold stepCon at h
  simp only [transfer_1d_conical_3_eq, Except.bind_ok, Except.ok.injEq] at h
  obtain ⟨M, hM, t, ht, rfl⟩ := h
  have hV := (tmmStep_ok.mp ht).hV
  have hW := (tmmStep_ok.mp ht).hW
  simp only [transfer_1d_conical_2, Except.bind_ok, meeinv_false_ok, Except.ok.injEq] at hM
  obtain ⟨A_i, ⟨hAi, rfl⟩, B_i, ⟨hBi, rfl⟩, rfl⟩ := hM
  rw [conV_eq] at hV
  rw [conW_eq] at hW
  have hV := isUnit_det_of_mul_right hV
  have hW := isUnit_det_of_mul_right hW
  simp only [conV0, det_fromBlocks_zero₁₂] at hV
  unfold conW0 at hW
  have hW := unit_antitri_corner hW
  simp only at hW
  exact ⟨hAi, hBi, unit_of_eig hb1 (isUnit_det_of_mul_right hW), unit_of_eig hb2 (isUnit_det_of_mul_right (isUnit_of_mul_isUnit_right hV))⟩

theorem solves_cutoff2D {la : LinAlg} {s : Settings} (hp : s.p.use_pinv = false) (h : Spec.RealIllumination s.p)
    (hg : gratingType s = 2) {cs : List (Conv (FlatIdx s.p.fto.1 s.p.fto.2))} (hcs : convMats la s = .ok cs)
    {sol : Solved s.p.fto.1 s.p.fto.2} (hs : conv_solve la s = .ok sol) :
    ∀ c ∈ cs.take s.p.thickness.length, ¬ Spec.AtCutoff2D s c := by
  intro c hc
  rcases conv_solve_cases hs with ⟨h1, -⟩ | ⟨h1, -⟩ | ⟨-, o, rfl⟩
  · omega
  · omega
  · obtain ⟨cs', h1, hg, -, h4⟩ := conv_solve_twoD.mp hs
    rw [hcs] at h1; cases h1
    obtain ⟨hl, init, r, x, hi, hr, hx4, rfl⟩ := (solve_2d_iff hp).mp h4
    obtain ⟨d, hz⟩ := mem_take_zip hl hc
    obtain ⟨a, b, hab⟩ := runLayers_steps hr _ hz
    exact (cutoff2D_iff h c).mp (cutoff_step2d hab)

theorem solves_cutoffCon {la : LinAlg} {s : Settings} (hp : s.p.use_pinv = false) (ha : s.algo = .tmm) (h : Spec.RealIllumination s.p)
    (hg : gratingType s = 1) {cs : List (Conv (FlatIdx s.p.fto.1 s.p.fto.2))} (hcs : convMats la s = .ok cs)
    {sol : Solved s.p.fto.1 s.p.fto.2} (hs : conv_solve la s = .ok sol) :
    ∀ c ∈ cs.take s.p.thickness.length, ¬ Spec.AtCutoffConical s c := by
  intro c hc
  cases sol with
  | conical o =>
    obtain ⟨cs', h1, hg, -, h4⟩ := conv_solve_conical.mp hs
    rw [hcs] at h1; cases h1
    obtain ⟨hl, hf, init, r, x, hi, hr, hx4, rfl⟩ := (solve_con_iff hp).mp h4
    obtain ⟨d, hz⟩ := mem_take_zip hl hc
    obtain ⟨a, b, hab⟩ := runLayers_steps hr _ hz
    exact (cutoffCon_iff h c).mp (cutoff_stepCon hab)
  | tetm o =>
    obtain ⟨cs', h1, hg', -⟩ := conv_solve_tetm.mp hs
    omega
  | twoD o =>
    obtain ⟨cs', h1, hg', -⟩ := conv_solve_twoD.mp hs
    omega
  | conicalSmm =>
    exfalso
    obtain ⟨cs', h1, h2⟩ := conv_solve_ok.mp hs
    unfold solve_for_conv at h2
    rw [ha] at h2
    simp [hg, Except.bind_ok] at h2

/-- Transparent conical layers always have a basis of modes. -/
theorem clear_modes_con {s : Settings} (h : Spec.RealIllumination s.p) (hg : gratingType s = 1) (hf : s.p.fto.2 = 0)
    {c : Conv (FlatIdx s.p.fto.1 s.p.fto.2)} (hc : ClearConv c) : Spec.LayerHasModes s c := by
  obtain ⟨ph, hph⟩ := phi_real h
  have hst := (RealIncidence.of_spec h).kxF_star hph s.p.wavelength
  have hst2 := (RealIncidence.of_spec h).kyF_star hph s.p.wavelength
  obtain ⟨k, hk⟩ := kyF_const hf s.p.wavelength
  rw [kxF_eq_kxOf h] at hst
  rw [kyF_eq_kyOf h] at hst2 hk
  have hD : (diagonal (Spec.kxOf s.p)).IsHermitian := isHermitian_diagonal_real hst
  have hE : (diagonal (Spec.kyOf s.p)).IsHermitian := isHermitian_diagonal_real hst2
  have sq : ∀ {M : Matrix (FlatIdx s.p.fto.1 s.p.fto.2) (FlatIdx s.p.fto.1 s.p.fto.2) ℂ}, M.IsHermitian → (M * M).IsHermitian := by
    intro M hM
    unfold Matrix.IsHermitian
    rw [conjTranspose_mul, hM.eq]
  refine ⟨fun h0 => by omega, fun h0 => by omega, fun _ => ⟨?_, ?_⟩, fun h1 => by omega⟩
  · have := diagonalisable_posDef_mul isHermitian_one (fun v hv => by rw [one_mul]; exact one_side v hv)
      (((sq hE).add (sq hD)).sub hc.y)
    rwa [Matrix.one_mul] at this
  · have hB : (diagonal (Spec.kxOf s.p) * c.epzi * diagonal (Spec.kxOf s.p) - 1).IsHermitian := by
      refine Matrix.IsHermitian.sub ?_ isHermitian_one
      unfold Matrix.IsHermitian
      rw [conjTranspose_mul, conjTranspose_mul, hD.eq, hc.z.eq, Matrix.mul_assoc]
    -- similar to `Kx εz⁻¹ Kx - 1` times a positive matrix
    have hu := hc.px.isUnit
    obtain ⟨W, l, hW, he⟩ := diagonalisable_posDef_mul hc.x hc.px hB
    refine ⟨c.epx⁻¹ * W, fun i => k ^ 2 + l i, by rw [det_mul]; exact (isUnit_nonsing_inv_det _ hu).mul hW, ?_⟩
    have hk2 : diagonal (Spec.kyOf s.p) * diagonal (Spec.kyOf s.p) = (k ^ 2) • (1 : Matrix _ _ ℂ) := by
      rw [hk, diagonal_mul_diagonal, smul_one_eq_diagonal]
      congr 1
      funext i
      ring
    have hl : (diagonal fun i => k ^ 2 + l i) = (k ^ 2) • (1 : Matrix _ _ ℂ) + diagonal l := by
      rw [smul_one_eq_diagonal, diagonal_add]
    set B := diagonal (Spec.kxOf s.p) * c.epzi * diagonal (Spec.kxOf s.p) - 1 with hBdef
    have key : B * c.epx * (c.epx⁻¹ * W) = c.epx⁻¹ * W * diagonal l := by
      calc B * c.epx * (c.epx⁻¹ * W) = B * W := by
            rw [Matrix.mul_assoc, mul_nonsing_inv_cancel_left _ _ hu]
        _ = c.epx⁻¹ * (c.epx * B * W) := by rw [Matrix.mul_assoc, nonsing_inv_mul_cancel_left _ _ hu]
        _ = _ := by rw [he, Matrix.mul_assoc]
    rw [hk2, hl, Matrix.add_mul, key, Matrix.mul_add, Matrix.smul_mul, Matrix.one_mul, Matrix.mul_smul, Matrix.mul_one]

/-- Layers that absorb somewhere have no mode at cut-off. -/
theorem side_cutoffCon {s : Settings} (h : Spec.RealIllumination s.p) (hf : s.p.fto.2 = 0)
    {c : Conv (FlatIdx s.p.fto.1 s.p.fto.2)} (hc : SideConv Complex.I c) : ¬ Spec.AtCutoffConical s c := by
  obtain ⟨ph, hph⟩ := phi_real h
  have hst := (RealIncidence.of_spec h).kxF_star hph s.p.wavelength
  have hst2 := (RealIncidence.of_spec h).kyF_star hph s.p.wavelength
  obtain ⟨k, hk⟩ := kyF_const hf s.p.wavelength
  have hks : star k = k := by
    have := hst2 (finProdFinEquiv (⟨0, by omega⟩, ⟨0, by omega⟩))
    rwa [hk] at this
  rw [← cutoffCon_iff h, hk]
  exact ⟨unit_A hst hc, unit_B hst hc, unit_con1 hst hks hc, unit_con2 hst hks hc⟩

theorem side_cutoff2D {s : Settings} (h : Spec.RealIllumination s.p)
    {c : Conv (FlatIdx s.p.fto.1 s.p.fto.2)} (hc : SideConv Complex.I c) : ¬ Spec.AtCutoff2D s c := by
  obtain ⟨ph, hph⟩ := phi_real h
  have hst := (RealIncidence.of_spec h).kxF_star hph s.p.wavelength
  have hst2 := (RealIncidence.of_spec h).kyF_star hph s.p.wavelength
  rw [← cutoff2D_iff h, ← omegaL_mul_omegaR, det_mul]
  exact (unit_omegaL hst hst2 hc).mul (unit_omegaR hst hst2 hc)

theorem side_backward {s : Settings} (h : Spec.RealIllumination s.p)
    {c : Conv (FlatIdx s.p.fto.1 s.p.fto.2)} (hc : SideConv Complex.I c) : ¬ Spec.BackwardMode s c := by
  obtain ⟨ph, hph⟩ := phi_real h
  exact (forward_iff h c).mp (side_forward ((RealIncidence.of_spec h).kxF_star hph s.p.wavelength)
    ((RealIncidence.of_spec h).kyF_star hph s.p.wavelength) hc)

/-! ### Uniform films -/

theorem diag_kernel' {n : Type} [Fintype n] [DecidableEq n] {d v : n → ℂ} (hv : v ≠ 0) (h : diagonal d *ᵥ v = 0) : ∃ i, d i = 0 := by
  by_contra hn
  push Not at hn
  refine hv (funext fun i => ?_)
  have := congrFun h i
  rw [mulVec_diagonal] at this
  exact (mul_eq_zero.mp this).resolve_left (hn i)

theorem film_modeMatrix (s : Settings) {n : ℂ} (hn : n ≠ 0) : Spec.modeMatrix s (Spec.scalarConv s.p.fto.1 s.p.fto.2 n)
    = diagonal (Sum.elim (fun i => Spec.kxOf s.p i ^ 2 + Spec.kyOf s.p i ^ 2 - n ^ 2) fun i => Spec.kxOf s.p i ^ 2 + Spec.kyOf s.p i ^ 2 - n ^ 2) := by
  have hn2 : n ^ 2 ≠ 0 := pow_ne_zero _ hn
  unfold Spec.modeMatrix Spec.scalarConv
  simp only [smul_one_eq_diagonal]
  simp only [← diagonal_one, diagonal_mul_diagonal, diagonal_sub, diagonal_add]
  have z : ∀ a b : FlatIdx s.p.fto.1 s.p.fto.2 → ℂ, (diagonal fun i => a i * ((n ^ 2)⁻¹ * b i * n ^ 2 - b i)) = 0 := by
    intro a b
    rw [← diagonal_zero]
    congr 1
    funext i
    field_simp
    simp
  rw [z, z, fromBlocks_diagonal]
  congr 1
  funext i
  rcases i with i | i
  · simp only [Sum.elim_inl]; field_simp; ring
  · simp only [Sum.elim_inr]; field_simp; ring

theorem film_cutoff2D {s : Settings} {n : ℂ} (hn : n ≠ 0) (hc : Spec.AtCutoff2D s (Spec.scalarConv s.p.fto.1 s.p.fto.2 n)) :
    ∃ i, Spec.kxOf s.p i ^ 2 + Spec.kyOf s.p i ^ 2 = n ^ 2 := by
  obtain ⟨v, hv, h⟩ := hc
  rw [film_modeMatrix s hn] at h
  obtain ⟨i, hi⟩ := diag_kernel' hv h
  rcases i with i | i <;> exact ⟨i, by simp only [Sum.elim_inl, Sum.elim_inr] at hi; linear_combination hi⟩

theorem film_cutoffCon {s : Settings} {n : ℂ} (hn : n ≠ 0) :
    Spec.AtCutoffConical s (Spec.scalarConv s.p.fto.1 s.p.fto.2 n) ↔
      ∃ i, Spec.kxOf s.p i ^ 2 = n ^ 2 ∨ Spec.kxOf s.p i ^ 2 + Spec.kyOf s.p i ^ 2 = n ^ 2 := by
  have hn2 : n ^ 2 ≠ 0 := pow_ne_zero _ hn
  unfold Spec.AtCutoffConical Spec.scalarConv
  simp only [smul_one_eq_diagonal]
  simp only [← diagonal_one, diagonal_mul_diagonal, diagonal_sub, diagonal_add]
  constructor
  · rintro ⟨v, hv, h | h | h | h⟩ <;> obtain ⟨i, hi⟩ := diag_kernel' hv h <;> refine ⟨i, ?_⟩
    · left; linear_combination hi
    · left; field_simp at hi; linear_combination hi
    · right; linear_combination hi
    · right; field_simp at hi; linear_combination hi
  · rintro ⟨i, h | h⟩
    · refine ⟨Pi.single i 1, by simp, Or.inl ?_⟩
      rw [diagonal_mulVec_single, mul_one]
      rw [show Spec.kxOf s.p i * Spec.kxOf s.p i - n ^ 2 = 0 by linear_combination h, Pi.single_zero]
    · refine ⟨Pi.single i 1, by simp, Or.inr (Or.inr (Or.inl ?_))⟩
      rw [diagonal_mulVec_single, mul_one]
      rw [show Spec.kyOf s.p i * Spec.kyOf s.p i + Spec.kxOf s.p i * Spec.kxOf s.p i - n ^ 2 = 0 by linear_combination h, Pi.single_zero]

private theorem film_power {x y : ℝ} {n2 b : ℝ} (E F : ℂ) (hE : E ≠ 0 → x ^ 2 + y ^ 2 - n2 = -b ^ 2) (hF : F ≠ 0 → x ^ 2 + y ^ 2 - n2 = -b ^ 2) :
    0 ≤ (star E * (((n2 : ℂ) - y * y) * E + (y * x) * F)).re + (star F * ((x * y) * E + ((n2 : ℂ) - x * x) * F)).re := by
  have e : (star E * (((n2 : ℂ) - y * y) * E + (y * x) * F)).re + (star F * ((x * y) * E + ((n2 : ℂ) - x * x) * F)).re
      = (n2 - y * y) * (E.re ^ 2 + E.im ^ 2) + 2 * x * y * (E.re * F.re + E.im * F.im) + (n2 - x * x) * (F.re ^ 2 + F.im ^ 2) := by
    simp only [Complex.star_def, Complex.mul_re, Complex.mul_im, Complex.add_re, Complex.add_im, Complex.sub_re, Complex.sub_im,
      Complex.conj_re, Complex.conj_im, Complex.ofReal_re, Complex.ofReal_im]
    ring
  rw [e]
  by_cases h0 : E = 0 ∧ F = 0
  · rw [h0.1, h0.2]; simp
  · have hn : n2 = b ^ 2 + x ^ 2 + y ^ 2 := by
      by_cases h1 : E = 0
      · have := hF fun h2 => h0 ⟨h1, h2⟩
        linarith
      · have := hE h1
        linarith
    rw [hn]
    have : (b ^ 2 + x ^ 2 + y ^ 2 - y * y) * (E.re ^ 2 + E.im ^ 2) + 2 * x * y * (E.re * F.re + E.im * F.im)
        + (b ^ 2 + x ^ 2 + y ^ 2 - x * x) * (F.re ^ 2 + F.im ^ 2)
      = b ^ 2 * (E.re ^ 2 + E.im ^ 2 + F.re ^ 2 + F.im ^ 2) + (x * E.re + y * F.re) ^ 2 + (x * E.im + y * F.im) ^ 2 := by ring
    rw [this]
    positivity

/-- Transparent films have no backward wave. -/
theorem film_forward {s : Settings} (h : Spec.RealIllumination s.p) {n : ℂ} (hn : n ≠ 0) (him : n.im = 0) :
    ¬ Spec.BackwardMode s (Spec.scalarConv s.p.fto.1 s.p.fto.2 n) := by
  obtain ⟨ph, hph⟩ := phi_real h
  have hst := (RealIncidence.of_spec h).kxF_star hph s.p.wavelength
  have hst2 := (RealIncidence.of_spec h).kyF_star hph s.p.wavelength
  rw [kxF_eq_kxOf h] at hst
  rw [kyF_eq_kyOf h] at hst2
  rintro ⟨E, b, hb, he, hlt⟩
  rw [film_modeMatrix s hn] at he
  refine absurd hlt (not_lt.mpr ?_)
  unfold Spec.scalarConv
  simp only [smul_one_eq_diagonal, diagonal_mul_diagonal, diagonal_sub]
  rw [dotProduct, Fintype.sum_sum_type, ← Finset.sum_add_distrib, Complex.re_sum]
  refine Finset.sum_nonneg fun i _ => ?_
  rw [fromBlocks_mulVec]
  simp only [Sum.elim_inl, Sum.elim_inr, Pi.add_apply, mulVec_diagonal, Function.comp, Pi.star_apply, Complex.add_re]
  obtain ⟨x, hx⟩ : ∃ x : ℝ, Spec.kxOf s.p i = x := ⟨_, (Complex.conj_eq_iff_re.mp (hst i)).symm⟩
  obtain ⟨y, hy⟩ : ∃ y : ℝ, Spec.kyOf s.p i = y := ⟨_, (Complex.conj_eq_iff_re.mp (hst2 i)).symm⟩
  obtain ⟨r, hr⟩ : ∃ r : ℝ, n = r := ⟨n.re, Complex.ext rfl him⟩
  have h1 := congrFun he (.inl i)
  have h2 := congrFun he (.inr i)
  simp only [mulVec_diagonal, Sum.elim_inl, Sum.elim_inr, Pi.smul_apply, smul_eq_mul] at h1 h2
  rw [hx, hy, hr] at *
  have hc : ∀ z : ℂ, z ≠ 0 → (((x : ℂ)) ^ 2 + (y : ℂ) ^ 2 - (r : ℂ) ^ 2) * z = -(b : ℂ) ^ 2 * z → x ^ 2 + y ^ 2 - r ^ 2 = -b ^ 2 := by
    intro z hz e
    have := mul_right_cancel₀ hz e
    exact_mod_cast this
  have := film_power (x := x) (y := y) (n2 := r ^ 2) (b := b) (E (.inl i)) (E (.inr i)) (fun hz => hc _ hz h1) (fun hz => hc _ hz h2)
  push_cast at this
  exact this

end Meent
