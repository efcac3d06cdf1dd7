import Verif.Lemmas.StackSpec
import Verif.Lemmas.Substrate
import Verif.Props.C61

/-!
# Substrate material above an absorbing substrate, PyTorch
-/

set_option linter.unusedSectionVars false
set_option linter.unusedSimpArgs false
set_option linter.unusedVariables false

open Matrix

namespace Meent

theorem I_kzPhys {nn : ℂ} (hn : Spec.AbsorbingMedium nn) (k2 : ℝ) :
    Complex.I * kzPhys nn k2 = csqrt (k2 - nn ^ 2) := by
  have hpass : Spec.PassiveIndex nn := ⟨hn.1, hn.2.le⟩
  have hsq : (Complex.I * kzPhys nn k2) ^ 2 = k2 - nn ^ 2 := by
    rw [mul_pow, Complex.I_sq, kzPhys_sq]; ring
  have him : (kzPhys nn k2).im < 0 := by
    have h1 := kzPhys_re_pos hpass hn.1 hn.2 k2
    have h2 := congrArg Complex.im (kzPhys_sq nn k2)
    simp only [pow_two, Complex.mul_im, Complex.sub_im, Complex.ofReal_im, sub_zero] at h2
    have h3 := hn.1
    have h4 := hn.2
    nlinarith [mul_pos h3 (neg_pos.mpr h4)]
  rw [← hsq]
  unfold csqrt
  have : (1 / 2 : ℂ) = 2⁻¹ := by norm_num
  rw [this, Complex.sq_cpow_two_inv (by simpa using him)]

/-- The strict recursion with the PyTorch start, when it succeeds, gives the PyTorch result. -/
theorem torch_of_strict {la : LinAlg} {s : Settings} (hp : s.p.use_pinv = false) (ha : s.algo = .tmm)
    (hill : Spec.RealIllumination s.p) (hg : gratingType s = 0) {cs : List (Conv (FlatIdx s.p.fto.1 s.p.fto.2))} (hcs : convMats la s = .ok cs)
    (hlen : s.p.thickness.length ≤ (cs.map Conv.row).length) {r x}
    (hr : runLayers (step1d la s.p (2 * Real.pi / s.p.wavelength) (kxVec s.p s.p.wavelength)) ((cs.map Conv.row).zip s.p.thickness)
      (⟨1, Complex.I • diagonal (bottomY s.p.pol (tKz1d s.p.n_bot (kxVec s.p s.p.wavelength)) s.p.n_bot), 1⟩, []) = .ok r)
    (hx : transfer_1d_4 la s.p.pol r.1 (kz1d s.p.n_top (kxVec s.p s.p.wavelength)) (tKz1d s.p.n_bot (kxVec s.p s.p.wavelength)) s.p.theta
      s.p.n_top s.p.n_bot false = .ok x) :
    ∃ o, tConv_solve la s.torch = .ok (.tetm o) ∧ Spec.SameEff x.1 o.res ∧
      Spec.ConjAmplitudes (phaseConv (tKxVec s.p s.p.wavelength)) 1 1 x.1 o.res := by
  obtain ⟨u', hu, hny, hpol, hphi, hf⟩ := gratingType_zero hg
  obtain ⟨x', h4, e1, e2, e3⟩ := tTransfer_1d_4_of_ok (tKxVec s.p s.p.wavelength) hx
  have hsolve : tSolve_1d la s.p s.p.wavelength (cs.map Conv.row) = .ok ⟨x'.1, x'.2, r.2⟩ := by
    unfold tSolve_1d
    simp only [Except.bind_ok, Except.ok.injEq]
    refine ⟨(kz1d s.p.n_top (kxVec s.p s.p.wavelength), tKz1d s.p.n_bot (kxVec s.p s.p.wavelength),
      ⟨1, Complex.I • diagonal (bottomY s.p.pol (tKz1d s.p.n_bot (kxVec s.p s.p.wavelength)) s.p.n_bot), 1⟩), ?_, r, ?_, x', ?_, rfl⟩
    · have htop : tKz1d s.p.n_top (kxVec s.p s.p.wavelength) = kz1d s.p.n_top (kxVec s.p s.p.wavelength) := by
        have := tKz1d_eq hill (nn := s.p.n_top) ⟨hill.n_top_pos, hill.n_top_real.le⟩ hill.n_top_real
        exact this
      rw [tKxVec_eq hill]
      unfold tTransfer_1d_1 bottomY
      rw [htop]
      rcases hpol with hpol | hpol
      · simp only [hpol, if_true]
      · simp only [hpol, if_true, if_false, one_ne_zero]
    · rw [tKxVec_eq hill]
      exact refines_layerLoop (fun c d t => refines_tStep1d la s.p _ _ c d t) _ _ _ _ _ (layerLoop_ok_iff.mpr ⟨hlen, hr⟩)
    · rw [hp]; exact h4
  exact ⟨⟨x'.1, x'.2, r.2⟩, tConv_solve_of hcs (tSolve_for_conv_zero (tGrating_zero hg) ha hsolve), e2, e3⟩

/-- The strict recursion succeeds on ordinary stacks over an absorbing substrate. -/
theorem stack_strict {la : LinAlg} (hb : Spec.ReturnsBasis la) {s : Settings} {u : Ucell} (hp : s.p.use_pinv = false)
    (h : Spec.OrdinaryStack s u) (hg : gratingType s = 0) (hnb : Spec.AbsorbingMedium s.p.n_bot)
    {cs : List (Conv (FlatIdx s.p.fto.1 s.p.fto.2))} (hcs : convMats la s = .ok cs)
    (hm : ∀ c ∈ cs.take s.p.thickness.length, Spec.LayerHasModes s c ∧ ¬ Spec.AtCutoff s c) :
    ∃ r x, runLayers (step1d la s.p (2 * Real.pi / s.p.wavelength) (kxVec s.p s.p.wavelength)) ((cs.map Conv.row).zip s.p.thickness)
      (⟨1, Complex.I • diagonal (bottomY s.p.pol (tKz1d s.p.n_bot (kxVec s.p s.p.wavelength)) s.p.n_bot), 1⟩, []) = .ok r ∧
      transfer_1d_4 la s.p.pol r.1 (kz1d s.p.n_top (kxVec s.p s.p.wavelength)) (tKz1d s.p.n_bot (kxVec s.p s.p.wavelength)) s.p.theta
        s.p.n_top s.p.n_bot false = .ok x := by
  obtain ⟨u', hu, hny, hpol, hphi, hf⟩ := gratingType_zero hg
  have hi := RealIncidence.of_spec h.toRealIllumination
  have hpass : Spec.PassiveIndex s.p.n_bot := ⟨hnb.1, hnb.2.le⟩
  have hkb : ∀ i, 0 < (bottomY s.p.pol (tKz1d s.p.n_bot (kxVec s.p s.p.wavelength)) s.p.n_bot i).re := by
    intro i
    have hk := (Complex.conj_eq_iff_re.mp (hi.kx_real hphi s.p.wavelength i)).symm
    unfold bottomY
    rw [tKz1d_real _ _ _ _ hk]
    have h1 := kzPhys_re_pos hpass hnb.1 hnb.2 ((kxVec s.p s.p.wavelength i).re ^ 2)
    split_ifs
    · exact h1
    · refine kz_over_sq_re_pos (sq_nonneg _) (kzPhys_sq _ _) h1 fun h0 => ?_
      have := hnb.1
      rw [h0] at this
      simp at this
  obtain ⟨r, x, hr, hx, -⟩ := stack_core (wl := s.p.wavelength) hp hphi hi hpol h.wavelength_pos
    (fun x hx => h.thickness_pos _ (List.of_mem_zip (a := x.1) (b := x.2) hx).2) (stack_layers hb hp h hg hcs hm)
    (fun i => (hkb i).le) (.inl hkb)
  exact ⟨r, x, hr, hx⟩

/-- One step through substrate material from the PyTorch start. -/
theorem tstep1d_substrate {p : Params} {nt th : ℝ} (hi : RealIncidence p nt th) {la : LinAlg} (hp : p.use_pinv = false)
    (hphi : p.phi = none) (hpol : p.pol = 0 ∨ p.pol = 1) (hnb : Spec.AbsorbingMedium p.n_bot) {wl d : ℝ} {r}
    (h : step1d la p (2 * Real.pi / wl) (kxVec p wl) (scalarC _ p.n_bot) d
      ⟨1, Complex.I • diagonal (bottomY p.pol (tKz1d p.n_bot (kxVec p wl)) p.n_bot), 1⟩ = .ok r) :
    FGEquiv ⟨1, Complex.I • diagonal (bottomY p.pol (tKz1d p.n_bot (kxVec p wl)) p.n_bot), 1⟩ r.1 := by
  have hb0 : p.n_bot ≠ 0 := by
    intro h0
    have := hnb.1
    rw [h0] at this
    simp at this
  refine (step1d_mode hp h).scalar_matched hb0 ?_
  have hk : ∀ i, csqrt (kxVec p wl i ^ 2 - p.n_bot ^ 2) = Complex.I * tKz1d p.n_bot (kxVec p wl) i := by
    intro i
    have hk := (Complex.conj_eq_iff_re.mp (hi.kx_real hphi wl i)).symm
    rw [tKz1d_real _ _ _ _ hk, I_kzPhys hnb]
    push_cast
    rw [← hk]
  simp only [hk]
  rcases hpol with h0 | h1
  · simp only [h0, if_true, bottomY]
    ext i j
    rcases eq_or_ne i j with rfl | hij
    · simp [bottomY]
    · simp [hij]
  · simp only [h1, if_true, if_false, one_ne_zero, bottomY]
    have hinv : (scalarC (Fin (2 * p.fto.1 + 1)) p.n_bot).epx⁻¹ = (p.n_bot ^ 2)⁻¹ • 1 := by
      refine inv_eq_right_inv ?_
      simp only [scalarC, Matrix.smul_mul, Matrix.one_mul, smul_smul]
      rw [mul_inv_cancel₀ (pow_ne_zero _ hb0), one_smul]
    rw [hinv]
    ext i j
    rcases eq_or_ne i j with rfl | hij
    · simp [bottomY]; ring
    · simp [hij]

theorem convMats_withStack_self {la : LinAlg} {s : Settings} {u : Structure} (h : s.ucell = u)
    {cs : List (Conv (FlatIdx s.p.fto.1 s.p.fto.2))} (hc : convMats la (Spec.withStack s u s.p.thickness) = .ok cs) :
    convMats la s = .ok cs := by
  obtain ⟨p, uc, ft, en, al⟩ := s
  subst h
  exact hc

theorem sameRefl_conj {a b : ℕ} {x x' o o' : SubRes a b} {σ : Fin b → ℂ} (h : Spec.SameRefl x x') (e : Spec.SameEff x o)
    (c : Spec.ConjAmplitudes σ 1 1 x o) (e' : Spec.SameEff x' o') (c' : Spec.ConjAmplitudes σ 1 1 x' o') : Spec.SameRefl o o' := by
  refine ⟨?_, ?_, ?_, ?_, ?_⟩
  · funext j i
    rw [c'.R_s, c.R_s, h.R_s]
  · funext j i
    rw [c'.R_p, c.R_p, h.R_p]
  · rw [e'.de_ri_s, e.de_ri_s, h.de_ri_s]
  · rw [e'.de_ri_p, e.de_ri_p, h.de_ri_p]
  · rw [e'.de_ri, e.de_ri, h.de_ri]

theorem SameRefl.total {a b : ℕ} {r r' : SubRes a b} (h : Spec.SameRefl r r') :
    ∑ j, ∑ i, r'.de_ri j i = ∑ j, ∑ i, r.de_ri j i := by rw [h.de_ri]

end Meent
