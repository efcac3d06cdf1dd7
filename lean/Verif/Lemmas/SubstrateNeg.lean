import Verif.Lemmas.Substrate
import Verif.Lemmas.BareExample

/-!
# An unmatched layer changes the reflection (helper lemmas)
-/

open Matrix

namespace Meent

set_option linter.unusedSectionVars false
set_option linter.unusedSimpArgs false

theorem FGEquiv.symm {n : Type} [Fintype n] [DecidableEq n] {s t : TState n} (h : FGEquiv s t) : FGEquiv t s := by
  obtain ⟨M, hM, e1, e2⟩ := h
  refine ⟨M⁻¹, isUnit_nonsing_inv_det_iff.mpr hM, ?_, ?_⟩
  · rw [e1, Matrix.mul_assoc, mul_nonsing_inv _ hM, Matrix.mul_one]
  · rw [e2, Matrix.mul_assoc, mul_nonsing_inv _ hM, Matrix.mul_one]

/-- One TE layer of index `nn` on a substrate with admittance `kz_bot`: what the solver returns at an order where the
layer is not matched to the substrate differs from the bare interface. -/
theorem te_layer_visible {la : LinAlg} {p : Params} {wl d : ℝ} {nn : ℂ} {o : Out1D (2 * p.fto.1 + 1)}
    (hp : p.use_pinv = false) (hpol : p.pol = 0) (hth : p.thickness = [d]) (hn : nn ≠ 0)
    (h : solve_1d la p wl [scalarC _ nn] = .ok o) (i : Fin (2 * p.fto.1 + 1))
    (hδ : (deltaI0 i : ℂ) = 1)
    (hv : csqrt (kxVec p wl i ^ 2 - nn ^ 2) ≠ Complex.I * kz1d p.n_bot (kxVec p wl) i)
    (hX : Complex.exp (-((2 * Real.pi / wl : ℝ) : ℂ) * csqrt (kxVec p wl i ^ 2 - nn ^ 2) * d) ^ 2 ≠ 1)
    (ht : p.n_top * Complex.cos p.theta + kz1d p.n_top (kxVec p wl) i ≠ 0)
    (j : Fin 1) :
    kz1d p.n_bot (kxVec p wl) i * (o.res.R_s j i + 1)
      ≠ p.n_top * Complex.cos p.theta - kz1d p.n_top (kxVec p wl) i * o.res.R_s j i := by
  intro hbare
  obtain ⟨-, init, r, x, hin, hr, hx, rfl⟩ := (solve_1d_iff hp).mp h
  rw [hth] at hr
  obtain ⟨a, ha, b, hb, rfl⟩ := runLayers_cons.mp hr
  obtain rfl := Except.ok.inj ha
  unfold transfer_1d_1 at hin
  simp only [hpol, if_true, Except.ok.injEq] at hin
  subst hin
  obtain ⟨E, l, W, V, X, Ai, B, hE, hl, hs, h1, h2⟩ := step1d_mode hp hb
  simp only at hx hs
  rw [eigMat_scalar hn] at hl
  rw [if_pos hpol, Matrix.one_mul] at h1
  have f := fcalc_unique (W' := 1) (l' := fun i => kxVec p wl i ^ 2 - nn ^ 2) hl (by simp) hE (by simp)
  rw [f csqrt, Matrix.one_mul, inv_one, Matrix.mul_one] at h1
  have f2 := f fun z => Complex.exp (-((2 * Real.pi / wl : ℝ) : ℂ) * csqrt z * (d : ℂ))
  unfold phaseX at h2
  rw [f2, Matrix.one_mul, inv_one, Matrix.mul_one] at h2
  set v : Fin (2 * p.fto.1 + 1) → ℂ := fun i => csqrt (kxVec p wl i ^ 2 - nn ^ 2) with hvd
  set ξ : Fin (2 * p.fto.1 + 1) → ℂ := fun i =>
    Complex.exp (-((2 * Real.pi / wl : ℝ) : ℂ) * csqrt (kxVec p wl i ^ 2 - nn ^ 2) * (d : ℂ)) with hξ
  set g : Fin (2 * p.fto.1 + 1) → ℂ := fun i => Complex.I * kz1d p.n_bot (kxVec p wl) i with hg
  have hG0 : (Complex.I • diagonal (kz1d p.n_bot (kxVec p wl))
      : Matrix (Fin (2 * p.fto.1 + 1)) (Fin (2 * p.fto.1 + 1)) ℂ) = diagonal g := by
    rw [← diagonal_smul]; rfl
  have hW := hs.hW
  -- the reflection of the lower interface
  set Z := W * (B * Ai) * W⁻¹ with hZ
  have hWW : W * W⁻¹ = 1 := mul_nonsing_inv _ hW
  have hWW' : W⁻¹ * W = 1 := nonsing_inv_mul _ hW
  have hZ1 : Ai * W⁻¹ = 1 + Z := by
    have := hs.F_Ai
    simp only [Matrix.one_mul] at this
    rw [this, hZ, Matrix.mul_add, Matrix.mul_one, Matrix.add_mul, hWW]
  have hVe : V = diagonal v * W := by rw [← h1, Matrix.mul_assoc, hWW', Matrix.mul_one]
  have hZ2 : diagonal g * (1 + Z) = diagonal v * (1 - Z) := by
    have := hs.G_Ai
    rw [hG0] at this
    rw [← hZ1, ← Matrix.mul_assoc, this, hVe, hZ]
    rw [Matrix.mul_assoc, Matrix.mul_assoc, Matrix.sub_mul, Matrix.mul_sub, Matrix.one_mul, hWW,
      Matrix.mul_assoc W]
  have hZij : ∀ i j, (v i + g i) * Z i j = (v i - g i) * (1 : Matrix _ _ ℂ) i j := by
    intro i j
    have := congrFun (congrFun hZ2 i) j
    simp only [diagonal_mul, Matrix.add_apply, Matrix.sub_apply] at this
    linear_combination this
  have hXe : X = W⁻¹ * diagonal ξ * W := by
    rw [← h2, ← Matrix.mul_assoc, ← Matrix.mul_assoc, hWW', Matrix.one_mul, Matrix.mul_assoc, hWW', Matrix.mul_one]
  have hY : W * (X * B * Ai * X) = diagonal ξ * Z * diagonal ξ * W := by
    rw [hXe, hZ]
    simp only [Matrix.mul_assoc]
    rw [← Matrix.mul_assoc W W⁻¹, hWW, Matrix.one_mul]
  obtain ⟨R, T, hR1, -, -, hcase⟩ := transfer_1d_4_ok hx
  rcases hcase with ⟨-, hR2, -, hRs, -⟩ | ⟨h0, -⟩
  swap
  · rw [hpol] at h0; exact absurd h0 zero_ne_one
  rw [hRs j] at hbare
  have hF : b.1.F = (1 + diagonal ξ * Z * diagonal ξ) * W := by
    rw [hs.s'_eq]
    simp only
    rw [Matrix.mul_add, Matrix.mul_one, hY, Matrix.add_mul, Matrix.one_mul]
  have hG : b.1.G = diagonal v * ((1 - diagonal ξ * Z * diagonal ξ) * W) := by
    rw [hs.s'_eq, hVe]
    simp only
    rw [Matrix.mul_assoc, Matrix.mul_sub, Matrix.mul_one, hY, Matrix.sub_mul, Matrix.one_mul]
  set τ := W *ᵥ x.2 with hτ
  set y := (diagonal ξ * Z * diagonal ξ) *ᵥ τ with hy
  have hR1' : τ i + y i = R i + 1 := by
    have := congrFun hR1 i
    rw [hF, ← mulVec_mulVec, add_mulVec, one_mulVec, ← hτ, ← hy, Pi.add_apply, Pi.add_apply, hδ] at this
    exact this
  have hR2' : v i * (τ i - y i) = Complex.I * (p.n_top * Complex.cos p.theta) - Complex.I * (kz1d p.n_top (kxVec p wl) i * R i) := by
    have := congrFun hR2 i
    rw [hG, ← mulVec_mulVec, ← mulVec_mulVec, sub_mulVec, one_mulVec, ← hτ, ← hy, mulVec_diagonal, Pi.sub_apply, hδ, mul_one] at this
    exact this
  have hyi : (v i + g i) * y i = ξ i ^ 2 * ((v i - g i) * τ i) := by
    rw [hy, Matrix.mulVec, dotProduct, Finset.mul_sum]
    have : ∀ k, (v i + g i) * ((diagonal ξ * Z * diagonal ξ) i k * τ k)
        = (ξ i * ((v i - g i)) * ξ k * τ k) * (1 : Matrix _ _ ℂ) i k := by
      intro k
      rw [mul_diagonal, diagonal_mul]
      linear_combination ξ i * ξ k * τ k * hZij i k
    simp only [this, one_apply, mul_ite, mul_one, mul_zero, Finset.sum_ite_eq, Finset.mem_univ, if_true]
    ring
  have hgR : g i * (R i + 1) = v i * (τ i - y i) := by
    rw [hR2', hg]
    linear_combination Complex.I * hbare
  have hτ0 : τ i = 0 := by
    have e : (1 - ξ i ^ 2) * ((v i - g i) * τ i) = 0 := by
      rw [← hR1'] at hgR
      linear_combination hyi - hgR
    rcases mul_eq_zero.mp e with e | e
    · exact absurd (by linear_combination -e) hX
    · rcases mul_eq_zero.mp e with e | e
      · exact absurd (by linear_combination e) hv
      · exact e
  have hvg : v i + g i ≠ 0 := by
    intro h0
    have := hZij i i
    rw [h0, one_apply_eq] at this
    exact hv (by linear_combination -this)
  have hy0 : y i = 0 := by
    rw [hτ0, mul_zero, mul_zero] at hyi
    exact (mul_eq_zero.mp hyi).resolve_left hvg
  have hRi : R i = -1 := by rw [hτ0, hy0] at hR1'; linear_combination -hR1'
  rw [hRi] at hbare
  exact ht (by linear_combination -hbare)

/-- With `exLA` the step through substrate material succeeds. -/
theorem step1d_substrate_ok {p : Params} {nt th : ℝ} (hi : RealIncidence p nt th) (hp : p.use_pinv = false)
    (hphi : p.phi = none) {nb : ℝ} (hb : p.n_bot = (nb : ℂ)) (hb0 : p.n_bot ≠ 0) {wl d : ℝ} {init}
    (hne : ∀ i, kxVec p wl i ^ 2 - p.n_bot ^ 2 ≠ 0)
    (hinit : transfer_1d_1 p.pol (kxVec p wl) p.n_top p.n_bot = .ok init) :
    ∃ r, step1d exLA p (2 * Real.pi / wl) (kxVec p wl) (scalarC _ p.n_bot) d init.2.2 = .ok r := by
  have hpol : p.pol = 0 ∨ p.pol = 1 := by
    unfold transfer_1d_1 at hinit
    by_contra h
    push Not at h
    simp only [h.1, h.2, if_false] at hinit
    cases hinit
  have hsc : scalarC (Fin (2 * p.fto.1 + 1)) p.n_bot
      = ⟨diagonal fun _ => p.n_bot ^ 2, diagonal fun _ => p.n_bot ^ 2, diagonal fun _ => (p.n_bot ^ 2)⁻¹⟩ := by
    unfold scalarC
    simp only [← diagonal_one, ← diagonal_smul, Pi.smul_def, smul_eq_mul, mul_one]
  have hn2 : p.n_bot ^ 2 ≠ 0 := pow_ne_zero _ hb0
  set v : Fin (2 * p.fto.1 + 1) → ℂ := fun i => dv p.pol (kxVec p wl i) (p.n_bot ^ 2) (p.n_bot ^ 2) (p.n_bot ^ 2)⁻¹ with hv
  have hm : transfer_1d_2 exLA p.pol (kxVec p wl) (scalarC _ p.n_bot) false = .ok ⟨1, diagonal v,
      fun i => dq p.pol (kxVec p wl i) (p.n_bot ^ 2) (p.n_bot ^ 2) (p.n_bot ^ 2)⁻¹⟩ := by
    rw [hsc]; exact transfer_1d_2_diag hpol _ _ _ _ fun _ => hn2
  have hq : ∀ i, dq p.pol (kxVec p wl i) (p.n_bot ^ 2) (p.n_bot ^ 2) (p.n_bot ^ 2)⁻¹
      = Complex.I * kz1d p.n_bot (kxVec p wl) i := by
    intro i
    have e : dq p.pol (kxVec p wl i) (p.n_bot ^ 2) (p.n_bot ^ 2) (p.n_bot ^ 2)⁻¹ = csqrt (kxVec p wl i ^ 2 - p.n_bot ^ 2) := by
      unfold dq
      split
      · rfl
      · congr 1; field_simp
    rw [e]
    exact (I_kz1d (hi.kx_eq hphi wl i) hb).symm
  have hq0 : ∀ i, Complex.I * kz1d p.n_bot (kxVec p wl) i ≠ 0 := by
    intro i h0
    have : csqrt (kxVec p wl i ^ 2 - p.n_bot ^ 2) = 0 := (I_kz1d (hi.kx_eq hphi wl i) hb).symm.trans h0
    apply hne i
    rw [← csqrt_sq (kxVec p wl i ^ 2 - p.n_bot ^ 2), this]; ring
  have hG : init.2.2.F = 1 ∧ init.2.2.G = diagonal v := by
    unfold transfer_1d_1 at hinit
    rcases hpol with h0 | h0
    · simp only [h0, if_true, Except.ok.injEq] at hinit
      subst hinit
      refine ⟨rfl, ?_⟩
      simp only [hv, dv, h0, if_true, ← diagonal_smul]
      congr 1
      funext i
      exact (h0 ▸ hq i).symm
    · simp only [h0, one_ne_zero, if_false, if_true, Except.ok.injEq] at hinit
      subst hinit
      refine ⟨rfl, ?_⟩
      simp only [hv, dv, h0, one_ne_zero, if_false, ← diagonal_smul]
      congr 1
      funext i
      have := hq i
      rw [h0] at this
      simp only [Pi.smul_apply, smul_eq_mul, this]
      ring
  have hv0 : ∀ i, v i ≠ 0 := by
    intro i
    simp only [hv, dv, hq]
    split
    · exact hq0 i
    · exact div_ne_zero (hq0 i) hn2
  have hVu : IsUnit (diagonal v).det := by
    rw [det_diagonal, isUnit_iff_ne_zero, Finset.prod_ne_zero_iff]
    exact fun i _ => hv0 i
  have hA : stepA 1 (diagonal v) init.2.2 = 1 := by
    simp only [stepA, hG.1, hG.2, inv_one, Matrix.one_mul, nonsing_inv_mul _ hVu]
    rw [← two_smul ℂ, smul_smul]; norm_num
  unfold step1d
  simp only [hp, hm, Except.bind_ok, Except.ok.injEq, exists_eq_left']
  unfold transfer_1d_3
  have hs : StepData (phaseX (2 * Real.pi / wl) (fun i => dq p.pol (kxVec p wl i) (p.n_bot ^ 2) (p.n_bot ^ 2) (p.n_bot ^ 2)⁻¹) d)
      1 (diagonal v) init.2.2 _ (stepA 1 (diagonal v) init.2.2)⁻¹ ((1 / 2 : ℂ) • (1⁻¹ * init.2.2.F - (diagonal v)⁻¹ * init.2.2.G)) :=
    ⟨by simp, hVu, by rw [hA]; simp, rfl, rfl, rfl⟩
  exact ⟨_, _, tmmStep_ok.mpr hs, rfl⟩

/-- A TE/TM problem that is solved by `exLA` is still solved when a layer of the substrate material is added. -/
theorem grounded_1d_ok {s : Settings} {ny nx : ℕ} (hy : 0 < ny) (hx : 0 < nx) {ls : List (Fin ny → Fin nx → ℂ)} {d : ℝ}
    (hp : s.p.use_pinv = false) (hill : Spec.RealIllumination s.p) (hb : Spec.IsReal s.p.n_bot) (hb0 : s.p.n_bot ≠ 0)
    (hf : s.fourier_type = 0) (hphi : s.p.phi = none) (hth : s.p.thickness.length = ls.length)
    (hne : ∀ i, kxVec s.p s.p.wavelength i ^ 2 - s.p.n_bot ^ 2 ≠ 0) {o}
    (h : conv_solve exLA (Spec.withStack s (.raster ⟨ny, nx, ls⟩) s.p.thickness) = .ok (.tetm o)) :
    ∃ o', conv_solve exLA (Spec.withStack s (.raster ⟨ny, nx, ls ++ [fun _ _ => s.p.n_bot]⟩) (s.p.thickness ++ [d]))
      = .ok (.tetm o') := by
  obtain ⟨cs, h1, h2, h3, h4⟩ := conv_solve_tetm.mp h
  obtain ⟨hl, init, r, x, hin, hr, hx4, rfl⟩ := (solve_1d_iff (p := s.p) hp).mp h4
  have hi := RealIncidence.of_spec hill
  have hbr : s.p.n_bot = ((s.p.n_bot.re : ℝ) : ℂ) := Complex.ext rfl hb
  obtain ⟨hf1, hm⟩ := (convMats_raster rfl).mp h1
  have hlen : cs.length = s.p.thickness.length := by
    rw [hth]; simpa [Ucell.rasters] using mapM_length hm
  have hc : convMats exLA (Spec.withStack s (.raster ⟨ny, nx, ls ++ [fun _ _ => s.p.n_bot]⟩) (s.p.thickness ++ [d]))
      = .ok (cs ++ [Spec.scalarConv s.p.fto.1 s.p.fto.2 s.p.n_bot]) := by
    refine (convMats_raster (u := ⟨ny, nx, ls ++ [fun _ _ => s.p.n_bot]⟩) rfl).mpr ⟨hf1, ?_⟩
    simp only [Ucell.rasters, List.map_append]
    refine mapM_append_ok.mpr ⟨cs, _, hm, ?_, rfl⟩
    refine mapM_cons_ok.mpr ⟨_, [], ?_, rfl, rfl⟩
    unfold rasterConv
    rw [if_pos hf]
    exact convDiscrete_const exLA hy hx _ _ _ _ hb0
  obtain ⟨b, hb1⟩ := step1d_substrate_ok (d := d) hi hp hphi hbr hb0 hne hin
  have hfg := (step1d_substrate hi hp hphi hbr hb0 hin hb1).symm
  obtain ⟨r', u, hr', he, e1, e2⟩ := (hasModes_1d exLA hp _ _).run_fg (ls := [b.2]) _ hfg hr
  obtain ⟨x1, hx1, -⟩ := transfer_1d_4_FG e1 e2 hx4
  obtain ⟨x', hx', -⟩ := transfer_1d_4_equiv he hx1
  refine ⟨⟨x'.1, x'.2, r'.2⟩, conv_solve_tetm.mpr ⟨_, hc, h2, h3, ?_⟩⟩
  refine (solve_1d_iff (p := (Spec.withStack s (.raster ⟨ny, nx, ls ++ [fun _ _ => s.p.n_bot]⟩) (s.p.thickness ++ [d])).p) hp).mpr ?_
  refine ⟨by simp [hlen], init, r', x', hin, ?_, hx', rfl⟩
  simp only [List.map_append, List.map_cons, List.map_nil, scalarConv_row]
  have hz : (cs.map Conv.row ++ [scalarC _ s.p.n_bot]).zip (s.p.thickness ++ [d])
      = (cs.map Conv.row).zip s.p.thickness ++ [(scalarC _ s.p.n_bot, d)] := by
    rw [List.zip_append (by simp [hlen])]; rfl
  refine (congrArg (fun xs => runLayers _ xs _) hz).trans ?_
  rw [runLayers_append, Except.bind_ok]
  refine ⟨(b.1, [b.2]), ?_, hr'⟩
  exact runLayers_cons.mpr ⟨_, rfl, b, hb1, rfl⟩

end Meent
