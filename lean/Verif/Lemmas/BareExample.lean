import Verif.Lemmas.Bare

/-!
# A bare interface: when the solvers succeed (helper lemmas)
-/

open Matrix

namespace Meent

set_option linter.unusedSectionVars false
set_option linter.unusedSimpArgs false

theorem bare_1d_ok {la : LinAlg} {p : Params} {wl : ℝ} {convs : List (Conv (Fin (2 * p.fto.1 + 1)))}
    (hp : p.use_pinv = false) (ht : p.thickness = []) (hpol : p.pol = 0 ∨ p.pol = 1)
    (hne : ∀ i, dy p.pol (kz1d p.n_bot (kxVec p wl) i) p.n_bot + dy p.pol (kz1d p.n_top (kxVec p wl) i) p.n_top ≠ 0) :
    ∃ o, solve_1d la p wl convs = .ok o := by
  unfold solve_1d transfer_1d_1 transfer_1d_4
  rcases hpol with h | h
  · simp only [h, ht, if_true, bind, Except.bind, List.length_nil, layerLoop, hp, mul_one]
    rw [← diagonal_smul, ← diagonal_smul, diagonal_add]
    rw [meeinv_diagonal la (by
      intro i
      have := hne i
      simp only [dy, h, if_true] at this
      simp only [Pi.smul_apply, smul_eq_mul, ← mul_add]
      exact mul_ne_zero Complex.I_ne_zero this)]
    exact ⟨_, rfl⟩
  · simp only [h, ht, one_ne_zero, if_true, if_false, bind, Except.bind, List.length_nil, layerLoop, hp, mul_one]
    rw [← diagonal_smul, ← diagonal_smul, ← diagonal_smul, diagonal_add]
    rw [meeinv_diagonal la (by
      intro i
      have := hne i
      simp only [dy, h, if_false, one_ne_zero] at this
      simp only [Pi.smul_apply, smul_eq_mul]
      intro h0
      apply this
      refine mul_left_cancel₀ Complex.I_ne_zero ?_
      rw [mul_zero, ← h0]
      ring)]
    exact ⟨_, rfl⟩

theorem bare_4_ok {la : LinAlg} {p : Params} {wl : ℝ} {init}
    (hi : transfer_2d_1 (kxF p wl) (kyF p wl) p.n_top p.n_bot = .ok init)
    (h1 : ∀ i, kz2d p.n_bot (kxF p wl) (kyF p wl) i + kz2d p.n_top (kxF p wl) (kyF p wl) i ≠ 0)
    (h2 : ∀ i, kz2d p.n_bot (kxF p wl) (kyF p wl) i / p.n_bot ^ 2
      + kz2d p.n_top (kxF p wl) (kyF p wl) i / p.n_top ^ 2 ≠ 0) :
    ∃ x, transfer_2d_4 la init.2.2.2 init.1 init.2.1 p.psi p.theta p.n_top p.n_bot false = .ok x := by
  unfold transfer_2d_1 at hi
  simp only [Except.bind_ok, Except.ok.injEq] at hi
  obtain ⟨vp, -, rfl⟩ := hi
  unfold transfer_2d_4
  simp only [Except.bind_ok, meeinv_false_ok]
  refine ⟨_, _, ⟨?_, rfl⟩, rfl⟩
  rw [← isUnit_iff_isUnit_det, ← mulVec_injective_iff_isUnit]
  rw [← coe_mulVecLin, injective_iff_map_eq_zero]
  intro rt h0
  have hz : finalB (fun _ : FlatIdx p.fto.1 p.fto.2 => (0 : ℂ)) 0 0 p.n_top = 0 := by
    ext k
    rcases k with (k | k) | (k | k) <;> simp [finalB]
  rw [mulVecLin_apply, ← hz] at h0
  have q := final_eqs h0
  clear hz h0
  obtain ⟨q1, q2, q3, q4⟩ := q
  have c1 : ∀ (A B : Matrix (FlatIdx p.fto.1 p.fto.2) (FlatIdx p.fto.1 p.fto.2) ℂ) (v : FlatIdx p.fto.1 p.fto.2 ⊕ FlatIdx p.fto.1 p.fto.2 → ℂ),
      (fromBlocks A 0 0 B *ᵥ v) = Sum.elim (A *ᵥ (v ∘ Sum.inl)) (B *ᵥ (v ∘ Sum.inr)) := by
    intro A B v
    rw [fromBlocks_mulVec]; simp
  simp only [c1, Sum.elim_inl, Sum.elim_inr, one_mulVec, smul_mulVec, Pi.smul_apply, mulVec_diagonal, smul_eq_mul,
    Function.comp_apply, mul_zero, add_zero, sub_zero] at q1 q2 q3 q4
  have e1 : ∀ i, rt (.inr (.inl i)) = 0 := by
    intro i
    have := q3 i
    rw [← q1 i] at this
    refine (mul_eq_zero.mp ?_).resolve_left (mul_ne_zero Complex.I_ne_zero (h1 i))
    linear_combination this
  have e2 : ∀ i, rt (.inr (.inr i)) = 0 := by
    intro i
    have := q2 i
    rw [← q4 i] at this
    refine (mul_eq_zero.mp ?_).resolve_left (mul_ne_zero Complex.I_ne_zero (h2 i))
    linear_combination this
  ext k
  rcases k with (k | k) | (k | k)
  · rw [← q1 k, e1]; rfl
  · rw [← q4 k, e2]; rfl
  · exact e1 k
  · exact e2 k

/-- The bare interface of the examples: cover 2, 30 degrees, any substrate, orders `0` only. -/
noncomputable def bareSettings (nb : ℂ) (pol : ℝ) (phi : Option ℂ) : Settings where
  p := { n_top := 2, n_bot := nb, theta := ((Real.pi / 6 : ℝ) : ℂ), phi := phi,
         psi := ((Real.pi / 2 * (1 - pol) : ℝ) : ℂ), pol := pol, fto := (0, 0), period := (1, 1),
         wavelength := 1, thickness := [], use_pinv := false }
  ucell := .raster ⟨1, 1, []⟩
  fourier_type := 0
  enhanced_dfs := false
  algo := .tmm

theorem bareSettings_illumination (nb : ℂ) (pol : ℝ) (phi : Option ℂ) (hphi : ∀ φ, phi = some φ → Spec.IsReal φ) :
    Spec.RealIllumination (bareSettings nb pol phi).p := by
  have := Real.pi_pos
  refine ⟨?_, ?_, ?_, ?_, ?_, hphi, ?_, ?_, ?_, ?_⟩ <;>
    simp only [bareSettings, Spec.IsReal, Complex.ofReal_im, Complex.ofReal_re, Complex.one_re,
      Complex.one_im, zero_lt_one] <;> try linarith
  all_goals norm_num

theorem bareSettings_convs (la : LinAlg) (nb : ℂ) (pol : ℝ) (phi : Option ℂ) :
    convMats la (bareSettings nb pol phi) = .ok [] := by
  unfold convMats to_conv_mat_raster_discrete
  simp [bareSettings, Ucell.rasters]
  rfl

theorem bareSettings_inPlane (nb : ℂ) (pol : ℝ) (phi : Option ℂ) :
    Spec.inPlaneSq (bareSettings nb pol phi).p 0 0 = 1 := by
  rw [inPlane_zero]
  simp only [bareSettings, Complex.ofReal_re, Real.sin_pi_div_six]
  norm_num

theorem bareSettings_col (nb : ℂ) (pol : ℝ) (phi : Option ℂ) (i : Fin (2 * (bareSettings nb pol phi).p.fto.1 + 1)) :
    Spec.colOrder i = 0 := by
  have := i.isLt
  unfold Spec.colOrder
  simp only [bareSettings] at this ⊢
  omega

theorem bareSettings_row (nb : ℂ) (pol : ℝ) (phi : Option ℂ) (i : Fin (2 * (bareSettings nb pol phi).p.fto.2 + 1)) :
    Spec.rowOrder i = 0 := bareSettings_col nb pol phi i

theorem bareSettings_kx (nb : ℂ) (pol : ℝ) (i : Fin (2 * (bareSettings nb pol none).p.fto.1 + 1)) :
    kxVec (bareSettings nb pol none).p (bareSettings nb pol none).p.wavelength i = 1 := by
  have hi := bareSettings_illumination nb pol none (by simp)
  rw [kxVec_order hi, bareSettings_col]
  unfold Spec.orderKx
  simp only [bareSettings, Complex.ofReal_re, Real.sin_pi_div_six, Option.getD_none, Complex.zero_re, Real.cos_zero,
    Int.cast_zero, zero_mul, add_zero]
  norm_num

theorem sqrt3_csqrt : star (csqrt (3 : ℂ)) = ((Real.sqrt 3 : ℝ) : ℂ) := by
  rw [show (3 : ℂ) = ((3 : ℝ) : ℂ) by norm_num, csqrt_ofReal_nonneg (by norm_num), Complex.star_def, Complex.conj_ofReal]

/-- The TE/TM solver handles the bare interface. -/
theorem bareSettings_ok (la : LinAlg) (nb : ℂ) (pol : ℝ) (hpol : pol = 0 ∨ pol = 1)
    (hne : dy pol (star (csqrt (nb ^ 2 - 1))) nb + dy pol ((Real.sqrt 3 : ℝ) : ℂ) 2 ≠ 0) :
    ∃ o, conv_solve la (bareSettings nb pol none) = .ok (.tetm o) := by
  obtain ⟨o, ho⟩ := bare_1d_ok (la := la) (p := (bareSettings nb pol none).p) (wl := (bareSettings nb pol none).p.wavelength)
    (convs := []) rfl rfl hpol (by
      intro i
      have e : ∀ nn : ℂ, kz1d nn (kxVec (bareSettings nb pol none).p (bareSettings nb pol none).p.wavelength) i
          = star (csqrt (nn ^ 2 - 1)) := by
        intro nn
        unfold kz1d
        rw [bareSettings_kx, one_pow]
      rw [e, e]
      have e2 : ((bareSettings nb pol none).p.n_top ^ 2 - 1 : ℂ) = 3 := by simp only [bareSettings]; norm_num
      rw [e2, sqrt3_csqrt]
      exact hne)
  refine ⟨o, conv_solve_tetm.mpr ⟨[], bareSettings_convs _ _ _ _, ?_, rfl, ho⟩⟩
  simp [gratingType, bareSettings, hpol]

/-- The conical solver handles the bare interface between real media. -/
theorem bareSettings_con_ok (la : LinAlg) (nb : ℝ) (hnb : 0 < nb) (pol : ℝ) :
    ∃ o, conv_solve la (bareSettings nb pol (some 0)) = .ok (.conical o) := by
  have hphi : ∀ φ : ℂ, some (0 : ℂ) = some φ → Spec.IsReal φ := by
    intro φ h; cases h; simp [Spec.IsReal]
  have hi := bareSettings_illumination nb pol (some 0) hphi
  set p := (bareSettings nb pol (some 0)).p with hpdef
  have hkx : ∀ k, kxF p p.wavelength k = 1 := by
    intro k
    obtain ⟨⟨j, i⟩, rfl⟩ := finProdFinEquiv.surjective k
    rw [kxF_order hi, bareSettings_col]
    unfold Spec.orderKx
    simp only [hpdef, bareSettings, Complex.ofReal_re, Real.sin_pi_div_six, Option.getD_some, Complex.zero_re, Real.cos_zero,
      Int.cast_zero, zero_mul, add_zero]
    norm_num
  have hky : ∀ k, kyF p p.wavelength k = 0 := by
    intro k
    obtain ⟨⟨j, i⟩, rfl⟩ := finProdFinEquiv.surjective k
    rw [kyF_order hi, bareSettings_row]
    unfold Spec.orderKy
    simp [hpdef, bareSettings]
  have hv : ∃ init, transfer_2d_1 (kxF p p.wavelength) (kyF p p.wavelength) p.n_top p.n_bot = .ok init := by
    unfold transfer_2d_1 varphiAll
    rw [dif_pos (by intro i; rw [hkx, hky]; simp [varphi1])]
    exact ⟨_, rfl⟩
  obtain ⟨init, hinit⟩ := hv
  have ekz : ∀ (nn : ℝ) k, kz2d (nn : ℂ) (kxF p p.wavelength) (kyF p p.wavelength) k
      = star (csqrt ((nn ^ 2 - 1 : ℝ) : ℂ)) := by
    intro nn k
    unfold kz2d
    rw [hkx, hky]
    push_cast
    congr 2; ring
  have hre : ∀ nn : ℝ, 0 ≤ (star (csqrt ((nn ^ 2 - 1 : ℝ) : ℂ))).re := by
    intro nn; rw [star_csqrt_ofReal_re]; exact Real.sqrt_nonneg _
  have h2 : 0 < (star (csqrt (((2 : ℝ) ^ 2 - 1 : ℝ) : ℂ))).re := by
    rw [star_csqrt_ofReal_re]; exact Real.sqrt_pos.mpr (by norm_num)
  have ent : p.n_top = ((2 : ℝ) : ℂ) := by simp [hpdef, bareSettings]
  have enb : p.n_bot = (nb : ℂ) := rfl
  obtain ⟨x, hx⟩ := bare_4_ok (la := la) hinit (by
      intro i
      rw [ent, enb, ekz, ekz, add_comm]
      exact add_ne_zero_of_re h2 (hre nb)) (by
      intro i
      rw [ent, enb, ekz, ekz, add_comm, ← Complex.ofReal_pow, ← Complex.ofReal_pow nb]
      refine add_ne_zero_of_re ?_ ?_
      · rw [Complex.div_ofReal_re]; positivity
      · rw [Complex.div_ofReal_re]; exact div_nonneg (hre nb) (by positivity))
  have hs : solve_1d_conical la p p.wavelength [] = .ok ⟨x, []⟩ :=
    (solve_con_iff rfl).mpr ⟨Nat.le_refl 0, rfl, init, (init.2.2.2, []), x, hinit, rfl, hx, rfl⟩
  refine ⟨⟨x, []⟩, conv_solve_conical.mpr ⟨[], bareSettings_convs _ _ _ _, ?_, rfl, hs⟩⟩
  simp [gratingType, bareSettings]

end Meent
