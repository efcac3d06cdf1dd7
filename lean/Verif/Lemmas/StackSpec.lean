import Verif.Lemmas.Stack1D
import Verif.Lemmas.LayerCount
import Verif.Lemmas.TorchBare
import Verif.Lemmas.TorchSolve
import Verif.Lemmas.Side
import Verif.Lemmas.Orders

/-!
# Gratings of transparent and absorbing layers: from the settings to the solvers (helper lemmas)
-/

open Matrix

namespace Meent

set_option linter.unusedSectionVars false
set_option linter.unusedSimpArgs false
set_option linter.unusedVariables false

theorem ClearConv.row {fx fy : ℕ} (hf : fy = 0) {c : Conv (FlatIdx fx fy)} (h : ClearConv c) : ClearConv c.row :=
  ⟨h.x.submatrix _, h.y.submatrix _, h.z.submatrix _, h.px.submatrix (flatRowEquiv hf)⟩

theorem cutoff_iff {s : Settings} (h : Spec.RealIllumination s.p) (hpol : s.p.pol = 0 ∨ s.p.pol = 1) (hf : s.p.fto.2 = 0)
    (c : Conv (FlatIdx s.p.fto.1 s.p.fto.2)) :
    NoCutoff s.p.pol (kxVec s.p s.p.wavelength) c.row ↔ ¬ Spec.AtCutoff s c := by
  have hx := kxF_eq_kxOf h
  unfold NoCutoff Spec.AtCutoff
  simp only
  rw [isUnit_iff_ne_zero]
  rcases hpol with h0 | h0
  · have e : (diagonal fun i => kxVec s.p s.p.wavelength i ^ 2) - c.row.epy
        = (diagonal (Spec.kxOf s.p) * diagonal (Spec.kxOf s.p) - c.epy).submatrix (flatRowEquiv hf) (flatRowEquiv hf) := by
      have := eigMat_te hf s.p.wavelength c
      unfold eigMat1d at this
      rw [if_pos rfl, hx] at this
      exact this
    rw [if_pos h0, e, det_submatrix_equiv_self]
    simp only [h0, true_and, zero_ne_one, false_and, or_false]
    rw [exists_mulVec_eq_zero_iff]
  · have h1 : ¬ s.p.pol = 0 := by rw [h0]; exact one_ne_zero
    have e : diagonal (kxVec s.p s.p.wavelength) * c.row.epzi * diagonal (kxVec s.p s.p.wavelength) - 1
        = (diagonal (Spec.kxOf s.p) * c.epzi * diagonal (Spec.kxOf s.p) - 1).submatrix (flatRowEquiv hf) (flatRowEquiv hf) := by
      rw [kxVec_row hf, ← submatrix_diagonal_equiv, hx]
      show (diagonal (Spec.kxOf s.p)).submatrix (flatRowEquiv hf) (flatRowEquiv hf)
        * c.epzi.submatrix (flatRowEquiv hf) (flatRowEquiv hf) * (diagonal (Spec.kxOf s.p)).submatrix (flatRowEquiv hf) (flatRowEquiv hf) - 1 = _
      rw [submatrix_mul_equiv, submatrix_mul_equiv, ← submatrix_one_equiv (flatRowEquiv hf)]
      rfl
    rw [if_neg h1, e, det_submatrix_equiv_self]
    simp only [h0, true_and, one_ne_zero, false_and, false_or]
    rw [exists_mulVec_eq_zero_iff]

/-- The layers of the stack that are used, as the recursion sees them. -/
theorem stack_layers {la : LinAlg} (hb : Spec.ReturnsBasis la) {s : Settings} {u : Ucell} (hp : s.p.use_pinv = false)
    (h : Spec.OrdinaryStack s u) (hg : gratingType s = 0)
    {cs : List (Conv (FlatIdx s.p.fto.1 s.p.fto.2))} (hcs : convMats la s = .ok cs)
    (hm : ∀ c ∈ cs.take s.p.thickness.length, Spec.LayerHasModes s c ∧ ¬ Spec.AtCutoff s c) :
    ∀ x ∈ (cs.map Conv.row).zip s.p.thickness, StackLayer la s.p.pol (kxVec s.p s.p.wavelength) x.1 := by
  obtain ⟨u', hu, hny, hpol, hphi, hf⟩ := gratingType_zero hg
  obtain rfl : u' = u := by have := h.raster; rw [hu] at this; cases this; rfl
  intro x hx
  have hx2 := mem_zip_take hx
  rw [← List.map_take] at hx2
  obtain ⟨c, hc, e⟩ := List.mem_map.mp hx2
  obtain ⟨hmode, hcut⟩ := hm c hc
  obtain ⟨m0, m1, -, -⟩ := hmode
  rw [← e]
  refine ⟨?_, (cutoff_iff h.toRealIllumination hpol hf c).mpr hcut, ?_⟩
  · obtain ⟨k, hk⟩ := List.mem_iff_getElem?.mp (List.mem_of_mem_take hc)
    obtain ⟨l, hl, h1, h2⟩ := convMats_class hp h (by omega) hcs hk
    rcases transparent_or_absorbs (h.media l (List.mem_of_getElem? hl)) with ht | ha
    · exact Or.inr ((h2 ht).row hf)
    · exact Or.inl ((h1 ha).row hf)
  · rw [eig_unit_iff hb]
    rcases hpol with hpol | hpol
    · rw [hpol, eigMat_te hf, diagonalisable_reindex_iff, kxF_eq_kxOf h.toRealIllumination]
      exact m0 hg hpol
    · rw [hpol, eigMat_tm hf, diagonalisable_reindex_iff, kxF_eq_kxOf h.toRealIllumination]
      exact m1 hg hpol

theorem stack_length {la : LinAlg} {s : Settings} {u : Ucell} (h : Spec.OrdinaryStack s u)
    {cs : List (Conv (FlatIdx s.p.fto.1 s.p.fto.2))} (hcs : convMats la s = .ok cs) : cs.length = u.layers.length := by
  rw [convMats_length hcs, h.raster]
  rfl

theorem stack_last {la : LinAlg} {s : Settings} {u : Ucell} (hp : s.p.use_pinv = false)
    (h : Spec.OrdinaryStack s u) (hg : gratingType s = 0)
    {cs : List (Conv (FlatIdx s.p.fto.1 s.p.fto.2))} (hcs : convMats la s = .ok cs) (hlow : Spec.LowestAbsorbs s u) :
    ∃ x, ((cs.map Conv.row).zip s.p.thickness).getLast? = some x ∧ SideConv Complex.I x.1 := by
  obtain ⟨u', hu, hny, hpol, hphi, hf⟩ := gratingType_zero hg
  obtain rfl : u' = u := by have := h.raster; rw [hu] at this; cases this; rfl
  obtain ⟨l, hl, hab⟩ := hlow
  have hlen := stack_length h hcs
  have hle := h.layers_enough
  set k := s.p.thickness.length with hk
  rw [List.getLast?_eq_getElem?, List.length_take, min_eq_left hle] at hl
  have hkpos : 0 < k := by
    rcases Nat.eq_zero_or_pos k with h0 | h0
    · rw [h0] at hl; simp at hl
    · exact h0
  rw [List.getElem?_take_of_lt (by omega)] at hl
  have h1 : k - 1 < cs.length := by omega
  have h2 : k - 1 < s.p.thickness.length := by omega
  obtain ⟨l', hl', hside, -⟩ := convMats_class hp h (by omega) hcs (List.getElem?_eq_getElem h1)
  obtain rfl : l' = l := by rw [hl] at hl'; cases hl'; rfl
  refine ⟨((cs[k - 1]).row, s.p.thickness[k - 1]), ?_, (hside hab).row hf⟩
  rw [List.getLast?_eq_getElem?, List.length_zip, List.length_map, min_eq_right (by omega), ← hk]
  rw [List.getElem?_zip_eq_some]
  exact ⟨by simp [h1], by simp [h2]⟩

theorem stack_clear {la : LinAlg} {s : Settings} {u : Ucell} (hp : s.p.use_pinv = false)
    (h : Spec.OrdinaryStack s u) (hg : gratingType s = 0)
    {cs : List (Conv (FlatIdx s.p.fto.1 s.p.fto.2))} (hcs : convMats la s = .ok cs) (ht : Spec.AllTransparent u) :
    ∀ x ∈ (cs.map Conv.row).zip s.p.thickness, ClearConv x.1 := by
  obtain ⟨u', hu, hny, hpol, hphi, hf⟩ := gratingType_zero hg
  obtain rfl : u' = u := by have := h.raster; rw [hu] at this; cases this; rfl
  intro x hx
  obtain ⟨c, hc, e⟩ := List.mem_map.mp (List.of_mem_zip (a := x.1) (b := x.2) hx).1
  obtain ⟨k, hk⟩ := List.mem_iff_getElem?.mp hc
  obtain ⟨l, hl, h1, h2⟩ := convMats_class hp h (by omega) hcs hk
  rw [← e]
  exact (h2 (ht l (List.mem_of_getElem? hl))).row hf

/-- Transparent layers always have a basis of modes. -/
theorem clear_modes {s : Settings} (h : Spec.RealIllumination s.p) (hg : gratingType s = 0)
    {c : Conv (FlatIdx s.p.fto.1 s.p.fto.2)} (hc : ClearConv c) : Spec.LayerHasModes s c := by
  obtain ⟨ph, hph⟩ := phi_real h
  have hst := (RealIncidence.of_spec h).kxF_star hph s.p.wavelength
  rw [kxF_eq_kxOf h] at hst
  have hD : (diagonal (Spec.kxOf s.p)).IsHermitian := by
    unfold Matrix.IsHermitian
    rw [diagonal_conjTranspose]
    congr 1
    funext i
    exact hst i
  refine ⟨fun _ _ => ?_, fun _ _ => ?_, fun h1 => by omega, fun h1 => by omega⟩
  · have hK : (diagonal (Spec.kxOf s.p) * diagonal (Spec.kxOf s.p)).IsHermitian := by
      unfold Matrix.IsHermitian
      rw [conjTranspose_mul, hD.eq]
    have := diagonalisable_posDef_mul isHermitian_one (fun v hv => by rw [one_mul]; exact one_side v hv) (hK.sub hc.y)
    rwa [Matrix.one_mul] at this
  · refine diagonalisable_posDef_mul hc.x hc.px ?_
    refine Matrix.IsHermitian.sub ?_ isHermitian_one
    unfold Matrix.IsHermitian
    rw [conjTranspose_mul, conjTranspose_mul, hD.eq, hc.z.eq, Matrix.mul_assoc]

/-- Both backends start the recursion from an admittance with a non-negative real part. -/
theorem stack_numpy {la : LinAlg} (hb : Spec.ReturnsBasis la) {s : Settings} {u : Ucell} (hp : s.p.use_pinv = false) (ha : s.algo = .tmm)
    (h : Spec.OrdinaryStack s u) (hg : gratingType s = 0) (hnb : s.p.n_bot.im = 0) (hlow : Spec.LowestAbsorbs s u ∨ Spec.AllEscape s)
    {cs : List (Conv (FlatIdx s.p.fto.1 s.p.fto.2))} (hcs : convMats la s = .ok cs)
    (hm : ∀ c ∈ cs.take s.p.thickness.length, Spec.LayerHasModes s c ∧ ¬ Spec.AtCutoff s c) :
    ∃ o, conv_solve la s = .ok (.tetm o) := by
  obtain ⟨u', hu, hny, hpol, hphi, hf⟩ := gratingType_zero hg
  have hnb' : s.p.n_bot = ((s.p.n_bot.re : ℝ) : ℂ) := Complex.ext rfl hnb
  have hkz : ∀ (nn : ℂ) i, 0 ≤ (kz1d nn (kxVec s.p s.p.wavelength) i).re := fun nn i => star_csqrt_re _
  have hlen : s.p.thickness.length ≤ (cs.map Conv.row).length := by
    rw [List.length_map, stack_length h hcs]; exact h.layers_enough
  have hkb : ∀ i, 0 ≤ (bottomY s.p.pol (kz1d s.p.n_bot (kxVec s.p s.p.wavelength)) s.p.n_bot i).re := by
    intro i
    unfold bottomY
    split_ifs
    · exact hkz _ i
    · rw [hnb']; exact re_div_sq (hkz _ i)
  have hbot : (∀ i, 0 < (bottomY s.p.pol (kz1d s.p.n_bot (kxVec s.p s.p.wavelength)) s.p.n_bot i).re) ∨
      ∃ x, ((cs.map Conv.row).zip s.p.thickness).getLast? = some x ∧ SideConv Complex.I x.1 := by
    rcases hlow with hlow | hesc
    · exact Or.inr (stack_last hp h hg hcs hlow)
    · refine Or.inl fun i => ?_
      have hpos : 0 < (kz1d s.p.n_bot (kxVec s.p s.p.wavelength) i).re := by
        rw [kz1d_order_re h.toRealIllumination hphi hnb]
        exact Real.sqrt_pos.mpr (sub_pos.mpr (hesc i))
      have hne : s.p.n_bot.re ≠ 0 := by
        intro h0
        have h1 := hesc i
        rw [h0] at h1
        unfold Spec.inPlaneSq at h1
        nlinarith [sq_nonneg (Spec.orderKx s.p (Spec.colOrder i)), sq_nonneg (Spec.orderKy s.p 0)]
      unfold bottomY
      split_ifs
      · exact hpos
      · rw [hnb', ← Complex.ofReal_pow, Complex.div_ofReal_re, ← hnb']
        exact div_pos hpos (by positivity)
  obtain ⟨r, x, hr, hx, -⟩ := stack_core (wl := s.p.wavelength) hp hphi (RealIncidence.of_spec h.toRealIllumination) hpol h.wavelength_pos
    (fun x hx => h.thickness_pos _ (List.of_mem_zip (a := x.1) (b := x.2) hx).2) (stack_layers hb hp h hg hcs hm) hkb hbot
  refine ⟨⟨x.1, x.2, r.2⟩, conv_solve_tetm.mpr ⟨cs, hcs, hg, ha, (solve_1d_iff hp).mpr ⟨hlen,
    (kz1d s.p.n_top (kxVec s.p s.p.wavelength), kz1d s.p.n_bot (kxVec s.p s.p.wavelength), _), r, x, ?_, hr, hx, rfl⟩⟩⟩
  unfold transfer_1d_1 bottomY
  rcases hpol with hpol | hpol
  · simp only [hpol, if_true]
  · simp only [hpol, if_true, if_false, one_ne_zero]

/-- A successful calculation has no layer at cut-off. -/
theorem solves_cutoff {la : LinAlg} {s : Settings} (hp : s.p.use_pinv = false) (h : Spec.RealIllumination s.p)
    (hg : gratingType s = 0) {cs : List (Conv (FlatIdx s.p.fto.1 s.p.fto.2))} (hcs : convMats la s = .ok cs)
    {sol : Solved s.p.fto.1 s.p.fto.2} (hs : conv_solve la s = .ok sol) :
    ∀ c ∈ cs.take s.p.thickness.length, ¬ Spec.AtCutoff s c := by
  intro c hc
  obtain ⟨u, hu, hny, hpol, hphi, hf⟩ := gratingType_zero hg
  rcases conv_solve_cases hs with ⟨-, o, rfl⟩ | ⟨h1, -⟩ | ⟨h1, -⟩
  · obtain ⟨cs', h1, hg, -, h4⟩ := conv_solve_tetm.mp hs
    rw [hcs] at h1; cases h1
    obtain ⟨hl, init, r, x, hi, hr, hx4, rfl⟩ := (solve_1d_iff hp).mp h4
    have hc' : c.row ∈ (cs.map Conv.row).take s.p.thickness.length := by
      rw [← List.map_take]; exact List.mem_map.mpr ⟨c, hc, rfl⟩
    obtain ⟨d, hz⟩ := mem_take_zip hl hc'
    obtain ⟨a, b, hab⟩ := runLayers_steps hr _ hz
    exact (cutoff_iff h hpol hf c).mp (cutoff_step hp hpol hab)
  · omega
  · omega

theorem kz_over_sq_re_pos {nn z : ℂ} {k2 : ℝ} (hk : 0 ≤ k2) (hz : z ^ 2 = nn ^ 2 - k2) (hr : 0 < z.re) (hn : nn ≠ 0) :
    0 < (z / nn ^ 2).re := by
  have e : nn ^ 2 = z ^ 2 + k2 := by rw [hz]; ring
  have h0 : 0 < Complex.normSq (nn ^ 2) := Complex.normSq_pos.mpr (pow_ne_zero _ hn)
  rw [e] at h0 ⊢
  rw [Complex.div_re]
  have h1 : (z ^ 2 + (k2 : ℂ)).re = z.re ^ 2 - z.im ^ 2 + k2 := by simp [pow_two]
  have h2 : (z ^ 2 + (k2 : ℂ)).im = 2 * z.re * z.im := by simp [pow_two]; ring
  rw [h1, h2, ← add_div]
  refine div_pos ?_ h0
  have : z.re * (z.re ^ 2 - z.im ^ 2 + k2) + z.im * (2 * z.re * z.im) = z.re * (z.re ^ 2 + z.im ^ 2 + k2) := by ring
  rw [this]
  positivity

/-- In an absorbing medium every order carries power away from the structure. -/
theorem kzPhys_re_pos {nn : ℂ} (h : Spec.PassiveIndex nn) (hr : 0 < nn.re) (hi : nn.im < 0) (k2 : ℝ) : 0 < (kzPhys nn k2).re := by
  obtain ⟨h1, h2⟩ := kzPhys_signs h k2
  refine lt_of_le_of_ne h1 fun h0 => ?_
  have hs := congrArg Complex.im (kzPhys_sq nn k2)
  rw [sq_im, Complex.sub_im, sq_im, Complex.ofReal_im, ← h0] at hs
  have : nn.re * nn.im < 0 := mul_neg_of_pos_of_neg hr hi
  linarith

theorem stack_torch {la : LinAlg} (hb : Spec.ReturnsBasis la) {s : Settings} {u : Ucell} (hp : s.p.use_pinv = false) (ha : s.algo = .tmm)
    (h : Spec.OrdinaryStack s u) (hg : gratingType s = 0) (hnb : Spec.OrdinaryMedium s.p.n_bot)
    (hbot : s.p.n_bot.im < 0 ∨ Spec.LowestAbsorbs s u)
    {cs : List (Conv (FlatIdx s.p.fto.1 s.p.fto.2))} (hcs : convMats la s = .ok cs)
    (hm : ∀ c ∈ cs.take s.p.thickness.length, Spec.LayerHasModes s c ∧ ¬ Spec.AtCutoff s c) :
    ∃ o, tConv_solve la s.torch = .ok (.tetm o) ∧
      ∑ j, ∑ i, o.res.de_ri j i + ∑ j, ∑ i, o.res.de_ti j i ≤ 1 ∧
      (Spec.AllTransparent u → ∑ j, ∑ i, o.res.de_ri j i + ∑ j, ∑ i, o.res.de_ti j i = 1) := by
  obtain ⟨u', hu, hny, hpol, hphi, hf⟩ := gratingType_zero hg
  have hi := RealIncidence.of_spec h.toRealIllumination
  have hpass : Spec.PassiveIndex s.p.n_bot := ⟨hnb.1, hnb.2⟩
  have hkx : ∀ i, ∃ k : ℝ, kxVec s.p s.p.wavelength i = (k : ℂ) := fun i =>
    ⟨_, (Complex.conj_eq_iff_re.mp (hi.kx_real hphi s.p.wavelength i)).symm⟩
  have hlen : s.p.thickness.length ≤ (cs.map Conv.row).length := by
    rw [List.length_map, stack_length h hcs]; exact h.layers_enough
  have hkb : ∀ i, 0 ≤ (bottomY s.p.pol (tKz1d s.p.n_bot (kxVec s.p s.p.wavelength)) s.p.n_bot i).re := by
    intro i
    obtain ⟨k, hk⟩ := hkx i
    unfold bottomY
    rw [tKz1d_real _ _ _ k hk]
    have h1 := (kzPhys_signs hpass (k ^ 2)).1
    split_ifs
    · exact h1
    · exact kz_over_sq_re (sq_nonneg k) (kzPhys_sq _ _) h1
  have hbot' : (∀ i, 0 < (bottomY s.p.pol (tKz1d s.p.n_bot (kxVec s.p s.p.wavelength)) s.p.n_bot i).re) ∨
      ∃ x, ((cs.map Conv.row).zip s.p.thickness).getLast? = some x ∧ SideConv Complex.I x.1 := by
    rcases hbot with hb' | hlow
    · refine Or.inl fun i => ?_
      obtain ⟨k, hk⟩ := hkx i
      unfold bottomY
      rw [tKz1d_real _ _ _ k hk]
      have h1 := kzPhys_re_pos hpass hnb.1 hb' (k ^ 2)
      split_ifs
      · exact h1
      · refine kz_over_sq_re_pos (sq_nonneg k) (kzPhys_sq _ _) h1 fun h0 => ?_
        rw [h0] at hb'
        exact lt_irrefl _ hb'
    · exact Or.inr (stack_last hp h hg hcs hlow)
  obtain ⟨r, x, hr, hx, hle, heq⟩ := stack_core (wl := s.p.wavelength) hp hphi hi hpol h.wavelength_pos
    (fun x hx => h.thickness_pos _ (List.of_mem_zip (a := x.1) (b := x.2) hx).2) (stack_layers hb hp h hg hcs hm) hkb hbot'
  obtain ⟨x', h4, e1, e2, -⟩ := tTransfer_1d_4_of_ok (tKxVec s.p s.p.wavelength) hx
  have hri : x'.1.de_ri = x.1.de_ri := e2.de_ri
  have hti : x'.1.de_ti = x.1.de_ti := e2.de_ti
  have hsolve : tSolve_1d la s.p s.p.wavelength (cs.map Conv.row) = .ok ⟨x'.1, x'.2, r.2⟩ := by
    unfold tSolve_1d
    simp only [Except.bind_ok, Except.ok.injEq]
    refine ⟨(kz1d s.p.n_top (kxVec s.p s.p.wavelength), tKz1d s.p.n_bot (kxVec s.p s.p.wavelength),
      ⟨1, Complex.I • diagonal (bottomY s.p.pol (tKz1d s.p.n_bot (kxVec s.p s.p.wavelength)) s.p.n_bot), 1⟩), ?_, r, ?_, x', ?_, rfl⟩
    · have htop : tKz1d s.p.n_top (kxVec s.p s.p.wavelength) = kz1d s.p.n_top (kxVec s.p s.p.wavelength) := by
        have := tKz1d_eq h.toRealIllumination (nn := s.p.n_top) ⟨h.n_top_pos, h.n_top_real.le⟩ h.n_top_real
        exact this
      rw [tKxVec_eq h.toRealIllumination]
      unfold tTransfer_1d_1 bottomY
      rw [htop]
      rcases hpol with hpol | hpol
      · simp only [hpol, if_true]
      · simp only [hpol, if_true, if_false, one_ne_zero]
    · rw [tKxVec_eq h.toRealIllumination]
      exact refines_layerLoop (fun c d t => refines_tStep1d la s.p _ _ c d t) _ _ _ _ _ (layerLoop_ok_iff.mpr ⟨hlen, hr⟩)
    · rw [hp]; exact h4
  refine ⟨⟨x'.1, x'.2, r.2⟩, tConv_solve_of hcs (tSolve_for_conv_zero (tGrating_zero hg) ha hsolve), ?_, fun ht => ?_⟩
  · simp only [hri, hti]; exact hle
  · simp only [hri, hti]; exact heq (stack_clear hp h hg hcs ht)

end Meent
