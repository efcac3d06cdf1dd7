import Verif.Lemmas.TorchSubstrate
import Verif.Props.C62

/-!
# C70: on PyTorch a layer of the substrate material is invisible also when the substrate absorbs
-/

open Matrix

namespace Meent

/-- The raster `u` with one more layer at the bottom, filled with a single material of index `n`. -/
def Spec.groundedRaster (u : Ucell) (n : ℂ) : Ucell := ⟨u.ny, u.nx, u.layers ++ [fun _ _ => n]⟩

/-- **C70.** Take a 1D grating in TE or TM, of transparent and absorbing layers in any order, on an absorbing substrate, whose layers
have a basis of modes and no mode at cut-off.  Put one more layer directly above the substrate, filled with the substrate material, of
any thickness `d > 0`.  On the PyTorch backend both problems are solved and every reflected amplitude and efficiency is the same; if no
layer of the grating absorbs, the transmitted power can only go down.  On NumPy and JAX this is false (`C07_absorbing_negation`). -/
theorem C70_torch_substrate_layer (la : LinAlg) (hb : Spec.ReturnsBasis la) (s : Settings) (u : Ucell) (hp : s.p.use_pinv = false)
    (ha : s.algo = .tmm) (hg : gratingType s = 0) (h : Spec.OrdinaryStack s u) (hnb : Spec.AbsorbingMedium s.p.n_bot)
    (hth : s.p.thickness.length = u.layers.length) (d : ℝ) (hd : 0 < d) :
    ∃ cs, convMats la s = .ok cs ∧ cs.length = u.layers.length ∧
      ((∀ c ∈ cs, Spec.LayerHasModes s c ∧ ¬ Spec.AtCutoff s c) →
        ∃ o o' : Out1D (2 * s.p.fto.1 + 1), tConv_solve la s.torch = .ok (.tetm o) ∧
          tConv_solve la (Spec.withStack s (.raster (Spec.groundedRaster u s.p.n_bot)) (s.p.thickness ++ [d])).torch = .ok (.tetm o') ∧
          Spec.SameRefl o.res o'.res ∧
          (Spec.AllTransparent u → ∑ j, ∑ i, o'.res.de_ti j i ≤ ∑ j, ∑ i, o.res.de_ti j i)) := by
  obtain ⟨u', hu, hny, hpol, hphi, hf⟩ := gratingType_zero hg
  obtain rfl : u' = u := by have := h.raster; rw [hu] at this; cases this; rfl
  have hn0 : s.p.n_bot ≠ 0 := by
    intro h0
    have := hnb.1
    rw [h0] at this
    simp at this
  set s' := Spec.withStack s (.raster (Spec.groundedRaster u' s.p.n_bot)) (s.p.thickness ++ [d]) with hs'
  have hgr : Spec.Grounded s.p.n_bot (.raster u') (.raster (Spec.groundedRaster u' s.p.n_bot)) :=
    .raster (by omega) h.columns u'.layers
  have hself : Spec.withStack s (.raster u') s.p.thickness = s := by
    have := h.raster
    obtain ⟨p, uc, ft, en, al⟩ := s
    simp only at this
    subst this
    rfl
  have hg' : gratingType s' = 0 := by
    have := gratingType_grounded (s := s) (th := s.p.thickness) (th' := s.p.thickness ++ [d]) hgr
    rw [hself] at this
    rw [← this, hg]
  have h' : Spec.OrdinaryStack s' (Spec.groundedRaster u' s.p.n_bot) :=
    { toRealIllumination := { h.toRealIllumination with }
      raster := rfl
      columns := h.columns
      coefficients := h.coefficients
      media := by
        intro l hl i j
        rcases List.mem_append.mp hl with hl | hl
        · exact h.media l hl i j
        · obtain rfl := List.mem_singleton.mp hl
          exact ⟨hnb.1, hnb.2.le⟩
      thickness_pos := by
        intro x hx
        rcases List.mem_append.mp hx with hx | hx
        · exact h.thickness_pos x hx
        · rw [List.mem_singleton] at hx
          rw [hx]; exact hd
      layers_enough := by simp [hs', Spec.groundedRaster, hth] }
  obtain ⟨cs', hcs', hlen'⟩ := ordinary_convMats la (s := s') hp h' hg'
  obtain ⟨pre, hpre, hplen, hcs⟩ := convMats_grounded (la := la) (s := s) (th := s.p.thickness) (th' := s.p.thickness ++ [d]) hn0
    h.period_x_pos.ne' h.period_y_pos.ne' hgr hcs'
  replace hcs := convMats_withStack_self h.raster hcs
  subst hpre
  refine ⟨pre, hcs, hplen, fun hm => ?_⟩
  have hm' : ∀ c ∈ (pre ++ [Spec.scalarConv s.p.fto.1 s.p.fto.2 s.p.n_bot]).take s'.p.thickness.length,
      Spec.LayerHasModes s' c ∧ ¬ Spec.AtCutoff s' c := by
    intro c hc
    rcases List.mem_append.mp (List.mem_of_mem_take hc) with hc | hc
    · have := hm c hc
      unfold Spec.LayerHasModes at this ⊢
      rw [hg] at this
      rw [hg']
      exact this
    · rw [List.mem_singleton] at hc
      subst hc
      refine ⟨film_modes hg' _, ?_⟩
      refine (C61_layers la s' _ hp hg' h' _ hcs' u'.layers.length (fun _ _ => s.p.n_bot) _ ?_ ?_).2
        ⟨⟨0, by change 0 < u'.ny; omega⟩, ⟨0, h.columns⟩, hnb⟩
      · exact List.getElem?_concat_length
      · have : pre.length = u'.layers.length := hplen
        rw [← this]
        simp
  have hmt : ∀ c ∈ pre.take s.p.thickness.length, Spec.LayerHasModes s c ∧ ¬ Spec.AtCutoff s c :=
    fun c hc => hm c (List.mem_of_mem_take hc)
  obtain ⟨r, x, hr, hx⟩ := stack_strict hb (s := s') hp h' hg' hnb hcs' hm'
  have hi := RealIncidence.of_spec h.toRealIllumination
  obtain ⟨o', ho', es', ec'⟩ := torch_of_strict (s := s') hp ha h'.toRealIllumination hg' hcs'
    (by
      have : pre.length = u'.layers.length := hplen
      simp [hs', hth, this]) hr hx
  have hz : ((pre ++ [Spec.scalarConv s.p.fto.1 s.p.fto.2 s.p.n_bot]).map Conv.row).zip s'.p.thickness
      = (pre.map Conv.row).zip s.p.thickness ++ [(scalarC _ s.p.n_bot, d)] := by
    rw [List.map_append, List.map_cons, List.map_nil, scalarConv_row]
    have : pre.length = u'.layers.length := hplen
    exact List.zip_append (by simp [this, hth])
  rw [hz] at hr
  obtain ⟨r', v, hr', he, e1, e2⟩ := run_grounded (hasModes_1d la hp _ _)
    (fun b hb' => tstep1d_substrate (p := s.p) hi hp hphi hpol hnb hb') hr
  obtain ⟨x1, hx1, es⟩ := transfer_1d_4_FG e1 e2 hx
  obtain ⟨x2, hx2, e⟩ := transfer_1d_4_equiv he hx1
  obtain ⟨o, ho, es2, ec2⟩ := torch_of_strict (s := s) hp ha h.toRealIllumination hg hcs
    (by
      have : pre.length = u'.layers.length := hplen
      simp [hth, this]) hr' hx2
  have hrefl : Spec.SameRefl o.res o'.res := by
    rw [e] at es2 ec2
    exact sameRefl_conj (σ := phaseConv (tKxVec s.p s.p.wavelength)) es es2 ec2 es' ec'
  refine ⟨o, o', ho, ho', hrefl, fun ht => ?_⟩
  obtain ⟨o2, h2, -, h3⟩ := stack_torch hb hp ha h hg ⟨hnb.1, hnb.2.le⟩ (.inl hnb.2) hcs hmt
  obtain ⟨o3, h4, h5, -⟩ := stack_torch hb (s := s') hp ha h' hg' ⟨hnb.1, hnb.2.le⟩ (.inl hnb.2) hcs' hm'
  obtain rfl : o2 = o := by rw [ho] at h2; cases h2; rfl
  obtain rfl : o3 = o' := by rw [ho'] at h4; cases h4; rfl
  have h6 := h3 ht
  have h7 := SameRefl.total hrefl
  exact le_of_add_le_add_left ((h7 ▸ h5).trans h6.ge)

/-- Two transparent films on an absorbing substrate, in TE and TM, at every number of orders: PyTorch reports the same reflection with
and without one more layer of the substrate material, of any thickness. -/
example (pol : ℝ) (hpol : pol = 0 ∨ pol = 1) (f : ℕ) (d : ℝ) (hd : 0 < d) : ∃ o o' : Out1D (2 * f + 1),
    tConv_solve exLA (stackSettings (Spec.homogeneousRaster 1 2 [2, 3]) (2 - Complex.I) pol f).torch = .ok (.tetm o) ∧
    tConv_solve exLA (Spec.withStack (stackSettings (Spec.homogeneousRaster 1 2 [2, 3]) (2 - Complex.I) pol f)
      (.raster (Spec.groundedRaster (Spec.homogeneousRaster 1 2 [2, 3]) (2 - Complex.I)))
      ((stackSettings (Spec.homogeneousRaster 1 2 [2, 3]) (2 - Complex.I) pol f).p.thickness ++ [d])).torch = .ok (.tetm o') ∧
    Spec.SameRefl o.res o'.res := by
  have hord := stackSettings_ordinary (Spec.homogeneousRaster 1 2 [2, 3]) (2 - Complex.I) pol f (by simp [Spec.homogeneousRaster])
    (by simp [Spec.homogeneousRaster]) (by
      intro l hl i j
      obtain ⟨n, hn, rfl⟩ := List.mem_map.mp hl
      simp only [List.mem_cons, List.not_mem_nil, or_false] at hn
      rcases hn with rfl | rfl <;> simp [Spec.OrdinaryMedium])
  have hg := stackSettings_type (u := Spec.homogeneousRaster 1 2 [2, 3]) (2 - Complex.I) hpol rfl f
  obtain ⟨cs, hcs, -, h⟩ := C70_torch_substrate_layer exLA exLA_basis _ (Spec.homogeneousRaster 1 2 [2, 3]) rfl rfl hg hord
    (by simp [stackSettings, Spec.AbsorbingMedium]) (by simp [stackSettings, Spec.homogeneousRaster]) d hd
  have e := films_convMats exLA hord (by simp) hcs
  obtain ⟨o, o', h1, h2, h3, -⟩ := h fun c hc => by
    rw [e] at hc
    obtain ⟨n, hn, rfl⟩ := List.mem_map.mp hc
    refine ⟨film_modes hg n, fun hcut => ?_⟩
    simp only [List.mem_cons, List.not_mem_nil, or_false] at hn
    rcases hn with rfl | rfl
    · obtain ⟨i, hi⟩ := film_cutoff two_ne_zero hcut
      have := stackSettings_kx (Spec.homogeneousRaster 1 2 [2, 3]) (2 - Complex.I) pol f 2 i
      exact this (by simpa using hi)
    · obtain ⟨i, hi⟩ := film_cutoff three_ne_zero hcut
      have := stackSettings_kx (Spec.homogeneousRaster 1 2 [2, 3]) (2 - Complex.I) pol f 3 i
      exact this (by simpa using hi)
  exact ⟨o, o', h1, h2, h3⟩

end Meent

#print axioms Meent.C70_torch_substrate_layer
