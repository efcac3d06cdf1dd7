import Verif.Lemmas.TorchOblique
import Verif.Props.C61

/-!
# C62: on PyTorch the reported powers account for all light that is not absorbed by the layers, also on absorbing substrates
-/

open Matrix

namespace Meent

/-- **C62, 1D gratings in TE and TM.** On the PyTorch backend, a grating of transparent and absorbing layers in any order, on an
absorbing substrate (or with some absorption in the lowest layer), is solved whenever the layers have a basis of modes and no mode
at cut-off.  Reflected and transmitted power never exceed the incident one, and they add up to it if no layer absorbs: the power
that enters an absorbing substrate is counted in full. -/
theorem C62_torch (la : LinAlg) (hb : Spec.ReturnsBasis la) (s : Settings) (u : Ucell) (hp : s.p.use_pinv = false) (ha : s.algo = .tmm)
    (hg : gratingType s = 0) (h : Spec.OrdinaryStack s u) (hnb : Spec.OrdinaryMedium s.p.n_bot)
    (hbot : Spec.AbsorbingMedium s.p.n_bot ∨ Spec.LowestAbsorbs s u) :
    ∃ cs, convMats la s = .ok cs ∧ cs.length = u.layers.length ∧
      ((∀ c ∈ cs.take s.p.thickness.length, Spec.LayerHasModes s c ∧ ¬ Spec.AtCutoff s c) →
        ∃ o, tConv_solve la s.torch = .ok (.tetm o) ∧
          ∑ j, ∑ i, o.res.de_ri j i + ∑ j, ∑ i, o.res.de_ti j i ≤ 1 ∧
          (Spec.AllTransparent u → ∑ j, ∑ i, o.res.de_ri j i + ∑ j, ∑ i, o.res.de_ti j i = 1)) := by
  obtain ⟨cs, hcs, hlen⟩ := ordinary_convMats la hp h hg
  exact ⟨cs, hcs, hlen, stack_torch hb hp ha h hg hnb (hbot.imp And.right id) hcs⟩

/-- **C62, films.** Uniform films on an absorbing substrate: PyTorch solves them at every number of orders, provided that no order
that is kept grazes in one of the transparent films, and the powers never add up to more than 1. -/
theorem C62_films (la : LinAlg) (hb : Spec.ReturnsBasis la) (s : Settings) (nx : ℕ) (ns : List ℂ) (hp : s.p.use_pinv = false)
    (ha : s.algo = .tmm) (hg : gratingType s = 0) (h : Spec.OrdinaryStack s (Spec.homogeneousRaster 1 nx ns))
    (hnb : Spec.AbsorbingMedium s.p.n_bot) (hgr : ∀ n ∈ ns, n.im = 0 → ∀ i, Spec.kxOf s.p i ^ 2 ≠ n ^ 2) :
    ∃ o, tConv_solve la s.torch = .ok (.tetm o) ∧
      ∑ j, ∑ i, o.res.de_ri j i + ∑ j, ∑ i, o.res.de_ti j i ≤ 1 ∧
      ((∀ n ∈ ns, n.im = 0) → ∑ j, ∑ i, o.res.de_ri j i + ∑ j, ∑ i, o.res.de_ti j i = 1) := by
  obtain ⟨cs, hcs, hlen, h2⟩ := C62_torch la hb s _ hp ha hg h ⟨hnb.1, hnb.2.le⟩ (Or.inl hnb)
  have hx : 0 < nx := h.columns
  have hm : ∀ n ∈ ns, Spec.OrdinaryMedium n := fun n hn => h.media (fun _ _ => n) (List.mem_map.mpr ⟨n, hn, rfl⟩) (0 : Fin 1) ⟨0, hx⟩
  have hn : ∀ n ∈ ns, n ≠ 0 := by
    rintro n hn rfl
    have := (hm 0 hn).1
    simp at this
  have e := films_convMats la h hn hcs
  obtain ⟨o, h3, h4, h5⟩ := h2 fun c hc => by
    have hc' := List.mem_of_mem_take hc
    rw [e] at hc'
    obtain ⟨n, hmn, rfl⟩ := List.mem_map.mp hc'
    refine ⟨film_modes hg n, fun hcut => ?_⟩
    by_cases him : n.im = 0
    · obtain ⟨i, hi⟩ := film_cutoff (hn n hmn) hcut
      exact hgr n hmn him i hi
    · obtain ⟨k, hk⟩ := List.mem_iff_getElem?.mp hmn
      refine (C61_layers la s _ hp hg h cs hcs k (fun _ _ => n) _ ?_ ?_).2 ⟨(0 : Fin 1), ⟨0, hx⟩, (hm n hmn).1,
        lt_of_le_of_ne (hm n hmn).2 him⟩ hcut
      · show (ns.map fun n (_ : Fin 1) (_ : Fin nx) => n)[k]? = _
        rw [List.getElem?_map, hk]
        rfl
      · rw [e]; simp [hk]
  refine ⟨o, h3, h4, fun ht => h5 fun l hl i j => ?_⟩
  obtain ⟨n, hmn, rfl⟩ := List.mem_map.mp hl
  exact ⟨(hm n hmn).1, ht n hmn⟩

/-- Two transparent films on an absorbing substrate, in TE and TM: PyTorch accounts for all of the light, at every number of
orders. -/
example (pol : ℝ) (hpol : pol = 0 ∨ pol = 1) (f : ℕ) : ∃ o, tConv_solve exLA
    (stackSettings (Spec.homogeneousRaster 1 2 [2, 3]) (2 - Complex.I) pol f).torch = .ok (.tetm o) ∧
      ∑ j, ∑ i, o.res.de_ri j i + ∑ j, ∑ i, o.res.de_ti j i = 1 := by
  obtain ⟨o, h1, -, h2⟩ := C62_films exLA exLA_basis _ 2 [2, 3] rfl rfl (stackSettings_type (2 - Complex.I) hpol rfl f)
    (stackSettings_ordinary _ _ _ _ (by simp [Spec.homogeneousRaster]) (by simp [Spec.homogeneousRaster]) (by
      intro l hl i j
      obtain ⟨n, hn, rfl⟩ := List.mem_map.mp hl
      simp only [List.mem_cons, List.not_mem_nil, or_false] at hn
      rcases hn with rfl | rfl <;> simp [Spec.OrdinaryMedium])) (by simp [stackSettings, Spec.AbsorbingMedium]) (by
      intro n hn him i
      simp only [List.mem_cons, List.not_mem_nil, or_false] at hn
      rcases hn with rfl | rfl
      · have := stackSettings_kx (Spec.homogeneousRaster 1 2 [2, 3]) (2 - Complex.I) pol f 2 i
        simpa using this
      · have := stackSettings_kx (Spec.homogeneousRaster 1 2 [2, 3]) (2 - Complex.I) pol f 3 i
        simpa using this)
  exact ⟨o, h1, h2 (by simp)⟩

/-- **C62 fails for conical and 2D calculations.** p-polarised light at 30 degrees on a bare absorbing substrate, for every
absorbing index: nothing but the substrate can take up power, yet the reported powers add up to less than 1, because the
transmitted one is computed as `|T / n|² Re kz` and not as `|T|² Re (kz / n²)`. -/
theorem C62_conical_negation (la : LinAlg) (nb : ℂ) (hnb : Spec.AbsorbingMedium nb) :
    ∃ o, tConv_solve la (bareSettings nb 1 (some (Real.pi : ℝ))).torch = .ok (.conical o) ∧
      ∑ j, ∑ i, o.out.res.de_ri j i + ∑ j, ∑ i, o.out.res.de_ti j i < 1 :=
  bare_oblique la nb hnb.1 hnb.2

/-- The same light on the same surface, as a 1D calculation in TM, is accounted for in full.  (Without layers the kind of Fourier
coefficients plays no part.) -/
theorem C62_tm (la : LinAlg) (hb : Spec.ReturnsBasis la) (nb : ℂ) (hnb : Spec.AbsorbingMedium nb) :
    ∃ o, tConv_solve la { bareSettings nb 1 none with fourier_type := 1 }.torch = .ok (.tetm o) ∧
      ∑ j, ∑ i, o.res.de_ri j i + ∑ j, ∑ i, o.res.de_ti j i = 1 := by
  have hg : gratingType { bareSettings nb 1 none with fourier_type := 1 } = 0 := by simp [gratingType, bareSettings]
  have h : Spec.OrdinaryStack { bareSettings nb 1 none with fourier_type := 1 } ⟨1, 1, []⟩ :=
    { toRealIllumination := bareSettings_illumination nb 1 none (by simp)
      raster := rfl
      columns := one_pos
      coefficients := Or.inl rfl
      media := by simp
      thickness_pos := by simp [bareSettings]
      layers_enough := by simp [bareSettings] }
  obtain ⟨cs, hcs, hlen, h2⟩ := C62_torch la hb _ _ rfl rfl hg h ⟨hnb.1, hnb.2.le⟩ (Or.inl hnb)
  obtain ⟨o, h3, -, h5⟩ := h2 fun c hc => absurd (show c ∈ List.take 0 cs from hc) (by rw [List.take_zero]; exact List.not_mem_nil)
  exact ⟨o, h3, h5 (by simp [Spec.AllTransparent])⟩

#print axioms C62_torch
#print axioms C62_films
#print axioms C62_conical_negation
#print axioms C62_tm

end Meent
