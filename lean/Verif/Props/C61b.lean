import Verif.Lemmas.StackSpec2D
import Verif.Props.C61

/-!
# C61 in the conical and 2D formulations
-/

open Matrix

namespace Meent

/-- **C61, conical.** Take a one-row grating in the conical formulation whose layers are made of transparent and absorbing media, in
any order, on a lossless substrate, with some absorption in the lowest layer or with every order that is kept propagating in the
substrate.  No order is along the surface normal.  With an eigensolver that returns a basis of eigenvectors whenever there is one,
the calculation succeeds exactly if every layer that is used has a basis of modes and none of the four matrices of
`Spec.AtCutoffConical` annihilates a field. -/
theorem C61_conical (la : LinAlg) (hb : Spec.ReturnsBasis la) (s : Settings) (u : Ucell) (hp : s.p.use_pinv = false) (ha : s.algo = .tmm)
    (hg : gratingType s = 1) (hf : s.p.fto.2 = 0) (h : Spec.OrdinaryStack s u) (hnb : Spec.IsReal s.p.n_bot)
    (hnn : ¬ Spec.SomeAlongNormal s.p) (hlow : Spec.LowestAbsorbs s u ∨ Spec.AllEscape2D s) :
    ∃ cs, convMats la s = .ok cs ∧ cs.length = u.layers.length ∧
      ((∃ sol, conv_solve la s = .ok sol) ↔
        ∀ c ∈ cs.take s.p.thickness.length, Spec.LayerHasModes s c ∧ ¬ Spec.AtCutoffConical s c) := by
  obtain ⟨u', hu, hny, -⟩ := gratingType_one hg
  obtain rfl : u' = u := by have := h.raster; rw [hu] at this; cases this; rfl
  obtain ⟨cs, hcs, hlen⟩ := C55_ordinary la s u' h.raster (by omega) h.columns
    (by rcases h.coefficients with h | ⟨h, -⟩ <;> simp [h]) hp h.media
  refine ⟨cs, hcs, hlen, ?_, fun hm => ?_⟩
  · rintro ⟨sol, hs⟩ c hc
    exact ⟨solves_modes hp ha h.toRealIllumination hcs hs c hc, solves_cutoffCon hp ha h.toRealIllumination hg hcs hs c hc⟩
  · obtain ⟨o, ho⟩ := stack_con hb hp ha h hg hf hnb hnn hlow hcs hm
    exact ⟨_, ho⟩

/-- **C61, 2D.** The same in the 2D formulation.  A calculation that succeeds has a basis of modes and no mode at cut-off in every
layer that is used; and it succeeds if, besides, none of the layers has a backward wave. -/
theorem C61_2d (la : LinAlg) (hb : Spec.ReturnsBasis la) (s : Settings) (u : Ucell) (hp : s.p.use_pinv = false) (ha : s.algo = .tmm)
    (hg : gratingType s = 2) (hny : 0 < u.ny) (h : Spec.OrdinaryStack s u) (hnb : Spec.IsReal s.p.n_bot)
    (hnn : ¬ Spec.SomeAlongNormal s.p) (hlow : Spec.LowestAbsorbs s u ∨ Spec.AllEscape2D s) :
    ∃ cs, convMats la s = .ok cs ∧ cs.length = u.layers.length ∧
      ((∃ sol, conv_solve la s = .ok sol) →
        ∀ c ∈ cs.take s.p.thickness.length, Spec.LayerHasModes s c ∧ ¬ Spec.AtCutoff2D s c) ∧
      ((∀ c ∈ cs.take s.p.thickness.length, Spec.LayerHasModes s c ∧ ¬ Spec.AtCutoff2D s c ∧ ¬ Spec.BackwardMode s c) →
        ∃ sol, conv_solve la s = .ok sol) := by
  obtain ⟨cs, hcs, hlen⟩ := C55_ordinary la s u h.raster hny h.columns
    (by rcases h.coefficients with h | ⟨h, -⟩ <;> simp [h]) hp h.media
  refine ⟨cs, hcs, hlen, ?_, fun hm => ?_⟩
  · rintro ⟨sol, hs⟩ c hc
    exact ⟨solves_modes hp ha h.toRealIllumination hcs hs c hc, solves_cutoff2D hp h.toRealIllumination hg hcs hs c hc⟩
  · obtain ⟨o, ho⟩ := stack_2d hb hp ha h hny hg hnb hnn hlow hcs hm
    exact ⟨_, ho⟩

/-- **C61, layer by layer.** In the conical formulation transparent layers always have a basis of modes.  Layers that absorb somewhere
are never at cut-off, in the conical and in the 2D formulation, and never have a backward wave. -/
theorem C61_layers_2d (la : LinAlg) (s : Settings) (u : Ucell) (hp : s.p.use_pinv = false) (hny : 0 < u.ny)
    (h : Spec.OrdinaryStack s u) (cs : List (Conv (FlatIdx s.p.fto.1 s.p.fto.2))) (hcs : convMats la s = .ok cs)
    (k : ℕ) (l : Fin u.ny → Fin u.nx → ℂ) (c : Conv (FlatIdx s.p.fto.1 s.p.fto.2)) (hl : u.layers[k]? = some l) (hc : cs[k]? = some c) :
    (gratingType s = 1 → s.p.fto.2 = 0 → (∀ i j, Spec.TransparentMedium (l i j)) → Spec.LayerHasModes s c) ∧
    ((∃ i j, Spec.AbsorbingMedium (l i j)) →
      (s.p.fto.2 = 0 → ¬ Spec.AtCutoffConical s c) ∧ ¬ Spec.AtCutoff2D s c ∧ ¬ Spec.BackwardMode s c) := by
  obtain ⟨l', hl', h1, h2⟩ := convMats_class hp h hny hcs hc
  obtain rfl : l' = l := by rw [hl] at hl'; cases hl'; rfl
  exact ⟨fun hg hf ht => clear_modes_con h.toRealIllumination hg hf (h2 ht), fun hab =>
    ⟨fun hf => side_cutoffCon h.toRealIllumination hf (h1 hab), side_cutoff2D h.toRealIllumination (h1 hab),
      side_backward h.toRealIllumination (h1 hab)⟩⟩

theorem films_convMats2 (la : LinAlg) {s : Settings} {ny nx : ℕ} {ns : List ℂ} (hny : 0 < ny)
    (h : Spec.OrdinaryStack s (Spec.homogeneousRaster ny nx ns))
    (hn : ∀ n ∈ ns, n ≠ 0) {cs : List (Conv (FlatIdx s.p.fto.1 s.p.fto.2))} (hcs : convMats la s = .ok cs) :
    cs = ns.map (Spec.scalarConv s.p.fto.1 s.p.fto.2) := by
  have hx : 0 < nx := h.columns
  unfold convMats at hcs
  rw [h.raster] at hcs
  rcases h.coefficients with h1 | ⟨h1, -⟩
  · simp only [h1, one_ne_zero, if_false, if_true] at hcs
    rw [C18_homogeneous_continuous la ny nx hny hx ns hn] at hcs
    exact (Except.ok.inj hcs).symm
  · simp only [h1, if_true] at hcs
    rw [C18_homogeneous_discrete la ny nx hny hx ns hn] at hcs
    exact (Except.ok.inj hcs).symm

theorem films_media {s : Settings} {ny nx : ℕ} {ns : List ℂ} (hny : 0 < ny) (h : Spec.OrdinaryStack s (Spec.homogeneousRaster ny nx ns)) :
    ∀ n ∈ ns, Spec.OrdinaryMedium n ∧ n ≠ 0 := by
  intro n hn
  have hx : 0 < nx := h.columns
  have hm : Spec.OrdinaryMedium n := h.media (fun _ _ => n) (List.mem_map.mpr ⟨n, hn, rfl⟩) (⟨0, hny⟩ : Fin ny) ⟨0, hx⟩
  refine ⟨hm, ?_⟩
  rintro rfl
  simpa using hm.1

theorem films_absorb (la : LinAlg) {s : Settings} {ny nx : ℕ} {ns : List ℂ} (hny : 0 < ny) (hp : s.p.use_pinv = false)
    (h : Spec.OrdinaryStack s (Spec.homogeneousRaster ny nx ns)) {cs : List (Conv (FlatIdx s.p.fto.1 s.p.fto.2))} (hcs : convMats la s = .ok cs)
    {n : ℂ} (hmn : n ∈ ns) (him : n.im ≠ 0) :
    (s.p.fto.2 = 0 → ¬ Spec.AtCutoffConical s (Spec.scalarConv s.p.fto.1 s.p.fto.2 n)) ∧
      ¬ Spec.AtCutoff2D s (Spec.scalarConv s.p.fto.1 s.p.fto.2 n) ∧ ¬ Spec.BackwardMode s (Spec.scalarConv s.p.fto.1 s.p.fto.2 n) := by
  have hx : 0 < nx := h.columns
  have hm := films_media hny h
  have e := films_convMats2 la hny h (fun n hn => (hm n hn).2) hcs
  obtain ⟨k, hk⟩ := List.mem_iff_getElem?.mp hmn
  refine (C61_layers_2d la s _ hp hny h cs hcs k (fun _ _ => n) _ ?_ ?_).2 ⟨(⟨0, hny⟩ : Fin ny), ⟨0, hx⟩, (hm n hmn).1.1,
    lt_of_le_of_ne (hm n hmn).1.2 him⟩
  · show (ns.map fun n (_ : Fin ny) (_ : Fin nx) => n)[k]? = _
    rw [List.getElem?_map, hk]
    rfl
  · rw [e]; simp [hk]

/-- **C61, conical films.** A stack of uniform films, the lowest of which absorbs or below which every order propagates, can be solved
in the conical formulation at every number of orders, provided that in none of the transparent films an order that is kept grazes,
or has an x component as large as the wavenumber of the film. -/
theorem C61_films_conical (la : LinAlg) (hb : Spec.ReturnsBasis la) (s : Settings) (nx : ℕ) (ns : List ℂ) (hp : s.p.use_pinv = false)
    (ha : s.algo = .tmm) (hg : gratingType s = 1) (hf : s.p.fto.2 = 0) (h : Spec.OrdinaryStack s (Spec.homogeneousRaster 1 nx ns))
    (hnb : Spec.IsReal s.p.n_bot) (hnn : ¬ Spec.SomeAlongNormal s.p)
    (hlow : Spec.LowestAbsorbs s (Spec.homogeneousRaster 1 nx ns) ∨ Spec.AllEscape2D s)
    (hgr : ∀ n ∈ ns, n.im = 0 → ∀ i, Spec.kxOf s.p i ^ 2 ≠ n ^ 2 ∧ Spec.kxOf s.p i ^ 2 + Spec.kyOf s.p i ^ 2 ≠ n ^ 2) :
    ∃ sol, conv_solve la s = .ok sol := by
  obtain ⟨cs, hcs, -, h2⟩ := C61_conical la hb s _ hp ha hg hf h hnb hnn hlow
  have hm := films_media one_pos h
  have e := films_convMats2 la one_pos h (fun n hn => (hm n hn).2) hcs
  refine h2.mpr fun c hc => ?_
  have hc' := List.mem_of_mem_take hc
  rw [e] at hc'
  obtain ⟨n, hmn, rfl⟩ := List.mem_map.mp hc'
  refine ⟨scalar_modes (hm n hmn).2, ?_⟩
  by_cases him : n.im = 0
  · rw [film_cutoffCon (hm n hmn).2]
    rintro ⟨i, hi | hi⟩
    · exact (hgr n hmn him i).1 hi
    · exact (hgr n hmn him i).2 hi
  · exact (films_absorb la one_pos hp h hcs hmn him).1 hf

/-- **C61, 2D films.** A stack of uniform films, the lowest of which absorbs or below which every order propagates, can be solved
in the 2D formulation at every number of orders, provided that no order that is kept grazes in one of the transparent films. -/
theorem C61_films_2d (la : LinAlg) (hb : Spec.ReturnsBasis la) (s : Settings) (ny nx : ℕ) (ns : List ℂ) (hny : 0 < ny) (hp : s.p.use_pinv = false)
    (ha : s.algo = .tmm) (hg : gratingType s = 2) (h : Spec.OrdinaryStack s (Spec.homogeneousRaster ny nx ns))
    (hnb : Spec.IsReal s.p.n_bot) (hnn : ¬ Spec.SomeAlongNormal s.p)
    (hlow : Spec.LowestAbsorbs s (Spec.homogeneousRaster ny nx ns) ∨ Spec.AllEscape2D s)
    (hgr : ∀ n ∈ ns, n.im = 0 → ∀ i, Spec.kxOf s.p i ^ 2 + Spec.kyOf s.p i ^ 2 ≠ n ^ 2) :
    ∃ sol, conv_solve la s = .ok sol := by
  obtain ⟨cs, hcs, -, -, h2⟩ := C61_2d la hb s _ hp ha hg hny h hnb hnn hlow
  have hm := films_media hny h
  have e := films_convMats2 la hny h (fun n hn => (hm n hn).2) hcs
  refine h2 fun c hc => ?_
  have hc' := List.mem_of_mem_take hc
  rw [e] at hc'
  obtain ⟨n, hmn, rfl⟩ := List.mem_map.mp hc'
  refine ⟨scalar_modes (hm n hmn).2, ?_⟩
  by_cases him : n.im = 0
  · refine ⟨fun hcut => ?_, film_forward h.toRealIllumination (hm n hmn).2 him⟩
    obtain ⟨i, hi⟩ := film_cutoff2D (hm n hmn).2 hcut
    exact hgr n hmn him i hi
  · exact (films_absorb la hny hp h hcs hmn him).2

/-! ### Examples -/

/-- Example: two layers, `(2 f + 1) (2 g + 1)` orders, azimuth zero, in vacuum. -/
noncomputable def azimuthSettings (u : Ucell) (f g : ℕ) : Settings where
  p := { exParams 0 (some 0) with fto := (f, g), thickness := [1 / 3, 1 / 2] }
  ucell := .raster u
  fourier_type := 1
  enhanced_dfs := true
  algo := .tmm

theorem azimuth_ordinary (u : Ucell) (f g : ℕ) (hx : 0 < u.nx) (hl : 2 ≤ u.layers.length)
    (hm : ∀ l ∈ u.layers, ∀ i j, Spec.OrdinaryMedium (l i j)) : Spec.OrdinaryStack (azimuthSettings u f g) u where
  toRealIllumination := by
    have h := lossy_illumination 0 (some 0) (by intro φ h; cases h; rfl) f g
    exact ⟨h.n_top_real, h.n_top_pos, h.theta_real, h.theta_lo, h.theta_hi, h.phi_real, h.psi_real, h.wavelength_pos, h.period_x_pos,
      h.period_y_pos⟩
  raster := rfl
  columns := hx
  coefficients := Or.inl rfl
  media := hm
  thickness_pos := by
    intro d hd
    simp only [azimuthSettings, List.mem_cons, List.not_mem_nil, or_false] at hd
    rcases hd with rfl | rfl <;> norm_num
  layers_enough := hl

theorem azimuth_not_normal (u : Ucell) (f g : ℕ) : ¬ Spec.SomeAlongNormal (azimuthSettings u f g).p := by
  rintro ⟨m, k, h1, h2, h3⟩
  exact lossy_not_normal 0 f g ⟨m, k, h1, h2, h3⟩

/-- The squares of the wavenumbers of the example are integers plus one quarter. -/
theorem azimuth_k (u : Ucell) (f g : ℕ) (i) : ∃ m k : ℤ, Spec.kxOf (azimuthSettings u f g).p i ^ 2 = ((m : ℝ) + 1 / 4 : ℝ) ∧
    Spec.kxOf (azimuthSettings u f g).p i ^ 2 + Spec.kyOf (azimuthSettings u f g).p i ^ 2 = ((k : ℝ) + 1 / 4 : ℝ) := by
  unfold Spec.kxOf Spec.kyOf
  simp only [azimuthSettings, exParams, Option.getD_some, Complex.cos_zero, Complex.sin_zero]
  rw [← Complex.ofReal_sin, Real.sin_pi_div_six]
  generalize ((i.val % (2 * f + 1) : ℕ) - (f : ℤ) : ℤ) = m
  generalize ((i.val / (2 * f + 1) : ℕ) - (g : ℤ) : ℤ) = k
  refine ⟨m + m ^ 2, m + m ^ 2 + k ^ 2, ?_, ?_⟩
  · push_cast; ring
  · push_cast; ring

theorem azimuth_graze (u : Ucell) (f g : ℕ) (n : ℤ) (i) : Spec.kxOf (azimuthSettings u f g).p i ^ 2 ≠ (n : ℂ) ^ 2 ∧
    Spec.kxOf (azimuthSettings u f g).p i ^ 2 + Spec.kyOf (azimuthSettings u f g).p i ^ 2 ≠ (n : ℂ) ^ 2 := by
  obtain ⟨m, k, h1, h2⟩ := azimuth_k u f g i
  rw [h2, h1]
  have key : ∀ m : ℤ, (((m : ℝ) + 1 / 4 : ℝ) : ℂ) ≠ (n : ℂ) ^ 2 := by
    intro m h
    have h3 : ((m : ℝ) + 1 / 4 : ℝ) = (n : ℝ) ^ 2 := by
      have : (((m : ℝ) + 1 / 4 : ℝ) : ℂ) = (((n : ℝ) ^ 2 : ℝ) : ℂ) := by rw [h]; push_cast; rfl
      exact_mod_cast this
    have h4 : 4 * m + 1 = 4 * n ^ 2 := by
      have : (4 * m + 1 : ℝ) = 4 * (n : ℝ) ^ 2 := by linarith
      exact_mod_cast this
    omega
  exact ⟨key m, key k⟩

theorem azimuth_media : ∀ l ∈ (Spec.homogeneousRaster 2 2 [2, 2 - Complex.I]).layers, ∀ i j, Spec.OrdinaryMedium (l i j) := by
  intro l hl i j
  obtain ⟨n, hn, rfl⟩ := List.mem_map.mp hl
  simp only [List.mem_cons, List.not_mem_nil, or_false] at hn
  rcases hn with rfl | rfl <;> simp [Spec.OrdinaryMedium]

/-- A transparent film of index 2 on an absorbing one, in the 2D formulation, solved at every pair of numbers of orders. -/
example (f g : ℕ) : ∃ sol, conv_solve exLA (azimuthSettings (Spec.homogeneousRaster 2 2 [2, 2 - Complex.I]) f g) = .ok sol := by
  refine C61_films_2d exLA exLA_basis _ 2 2 [2, 2 - Complex.I] (by norm_num) rfl rfl (by simp [gratingType, azimuthSettings, Spec.homogeneousRaster])
    (azimuth_ordinary _ _ _ (by simp [Spec.homogeneousRaster]) (by simp [Spec.homogeneousRaster]) azimuth_media)
    (by simp [azimuthSettings, exParams, Spec.IsReal]) (azimuth_not_normal _ _ _)
    (Or.inl ⟨fun _ _ => 2 - Complex.I, by simp [azimuthSettings, Spec.homogeneousRaster], (0 : Fin 2), (0 : Fin 2), by simp [Spec.AbsorbingMedium]⟩) ?_
  intro n hn him i
  simp only [List.mem_cons, List.not_mem_nil, or_false] at hn
  rcases hn with rfl | rfl
  · simpa using (azimuth_graze (Spec.homogeneousRaster 2 2 [2, 2 - Complex.I]) f g 2 i).2
  · simp at him

/-- The same films in the conical formulation. -/
example (f : ℕ) : ∃ sol, conv_solve exLA (azimuthSettings (Spec.homogeneousRaster 1 2 [2, 2 - Complex.I]) f 0) = .ok sol := by
  refine C61_films_conical exLA exLA_basis _ 2 [2, 2 - Complex.I] rfl rfl (by simp [gratingType, azimuthSettings, Spec.homogeneousRaster, exParams]) rfl
    (azimuth_ordinary _ _ _ (by simp [Spec.homogeneousRaster]) (by simp [Spec.homogeneousRaster]) ?_)
    (by simp [azimuthSettings, exParams, Spec.IsReal]) (azimuth_not_normal _ _ _)
    (Or.inl ⟨fun _ _ => 2 - Complex.I, by simp [azimuthSettings, Spec.homogeneousRaster], (0 : Fin 1), (0 : Fin 2), by simp [Spec.AbsorbingMedium]⟩) ?_
  · intro l hl i j
    obtain ⟨n, hn, rfl⟩ := List.mem_map.mp hl
    simp only [List.mem_cons, List.not_mem_nil, or_false] at hn
    rcases hn with rfl | rfl <;> simp [Spec.OrdinaryMedium]
  · intro n hn him i
    simp only [List.mem_cons, List.not_mem_nil, or_false] at hn
    rcases hn with rfl | rfl
    · simpa using azimuth_graze (Spec.homogeneousRaster 1 2 [2, 2 - Complex.I]) f 0 2 i
    · simp at him

/-- A transparent grating of two media on an absorbing one, in one row, meets the hypotheses of `C61_conical`. -/
example (f : ℕ) : ∃ cs, convMats exLA (azimuthSettings
    ⟨1, 2, [fun _ j => if j = 0 then 1 else 2, fun _ j => if j = 0 then 1 else 2 - Complex.I]⟩ f 0) = .ok cs ∧ cs.length = 2 := by
  obtain ⟨cs, h1, h2, -⟩ := C61_conical exLA exLA_basis (azimuthSettings
    ⟨1, 2, [fun _ j => if j = 0 then 1 else 2, fun _ j => if j = 0 then 1 else 2 - Complex.I]⟩ f 0) _ rfl rfl
    (by simp [gratingType, azimuthSettings, exParams]) rfl (azimuth_ordinary _ _ _ (by simp) (by simp) (by
      intro l hl i j
      simp only [List.mem_cons, List.not_mem_nil, or_false] at hl
      rcases hl with rfl | rfl
      · simp only [Spec.OrdinaryMedium]; split <;> simp
      · simp only [Spec.OrdinaryMedium]; split <;> simp)) (by simp [azimuthSettings, exParams, Spec.IsReal]) (azimuth_not_normal _ _ _)
    (Or.inl ⟨_, by simp [azimuthSettings]; rfl, 0, (1 : Fin 2), by simp [Spec.AbsorbingMedium]⟩)
  exact ⟨cs, h1, h2⟩

/-- Two rows: a transparent grating of two media on an absorbing one meets the hypotheses of `C61_2d`. -/
example (f g : ℕ) : ∃ cs, convMats exLA (azimuthSettings
    ⟨2, 2, [fun i j => if i = j then 1 else 2, fun _ j => if j = 0 then 1 else 2 - Complex.I]⟩ f g) = .ok cs ∧ cs.length = 2 := by
  obtain ⟨cs, h1, h2, -⟩ := C61_2d exLA exLA_basis (azimuthSettings
    ⟨2, 2, [fun i j => if i = j then 1 else 2, fun _ j => if j = 0 then 1 else 2 - Complex.I]⟩ f g) _ rfl rfl
    (by simp [gratingType, azimuthSettings, exParams]) (by norm_num) (azimuth_ordinary _ _ _ (by simp) (by simp) (by
      intro l hl i j
      simp only [List.mem_cons, List.not_mem_nil, or_false] at hl
      rcases hl with rfl | rfl
      · simp only [Spec.OrdinaryMedium]; split <;> simp
      · simp only [Spec.OrdinaryMedium]; split <;> simp)) (by simp [azimuthSettings, exParams, Spec.IsReal]) (azimuth_not_normal _ _ _)
    (Or.inl ⟨_, by simp [azimuthSettings]; rfl, (0 : Fin 2), (1 : Fin 2), by simp [Spec.AbsorbingMedium]⟩)
  exact ⟨cs, h1, h2⟩

/-! ### A film that only the conical formulation cannot solve -/

/-- A film of index 5/4 on a substrate of index 3, three orders, azimuth 60 degrees, described with `rows` rows of pixels. -/
noncomputable def tiltedSettings (rows : ℕ) : Settings where
  p := { exParams 0 (some ((Real.pi / 3 : ℝ) : ℂ)) with fto := (1, 0), n_bot := 3 }
  ucell := .raster (Spec.homogeneousRaster rows 2 [5 / 4])
  fourier_type := 1
  enhanced_dfs := true
  algo := .tmm

theorem tilted_ordinary (rows : ℕ) : Spec.OrdinaryStack (tiltedSettings rows) (Spec.homogeneousRaster rows 2 [5 / 4]) where
  toRealIllumination := by
    have h := lossy_illumination 0 (some ((Real.pi / 3 : ℝ) : ℂ)) (by intro φ h; cases h; exact Complex.ofReal_im _) 1 0
    exact ⟨h.n_top_real, h.n_top_pos, h.theta_real, h.theta_lo, h.theta_hi, h.phi_real, h.psi_real, h.wavelength_pos, h.period_x_pos,
      h.period_y_pos⟩
  raster := rfl
  columns := by simp [Spec.homogeneousRaster]
  coefficients := Or.inl rfl
  media := by
    intro l hl i j
    obtain ⟨n, hn, rfl⟩ := List.mem_map.mp hl
    obtain rfl := List.mem_singleton.mp hn
    constructor <;> norm_num
  thickness_pos := by
    intro d hd
    obtain rfl : d = 1 / 3 := by simpa [tiltedSettings, exParams] using hd
    norm_num
  layers_enough := by simp [tiltedSettings, exParams, Spec.homogeneousRaster]

theorem tilted_k (rows : ℕ) (i) : Spec.kxOf (tiltedSettings rows).p i = (((i.val : ℝ) - 3 / 4 : ℝ) : ℂ) ∧
    Spec.kyOf (tiltedSettings rows).p i ^ 2 = ((3 / 16 : ℝ) : ℂ) := by
  have hi : i.val < 3 := by have := i.isLt; simpa [tiltedSettings] using this
  unfold Spec.kxOf Spec.kyOf
  simp only [tiltedSettings, exParams, Option.getD_some]
  rw [← Complex.ofReal_sin, Real.sin_pi_div_six, ← Complex.ofReal_sin, ← Complex.ofReal_cos, Real.sin_pi_div_three, Real.cos_pi_div_three]
  rw [show i.val % (2 * 1 + 1) = i.val by omega, show i.val / (2 * 1 + 1) = 0 by omega]
  constructor
  · push_cast; ring
  · push_cast
    have h3 : ((Real.sqrt 3 : ℝ) : ℂ) ^ 2 = 3 := by
      rw [← Complex.ofReal_pow, Real.sq_sqrt (by norm_num)]; norm_num
    linear_combination (1 / 16 : ℂ) * h3

theorem tilted_graze (rows : ℕ) (i) : Spec.kxOf (tiltedSettings rows).p i ^ 2 + Spec.kyOf (tiltedSettings rows).p i ^ 2 ≠ (5 / 4 : ℂ) ^ 2 := by
  have hi : i.val < 3 := by have := i.isLt; simpa [tiltedSettings] using this
  obtain ⟨h1, h2⟩ := tilted_k rows i
  rw [h1, h2]
  intro h
  have h3 : ((i.val : ℝ) - 3 / 4) ^ 2 + 3 / 16 = (5 / 4) ^ 2 := by
    have : ((((i.val : ℝ) - 3 / 4) ^ 2 + 3 / 16 : ℝ) : ℂ) = (((5 / 4) ^ 2 : ℝ) : ℂ) := by
      push_cast at h ⊢
      linear_combination h
    exact_mod_cast this
  interval_cases i.val <;> norm_num at h3

/-- **C61, what is not a cut-off.** The conical formulation also fails where no mode of a layer is at cut-off: whenever the x component of
an order is as large as the wavenumber of a transparent film.  A film of index 5/4 at an azimuth of 60 degrees, on a substrate into
which every order escapes, fails with every eigensolver if it is described by one row of pixels.  No order grazes in the film, and the
same film described by two rows is solved with every eigensolver that returns a basis. -/
theorem C61_conical_negation :
    (∀ rows i, Spec.kxOf (tiltedSettings rows).p i ^ 2 + Spec.kyOf (tiltedSettings rows).p i ^ 2 ≠ (5 / 4 : ℂ) ^ 2) ∧
    (∀ la sol, conv_solve la (tiltedSettings 1) ≠ .ok sol) ∧
    ∀ la, Spec.ReturnsBasis la → ∃ sol, conv_solve la (tiltedSettings 2) = .ok sol := by
  refine ⟨tilted_graze, fun la sol hs => ?_, fun la hb => ?_⟩
  · have ho := tilted_ordinary 1
    have hg : gratingType (tiltedSettings 1) = 1 := by simp [gratingType, tiltedSettings, Spec.homogeneousRaster, exParams]
    obtain ⟨cs, hcs, -⟩ := conv_solve_ok.mp hs
    have e := films_convMats2 la one_pos ho (by simp) hcs
    refine solves_cutoffCon rfl rfl ho.toRealIllumination hg hcs hs (Spec.scalarConv (tiltedSettings 1).p.fto.1 (tiltedSettings 1).p.fto.2 (5 / 4))
      (by rw [e]; exact List.mem_singleton.mpr rfl) ?_
    have h2 := (tilted_k 1 ⟨2, by simp [tiltedSettings]⟩).1
    refine (film_cutoffCon (s := tiltedSettings 1) (n := 5 / 4) (by norm_num)).mpr ⟨⟨2, by simp [tiltedSettings]⟩, Or.inl ?_⟩
    rw [h2]
    push_cast
    norm_num
  · refine C61_films_2d la hb _ 2 2 [5 / 4] (by norm_num) rfl rfl (by simp [gratingType, tiltedSettings, Spec.homogeneousRaster])
      (tilted_ordinary 2) (by simp [tiltedSettings, Spec.IsReal]) ?_ (Or.inr ?_) ?_
    · rintro ⟨m, k, -, -, h⟩
      have h1 := h.1
      simp only [tiltedSettings, exParams, Option.getD_some] at h1
      rw [← Complex.ofReal_sin, Real.sin_pi_div_six, ← Complex.ofReal_cos, Real.cos_pi_div_three] at h1
      have h2 : (1 / 4 + m : ℝ) = 0 := by
        have : ((1 / 4 + m : ℝ) : ℂ) = ((0 : ℝ) : ℂ) := by
          push_cast at h1 ⊢
          linear_combination h1
        exact_mod_cast this
      have h3 : 4 * m + 1 = 0 := by
        have : (4 * m + 1 : ℝ) = 0 := by linarith
        exact_mod_cast this
      omega
    · intro i j
      have hi : i.val < 3 := by have := i.isLt; simpa [tiltedSettings] using this
      have hj : j.val < 1 := by have := j.isLt; simpa [tiltedSettings] using this
      have h0 : (j.val : ℝ) = 0 := by exact_mod_cast (by omega : j.val = 0)
      have h3 : Real.sqrt 3 ^ 2 = 3 := Real.sq_sqrt (by norm_num)
      have h4 : (i.val : ℝ) ≤ 2 := by exact_mod_cast (by omega : i.val ≤ 2)
      have h5 : (0 : ℝ) ≤ i.val := by positivity
      simp only [Spec.inPlaneSq, Spec.orderKx, Spec.orderKy, Spec.colOrder, Spec.rowOrder, tiltedSettings, exParams, Option.getD_some,
        Complex.ofReal_re, Real.sin_pi_div_six, Real.cos_pi_div_three, Real.sin_pi_div_three]
      push_cast
      rw [h0]
      norm_num
      nlinarith
    · intro n hn him i
      obtain rfl := List.mem_singleton.mp hn
      exact tilted_graze 2 i

end Meent

#print axioms Meent.C61_conical
#print axioms Meent.C61_2d
#print axioms Meent.C61_layers_2d
#print axioms Meent.C61_films_conical
#print axioms Meent.C61_films_2d
#print axioms Meent.C61_conical_negation
