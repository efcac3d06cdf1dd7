import Verif.Lemmas.StackSpec
import Verif.Props.C04
import Verif.Props.C18
import Verif.Props.C55
import Verif.Props.C56

/-!
# C61: gratings of transparent and absorbing layers on an absorbing one can be solved, unless a layer is at cut-off
-/

open Matrix

namespace Meent

theorem ordinary_convMats (la : LinAlg) {s : Settings} {u : Ucell} (hp : s.p.use_pinv = false) (h : Spec.OrdinaryStack s u)
    (hg : gratingType s = 0) : ∃ cs, convMats la s = .ok cs ∧ cs.length = u.layers.length := by
  obtain ⟨u', hu, hny, -⟩ := gratingType_zero hg
  obtain rfl : u' = u := by have := h.raster; rw [hu] at this; cases this; rfl
  exact C55_ordinary la s u' h.raster (by omega) h.columns (by rcases h.coefficients with h | ⟨h, -⟩ <;> simp [h]) hp h.media

/-- **C61.** Take a 1D grating in TE or TM whose layers are made of transparent and absorbing media, in any order, on a
lossless substrate, with some absorption in the lowest layer or with every order that is kept propagating in the substrate.  With an eigensolver that returns a basis of eigenvectors whenever there
is one, the calculation succeeds exactly if every layer that is used has a basis of modes and no mode at cut-off.  No interaction
between the layers can make it fail. -/
theorem C61_stack (la : LinAlg) (hb : Spec.ReturnsBasis la) (s : Settings) (u : Ucell) (hp : s.p.use_pinv = false) (ha : s.algo = .tmm)
    (hg : gratingType s = 0) (h : Spec.OrdinaryStack s u) (hnb : Spec.IsReal s.p.n_bot) (hlow : Spec.LowestAbsorbs s u ∨ Spec.AllEscape s) :
    ∃ cs, convMats la s = .ok cs ∧ cs.length = u.layers.length ∧
      ((∃ sol, conv_solve la s = .ok sol) ↔ ∀ c ∈ cs.take s.p.thickness.length, Spec.LayerHasModes s c ∧ ¬ Spec.AtCutoff s c) := by
  obtain ⟨cs, hcs, hlen⟩ := ordinary_convMats la hp h hg
  refine ⟨cs, hcs, hlen, ?_, fun hm => ?_⟩
  · rintro ⟨sol, hs⟩ c hc
    exact ⟨solves_modes hp ha h.toRealIllumination hcs hs c hc, solves_cutoff hp h.toRealIllumination hg hcs hs c hc⟩
  · obtain ⟨o, ho⟩ := stack_numpy hb hp ha h hg hnb hlow hcs hm
    exact ⟨_, ho⟩

/-- **C61, layer by layer.** Of the two conditions on a layer, transparent layers always meet the first and layers that absorb
somewhere always meet the second. -/
theorem C61_layers (la : LinAlg) (s : Settings) (u : Ucell) (hp : s.p.use_pinv = false) (hg : gratingType s = 0)
    (h : Spec.OrdinaryStack s u) (cs : List (Conv (FlatIdx s.p.fto.1 s.p.fto.2))) (hcs : convMats la s = .ok cs)
    (k : ℕ) (l : Fin u.ny → Fin u.nx → ℂ) (c : Conv (FlatIdx s.p.fto.1 s.p.fto.2)) (hl : u.layers[k]? = some l) (hc : cs[k]? = some c) :
    ((∀ i j, Spec.TransparentMedium (l i j)) → Spec.LayerHasModes s c) ∧
    ((∃ i j, Spec.AbsorbingMedium (l i j)) → ¬ Spec.AtCutoff s c) := by
  obtain ⟨u', hu, hny, hpol, hphi, hf⟩ := gratingType_zero hg
  obtain rfl : u' = u := by have := h.raster; rw [hu] at this; cases this; rfl
  obtain ⟨l', hl', h1, h2⟩ := convMats_class hp h (by omega) hcs hc
  obtain rfl : l' = l := by rw [hl] at hl'; cases hl'; rfl
  refine ⟨fun ht => clear_modes h.toRealIllumination hg (h2 ht), fun hab => ?_⟩
  rw [← cutoff_iff h.toRealIllumination hpol hf]
  have hkx := (RealIncidence.of_spec h.toRealIllumination).kx_real hphi s.p.wavelength
  unfold NoCutoff
  rcases hpol with h0 | h0
  · rw [if_pos h0]
    exact unit_A hkx ((h1 hab).row hf)
  · rw [if_neg (by rw [h0]; exact one_ne_zero)]
    exact unit_B hkx ((h1 hab).row hf)

private theorem diag_modes {n : Type} [Fintype n] [DecidableEq n] (d : n → ℂ) : Spec.Diagonalisable (diagonal d) :=
  ⟨1, d, by simp, by simp⟩

private theorem diag_kernel {n : Type} [Fintype n] [DecidableEq n] {d v : n → ℂ} (hv : v ≠ 0) (h : diagonal d *ᵥ v = 0) : ∃ i, d i = 0 := by
  by_contra hn
  push Not at hn
  refine hv (funext fun i => ?_)
  have := congrFun h i
  rw [mulVec_diagonal] at this
  exact (mul_eq_zero.mp this).resolve_left (hn i)

theorem film_modes {s : Settings} (hg : gratingType s = 0) (n : ℂ) :
    Spec.LayerHasModes s (Spec.scalarConv s.p.fto.1 s.p.fto.2 n) := by
  unfold Spec.LayerHasModes Spec.scalarConv
  simp only [smul_one_eq_diagonal]
  simp only [← diagonal_one, diagonal_mul_diagonal, diagonal_sub]
  exact ⟨fun _ _ => diag_modes _, fun _ _ => diag_modes _, fun h1 => by omega, fun h1 => by omega⟩

/-- A transparent film is at cut-off in the example only if a kept order grazes in it. -/
theorem film_cutoff {s : Settings} {n : ℂ} (hn : n ≠ 0) (hc : Spec.AtCutoff s (Spec.scalarConv s.p.fto.1 s.p.fto.2 n)) :
    ∃ i, Spec.kxOf s.p i ^ 2 = n ^ 2 := by
  have hn2 : n ^ 2 ≠ 0 := pow_ne_zero _ hn
  unfold Spec.AtCutoff Spec.scalarConv at hc
  simp only [smul_one_eq_diagonal] at hc
  simp only [← diagonal_one, diagonal_mul_diagonal, diagonal_sub] at hc
  rcases hc with ⟨-, v, hv, h⟩ | ⟨-, v, hv, h⟩
  · obtain ⟨i, hi⟩ := diag_kernel hv h
    exact ⟨i, by linear_combination hi⟩
  · obtain ⟨i, hi⟩ := diag_kernel hv h
    refine ⟨i, ?_⟩
    field_simp at hi
    linear_combination hi

/-- The convolution matrices of a stack of uniform films. -/
theorem films_convMats (la : LinAlg) {s : Settings} {nx : ℕ} {ns : List ℂ} (h : Spec.OrdinaryStack s (Spec.homogeneousRaster 1 nx ns))
    (hn : ∀ n ∈ ns, n ≠ 0) {cs : List (Conv (FlatIdx s.p.fto.1 s.p.fto.2))} (hcs : convMats la s = .ok cs) :
    cs = ns.map (Spec.scalarConv s.p.fto.1 s.p.fto.2) := by
  have hx : 0 < nx := h.columns
  unfold convMats at hcs
  rw [h.raster] at hcs
  rcases h.coefficients with h1 | ⟨h1, -⟩
  · simp only [h1, one_ne_zero, if_false, if_true] at hcs
    rw [C18_homogeneous_continuous la 1 nx one_pos hx ns hn] at hcs
    exact (Except.ok.inj hcs).symm
  · simp only [h1, if_true] at hcs
    rw [C18_homogeneous_discrete la 1 nx one_pos hx ns hn] at hcs
    exact (Except.ok.inj hcs).symm

/-- **C61, films.** A stack of uniform films, the lowest of which absorbs or below which every order propagates, can be solved in TE and TM at every number of orders,
provided that no order that is kept grazes in one of the transparent films. -/
theorem C61_films (la : LinAlg) (hb : Spec.ReturnsBasis la) (s : Settings) (nx : ℕ) (ns : List ℂ) (hp : s.p.use_pinv = false)
    (ha : s.algo = .tmm) (hg : gratingType s = 0) (h : Spec.OrdinaryStack s (Spec.homogeneousRaster 1 nx ns)) (hnb : Spec.IsReal s.p.n_bot)
    (hlow : Spec.LowestAbsorbs s (Spec.homogeneousRaster 1 nx ns) ∨ Spec.AllEscape s)
    (hgr : ∀ n ∈ ns, n.im = 0 → ∀ i, Spec.kxOf s.p i ^ 2 ≠ n ^ 2) : ∃ o, conv_solve la s = .ok (.tetm o) := by
  obtain ⟨cs, hcs, hlen, -, h2⟩ := C61_stack la hb s _ hp ha hg h hnb hlow
  have hx : 0 < nx := h.columns
  have hm : ∀ n ∈ ns, Spec.OrdinaryMedium n := fun n hn => h.media (fun _ _ => n) (List.mem_map.mpr ⟨n, hn, rfl⟩) (0 : Fin 1) ⟨0, hx⟩
  have hn : ∀ n ∈ ns, n ≠ 0 := by
    rintro n hn rfl
    have := (hm 0 hn).1
    simp at this
  have e := films_convMats la h hn hcs
  obtain ⟨sol, hs⟩ := h2 fun c hc => by
    have hc' := List.mem_of_mem_take hc
    rw [e] at hc'
    obtain ⟨n, hmn, rfl⟩ := List.mem_map.mp hc'
    refine ⟨?_, fun hcut => ?_⟩
    · exact film_modes hg n
    · by_cases him : n.im = 0
      · obtain ⟨i, hi⟩ := film_cutoff (hn n hmn) hcut
        exact hgr n hmn him i hi
      · obtain ⟨k, hk⟩ := List.mem_iff_getElem?.mp hmn
        refine (C61_layers la s _ hp hg h cs hcs k (fun _ _ => n) _ ?_ ?_).2 ⟨(0 : Fin 1), ⟨0, hx⟩, (hm n hmn).1,
          lt_of_le_of_ne (hm n hmn).2 him⟩ hcut
        · show (ns.map fun n (_ : Fin 1) (_ : Fin nx) => n)[k]? = _
          rw [List.getElem?_map, hk]
          rfl
        · rw [e]; simp [hk]
  rcases conv_solve_cases hs with ⟨-, o, rfl⟩ | ⟨h1, -⟩ | ⟨h1, -⟩
  · exact ⟨o, hs⟩
  · omega
  · omega

/-- Example: two layers, `2 f + 1` orders, on a substrate of index `nb`. -/
noncomputable def stackSettings (u : Ucell) (nb : ℂ) (pol : ℝ) (f : ℕ) : Settings where
  p := { exParams pol none with fto := (f, 0), thickness := [1 / 3, 1 / 2], n_bot := nb }
  ucell := .raster u
  fourier_type := 1
  enhanced_dfs := true
  algo := .tmm

theorem stackSettings_ordinary (u : Ucell) (nb : ℂ) (pol : ℝ) (f : ℕ) (hx : 0 < u.nx) (hl : 2 ≤ u.layers.length)
    (hm : ∀ l ∈ u.layers, ∀ i j, Spec.OrdinaryMedium (l i j)) : Spec.OrdinaryStack (stackSettings u nb pol f) u where
  toRealIllumination := by
    have h := (exSettings_lossless pol none (by simp)).toRealIllumination
    exact ⟨h.n_top_real, h.n_top_pos, h.theta_real, h.theta_lo, h.theta_hi, h.phi_real, h.psi_real, h.wavelength_pos, h.period_x_pos,
      h.period_y_pos⟩
  raster := rfl
  columns := hx
  coefficients := Or.inl rfl
  media := hm
  thickness_pos := by
    intro d hd
    simp only [stackSettings, List.mem_cons, List.not_mem_nil, or_false] at hd
    rcases hd with rfl | rfl <;> norm_num
  layers_enough := hl

theorem stackSettings_type {u : Ucell} (nb : ℂ) {pol : ℝ} (hpol : pol = 0 ∨ pol = 1) (hu : u.ny = 1) (f : ℕ) :
    gratingType (stackSettings u nb pol f) = 0 := by
  simp [gratingType, stackSettings, exParams, hpol, hu]

/-- The orders of the example are at half-integers, so none of them grazes in vacuum or in a film of index 2. -/
theorem stackSettings_kx (u : Ucell) (nb : ℂ) (pol : ℝ) (f : ℕ) (k : ℤ) (i) : Spec.kxOf (stackSettings u nb pol f).p i ^ 2 ≠ (k : ℂ) ^ 2 := by
  unfold Spec.kxOf
  simp only [stackSettings, exParams, Option.getD_none, Complex.cos_zero]
  rw [← Complex.ofReal_sin, Real.sin_pi_div_six]
  generalize ((i.val % (2 * f + 1) : ℕ) - (f : ℤ) : ℤ) = m
  intro h
  have h2 : (((1 / 2 + m) ^ 2 : ℝ) : ℂ) = ((k ^ 2 : ℝ) : ℂ) := by
    push_cast
    rw [← h]
    push_cast
    ring
  have h3 : ((1 / 2 + m) ^ 2 : ℝ) = k ^ 2 := by exact_mod_cast h2
  have h4 : (2 * m + 1) ^ 2 = (2 * k) ^ 2 := by
    have : ((2 * m + 1) ^ 2 : ℝ) = (2 * k) ^ 2 := by nlinarith
    exact_mod_cast this
  rcases sq_eq_sq_iff_eq_or_eq_neg.mp h4 with h5 | h5 <;> omega

/-- A transparent film of index 2 on an absorbing one, in TE and TM, solved at every number of orders. -/
example (pol : ℝ) (hpol : pol = 0 ∨ pol = 1) (f : ℕ) : ∃ o, conv_solve exLA
    (stackSettings (Spec.homogeneousRaster 1 2 [2, 2 - Complex.I]) 1 pol f) = .ok (.tetm o) := by
  refine C61_films exLA exLA_basis _ 2 [2, 2 - Complex.I] rfl rfl (stackSettings_type 1 hpol rfl f)
    (stackSettings_ordinary _ _ _ _ (by simp [Spec.homogeneousRaster]) (by simp [Spec.homogeneousRaster]) ?_) (by simp [stackSettings, Spec.IsReal]) ?_ ?_
  · intro l hl i j
    obtain ⟨n, hn, rfl⟩ := List.mem_map.mp hl
    simp only [List.mem_cons, List.not_mem_nil, or_false] at hn
    rcases hn with rfl | rfl <;> simp [Spec.OrdinaryMedium]
  · exact Or.inl ⟨fun _ _ => 2 - Complex.I, by simp [stackSettings, Spec.homogeneousRaster], (0 : Fin 1), (0 : Fin 2), by simp [Spec.AbsorbingMedium]⟩
  · intro n hn him i
    simp only [List.mem_cons, List.not_mem_nil, or_false] at hn
    rcases hn with rfl | rfl
    · have := stackSettings_kx (Spec.homogeneousRaster 1 2 [2, 2 - Complex.I]) 1 pol f 2 i
      simpa using this
    · simp at him

/-- A transparent grating of two media on an absorbing one meets the hypotheses of `C61_stack`, with any number of orders. -/
example (pol : ℝ) (hpol : pol = 0 ∨ pol = 1) (f : ℕ) : ∃ cs, convMats exLA (stackSettings
    ⟨1, 2, [fun _ j => if j = 0 then 1 else 2, fun _ j => if j = 0 then 1 else 2 - Complex.I]⟩ 1 pol f) = .ok cs ∧ cs.length = 2 := by
  obtain ⟨cs, h1, h2, -⟩ := C61_stack exLA exLA_basis (stackSettings
    ⟨1, 2, [fun _ j => if j = 0 then 1 else 2, fun _ j => if j = 0 then 1 else 2 - Complex.I]⟩ 1 pol f) _ rfl rfl
    (stackSettings_type 1 hpol rfl f) (stackSettings_ordinary _ _ _ _ (by simp) (by simp) (by
      intro l hl i j
      simp only [List.mem_cons, List.not_mem_nil, or_false] at hl
      rcases hl with rfl | rfl
      · simp only [Spec.OrdinaryMedium]; split <;> simp
      · simp only [Spec.OrdinaryMedium]; split <;> simp)) (by simp [stackSettings, Spec.IsReal])
    (Or.inl ⟨_, by simp [stackSettings]; rfl, 0, (1 : Fin 2), by simp [Spec.AbsorbingMedium]⟩)
  exact ⟨cs, h1, h2⟩

/-- Two transparent films, thirty-one orders, on a substrate of index 16 into which all of them escape. -/
example (pol : ℝ) (hpol : pol = 0 ∨ pol = 1) : ∃ o, conv_solve exLA
    (stackSettings (Spec.homogeneousRaster 1 2 [2, 3]) 16 pol 15) = .ok (.tetm o) := by
  refine C61_films exLA exLA_basis _ 2 [2, 3] rfl rfl (stackSettings_type 16 hpol rfl 15)
    (stackSettings_ordinary _ _ _ _ (by simp [Spec.homogeneousRaster]) (by simp [Spec.homogeneousRaster]) ?_)
    (by simp [stackSettings, Spec.IsReal]) (Or.inr ?_) ?_
  · intro l hl i j
    obtain ⟨n, hn, rfl⟩ := List.mem_map.mp hl
    simp only [List.mem_cons, List.not_mem_nil, or_false] at hn
    rcases hn with rfl | rfl <;> simp [Spec.OrdinaryMedium]
  · intro i
    have h1 : ((i : ℕ) : ℝ) ≤ 30 := by exact_mod_cast (by have := i.isLt; simp only [stackSettings] at this; omega : (i : ℕ) ≤ 30)
    have h0 : (0 : ℝ) ≤ ((i : ℕ) : ℝ) := by positivity
    simp only [Spec.inPlaneSq, Spec.orderKx, Spec.orderKy, Spec.colOrder, stackSettings, exParams, Option.getD_none]
    norm_num
    nlinarith
  · intro n hn him i
    simp only [List.mem_cons, List.not_mem_nil, or_false] at hn
    rcases hn with rfl | rfl
    · simpa using stackSettings_kx (Spec.homogeneousRaster 1 2 [2, 3]) 16 pol 15 2 i
    · simpa using stackSettings_kx (Spec.homogeneousRaster 1 2 [2, 3]) 16 pol 15 3 i

#print axioms C61_stack
#print axioms C61_layers
#print axioms C61_films

end Meent
