import Verif.Lemmas.AbsorbTE
import Verif.Lemmas.Guided
import Verif.Props.C04
import Verif.Props.C18
import Verif.Props.C55

/-!
# C56: absorbing structures can always be solved, unless a layer has no basis of modes
-/

open Matrix

namespace Meent

private theorem absorbing_convMats {la : LinAlg} {s : Settings} (hp : s.p.use_pinv = false) (h : Spec.AbsorbingProblem s) :
    ∃ cs, convMats la s = .ok cs ∧ cs.length = Spec.layerCount s.ucell := by
  have hl := h.layers
  have he := h.layers_enough
  have hn : 0 < s.p.thickness.length := List.length_pos_iff.mpr h.thickness_some
  suffices ∃ cs, convMats la s = .ok cs by
    obtain ⟨cs, hcs⟩ := this
    exact ⟨cs, hcs, convMats_length hcs⟩
  unfold Spec.AbsorbingLayers at hl
  rcases hu : s.ucell with u | ls
  · rw [hu] at hl he
    have : 0 < u.layers.length := lt_of_lt_of_le hn he
    obtain ⟨-, i, j, -⟩ := hl.2 _ (List.getElem_mem this)
    obtain ⟨cs, hcs, -⟩ := C55_ordinary la s u hu (by have := i.isLt; omega) (by have := j.isLt; omega)
      (by rcases hl.1 with h | ⟨h, -⟩ <;> simp [h]) hp (fun l h => (hl.2 l h).1)
    exact ⟨cs, hcs⟩
  · rw [hu] at hl
    obtain ⟨h1, h2, cells, h3, h4⟩ := hl
    obtain ⟨cs, hcs, -⟩ := C55_ordinary_vector la s ls hu hp h.period_x_pos h.period_y_pos h1 cells h3 h2
    exact ⟨cs, hcs⟩

/-- **C56.** Take an absorbing problem, any wavelength, angles, thicknesses and numbers of orders, and an eigensolver that returns
a basis of eigenvectors whenever there is one.  The convolution matrices exist, and the calculation succeeds exactly if the
textbook mode problem of every layer that is used has a basis of modes.  None of the matrices that the solvers invert on the way
from the substrate to the top can be singular for any other reason. -/
theorem C56_absorbing (la : LinAlg) (hb : Spec.ReturnsBasis la) (s : Settings) (hp : s.p.use_pinv = false) (ha : s.algo = .tmm)
    (h : Spec.AbsorbingProblem s) :
    ∃ cs, convMats la s = .ok cs ∧ cs.length = Spec.layerCount s.ucell ∧
      ((∃ sol, conv_solve la s = .ok sol) ↔ ∀ c ∈ cs.take s.p.thickness.length, Spec.LayerHasModes s c) := by
  obtain ⟨cs, hcs, hlen⟩ := absorbing_convMats (la := la) hp h
  refine ⟨cs, hcs, hlen, ?_, absorbing_solves hb hp ha h hcs⟩
  rintro ⟨sol, hs⟩
  exact solves_modes hp ha h.toRealIllumination hcs hs

/-- **C56, TE.** A 1D grating in TE whose layers absorb, with the imaginary part of the permittivity constant in each layer,
can be solved at every number of orders: such layers always have a basis of modes. -/
theorem C56_te (la : LinAlg) (hb : Spec.ReturnsBasis la) (s : Settings) (hp : s.p.use_pinv = false) (ha : s.algo = .tmm)
    (h : Spec.AbsorbingProblem s) (u : Ucell) (hu : s.ucell = .raster u) (hg : gratingType s = 0) (hpol : s.p.pol = 0)
    (hc : ∀ l ∈ u.layers, ∃ κ : ℝ, ∀ i j, (l i j ^ 2).im = κ) : ∃ o, conv_solve la s = .ok (.tetm o) := by
  obtain ⟨cs, hcs, hlen, -, h2⟩ := C56_absorbing la hb s hp ha h
  obtain ⟨u', hu', hny, -, hphi, hf⟩ := gratingType_zero hg
  obtain rfl : u' = u := by rw [hu] at hu'; cases hu'; rfl
  have hnx : 0 < u'.nx := by
    have hl := h.layers
    have he := h.layers_enough
    unfold Spec.AbsorbingLayers at hl
    rw [hu] at hl he
    have : 0 < u'.layers.length := lt_of_lt_of_le (List.length_pos_iff.mpr h.thickness_some) he
    obtain ⟨-, i, j, -⟩ := hl.2 _ (List.getElem_mem this)
    have := j.isLt
    omega
  obtain ⟨sol, hs⟩ := h2 fun c hmem => by
    obtain ⟨b, hH⟩ := convMats_sub_const hp hu hny hnx hf hc hcs c (List.mem_of_mem_take hmem)
    refine ⟨fun _ _ => ?_, fun _ h1 => ?_, fun h1 => by omega, fun h1 => by omega⟩
    · have hK : (diagonal (Spec.kxOf s.p) * diagonal (Spec.kxOf s.p)).IsHermitian := by
        rw [← kxF_eq_kxOf h.toRealIllumination]
        obtain ⟨ph, hph⟩ := phi_real h.toRealIllumination
        have hst := (RealIncidence.of_spec h.toRealIllumination).kxF_star hph s.p.wavelength
        rw [diagonal_mul_diagonal]
        unfold Matrix.IsHermitian
        rw [diagonal_conjTranspose]
        congr 1
        funext i
        simp only [Pi.star_apply, star_mul', hst]
      have := diagonalisable_shift (hK.sub hH) b
      convert this using 1
      abel
    · rw [hpol] at h1
      exact absurd h1 (by norm_num)
  rcases conv_solve_cases hs with ⟨-, o, rfl⟩ | ⟨h1, -⟩ | ⟨h1, -⟩
  · exact ⟨o, hs⟩
  · omega
  · omega

private theorem diag_diagonalisable {n : Type} [Fintype n] [DecidableEq n] (d : n → ℂ) : Spec.Diagonalisable (diagonal d) :=
  ⟨1, d, by simp, by simp⟩

theorem scalar_modes {s : Settings} {n : ℂ} (hn : n ≠ 0) : Spec.LayerHasModes s (Spec.scalarConv s.p.fto.1 s.p.fto.2 n) := by
  have hn2 : n ^ 2 ≠ 0 := pow_ne_zero _ hn
  unfold Spec.LayerHasModes Spec.scalarConv
  simp only [smul_one_eq_diagonal]
  simp only [← diagonal_one, diagonal_mul_diagonal, diagonal_sub, diagonal_add]
  refine ⟨fun _ _ => diag_diagonalisable _, fun _ _ => diag_diagonalisable _, fun _ => ⟨diag_diagonalisable _, diag_diagonalisable _⟩,
    fun _ => ?_⟩
  have z : ∀ a b : FlatIdx s.p.fto.1 s.p.fto.2 → ℂ, (diagonal fun i => a i * ((n ^ 2)⁻¹ * b i * n ^ 2 - b i)) = 0 := by
    intro a b
    rw [← diagonal_zero]
    congr 1
    funext i
    field_simp
    simp
  rw [z, z, fromBlocks_diagonal]
  exact diag_diagonalisable _

/-- **C56, films.** A stack of uniform absorbing films can be solved in every formulation and at every number of orders. -/
theorem C56_films (la : LinAlg) (hb : Spec.ReturnsBasis la) (s : Settings) (hp : s.p.use_pinv = false) (ha : s.algo = .tmm)
    (h : Spec.AbsorbingProblem s) (ny nx : ℕ) (ns : List ℂ) (hu : s.ucell = .raster (Spec.homogeneousRaster ny nx ns)) :
    ∃ sol, conv_solve la s = .ok sol := by
  obtain ⟨cs, hcs, hlen, -, h2⟩ := C56_absorbing la hb s hp ha h
  refine h2 fun c hmem => ?_
  have hl := h.layers
  unfold Spec.AbsorbingLayers at hl
  rw [hu] at hl
  have he := h.layers_enough
  rw [hu] at he
  have hpos : 0 < (Spec.homogeneousRaster ny nx ns).layers.length := lt_of_lt_of_le (List.length_pos_iff.mpr h.thickness_some) he
  obtain ⟨-, i, j, -⟩ := hl.2 _ (List.getElem_mem hpos)
  have hy : 0 < ny := lt_of_le_of_lt (Nat.zero_le _) i.isLt
  have hx : 0 < nx := lt_of_le_of_lt (Nat.zero_le _) j.isLt
  have hn : ∀ n ∈ ns, n ≠ 0 := by
    rintro n hn rfl
    obtain ⟨h1, -⟩ := hl.2 (fun _ _ => 0) (List.mem_map.mpr ⟨0, hn, rfl⟩)
    have := (h1 ⟨0, hy⟩ ⟨0, hx⟩).1
    simp at this
  have : cs = ns.map (Spec.scalarConv s.p.fto.1 s.p.fto.2) := by
    unfold convMats at hcs
    rw [hu] at hcs
    rcases hl.1 with h1 | ⟨h1, -⟩
    · simp only [h1, one_ne_zero, if_false, if_true] at hcs
      rw [C18_homogeneous_continuous la ny nx hy hx ns hn] at hcs
      exact (Except.ok.inj hcs).symm
    · simp only [h1, if_true] at hcs
      rw [C18_homogeneous_discrete la ny nx hy hx ns hn] at hcs
      exact (Except.ok.inj hcs).symm
  have hm := List.mem_of_mem_take hmem
  rw [this] at hm
  obtain ⟨n, hmn, rfl⟩ := List.mem_map.mp hm
  exact scalar_modes (hn n hmn)

/-- **C56, without absorption** the calculation can fail: a transparent film of index 2 in vacuum, illuminated in TE, three
orders kept, where the first order excites a guided mode of the film, fails with every eigensolver. -/
theorem C56_lossless_negation : Spec.LosslessProblem guidedSettings ∧
    (∃ u, guidedSettings.ucell = .raster u ∧ ∀ l ∈ u.layers, ∀ i j, Spec.OrdinaryMedium (l i j)) ∧
    ∀ la sol, conv_solve la guidedSettings ≠ .ok sol := by
  refine ⟨guided_lossless, ⟨_, rfl, ?_⟩, guided_fails⟩
  intro l hl i j
  obtain rfl := List.mem_singleton.mp hl
  simp [Spec.OrdinaryMedium]

/-- The example problem of property C56: several orders, a layer of two absorbing media. -/
noncomputable def lossySettings (pol : ℝ) (phi : Option ℂ) (f : ℕ) : Settings where
  p := { exParams pol phi with fto := (f, 0) }
  ucell := .raster ⟨1, 2, [fun _ j => if j = 0 then 1 - 2 * Complex.I else 2 - Complex.I]⟩
  fourier_type := 1
  enhanced_dfs := true
  algo := .tmm

theorem lossy_illumination (pol : ℝ) (phi : Option ℂ) (hphi : ∀ φ, phi = some φ → Spec.IsReal φ) (f g : ℕ) :
    Spec.RealIllumination { exParams pol phi with fto := (f, g) } := by
  have h := (exSettings_lossless pol phi hphi).toRealIllumination
  exact ⟨h.n_top_real, h.n_top_pos, h.theta_real, h.theta_lo, h.theta_hi, h.phi_real, h.psi_real, h.wavelength_pos, h.period_x_pos,
    h.period_y_pos⟩

/-- Without a rotation of the plane of incidence, no order of the example is along the normal. -/
theorem lossy_not_normal (pol : ℝ) (f g : ℕ) : ¬ Spec.SomeAlongNormal { exParams pol (some 0) with fto := (f, g) } := by
  rintro ⟨m, k, -, -, h⟩
  have := h.1
  simp only [exParams, Option.getD_some, Complex.cos_zero] at this
  rw [← Complex.ofReal_sin, Real.sin_pi_div_six] at this
  have h2 : ((1 / 2 + m : ℝ) : ℂ) = 0 := by
    push_cast
    push_cast at this
    rw [← this]; ring
  have h3 : (1 / 2 + m : ℝ) = 0 := by exact_mod_cast h2
  have h4 : (2 * m + 1 : ℤ) = 0 := by
    have : (2 * m + 1 : ℝ) = 0 := by linarith
    exact_mod_cast this
  omega

theorem lossySettings_absorbing (pol : ℝ) (phi : Option ℂ) (hphi : phi = none ∧ (pol = 0 ∨ pol = 1) ∨ phi = some 0) (f : ℕ) :
    Spec.AbsorbingProblem (lossySettings pol phi f) where
  toRealIllumination := lossy_illumination pol phi (by
    rcases hphi with ⟨rfl, -⟩ | rfl
    · simp
    · intro φ h; cases h; rfl) f 0
  layers := by
    refine ⟨Or.inl rfl, ?_⟩
    intro l hl
    obtain rfl := List.mem_singleton.mp hl
    refine ⟨fun i j => ?_, 0, 0, ?_⟩
    · simp only [Spec.OrdinaryMedium]
      split <;> simp
    · simp [Spec.AbsorbingMedium]
  thickness_pos := by
    intro d hd
    obtain rfl : d = 1 / 3 := by simpa [lossySettings, exParams] using hd
    norm_num
  thickness_some := by simp [lossySettings, exParams]
  layers_enough := by simp [lossySettings, exParams, Spec.layerCount]
  n_bot_real := by simp [lossySettings, exParams, Spec.IsReal]
  n_bot_pos := by simp [lossySettings, exParams]
  not_normal := by
    rcases hphi with ⟨rfl, hpol⟩ | rfl
    · exact Or.inl (by simp [gratingType, lossySettings, exParams, hpol])
    · exact Or.inr (lossy_not_normal pol f 0)
  orders := fun _ => rfl

/-- The hypotheses of `C56_absorbing` hold in 1D TE and TM and in the conical formulation, with any number of orders. -/
example (pol : ℝ) (phi : Option ℂ) (hphi : phi = none ∧ (pol = 0 ∨ pol = 1) ∨ phi = some 0) (f : ℕ) :
    ∃ cs, convMats exLA (lossySettings pol phi f) = .ok cs ∧ cs.length = 1 ∧
      ((∃ sol, conv_solve exLA (lossySettings pol phi f) = .ok sol) ↔
        ∀ c ∈ cs.take 1, Spec.LayerHasModes (lossySettings pol phi f) c) :=
  C56_absorbing exLA exLA_basis _ rfl rfl (lossySettings_absorbing pol phi hphi f)

/-- The TE grating of two absorbing media, solved at every number of orders. -/
example (f : ℕ) : ∃ o, conv_solve exLA (lossySettings 0 none f) = .ok (.tetm o) := by
  refine C56_te exLA exLA_basis _ rfl rfl (lossySettings_absorbing 0 none (by simp) f) _ rfl
    (by simp [gratingType, lossySettings, exParams]) rfl ?_
  intro l hl
  obtain rfl := List.mem_singleton.mp hl
  refine ⟨-4, fun i j => ?_⟩
  have h1 : ((1 - 2 * Complex.I) ^ 2).im = -4 := by simp [pow_two]; norm_num
  have h2 : ((2 - Complex.I) ^ 2).im = -4 := by simp [pow_two]; norm_num
  dsimp only
  split
  · exact h1
  · exact h2

/-- An absorbing film in the 2D formulation, solved at every pair of numbers of orders. -/
example (pol : ℝ) (f g : ℕ) : ∃ sol, conv_solve exLA
    { lossySettings pol (some 0) f with p := { exParams pol (some 0) with fto := (f, g) }, ucell := .raster (Spec.homogeneousRaster 2 2 [2 - Complex.I]) }
      = .ok sol := by
  refine C56_films exLA exLA_basis _ rfl rfl ?_ 2 2 [2 - Complex.I] rfl
  refine ⟨lossy_illumination pol (some 0) (by intro φ h; cases h; rfl) f g, ⟨Or.inl rfl, ?_⟩, ?_, ?_, ?_, ?_, ?_,
    Or.inr (lossy_not_normal pol f g), ?_⟩
  · intro l hl
    obtain rfl := List.mem_singleton.mp hl
    exact ⟨fun i j => by simp [Spec.OrdinaryMedium], (0 : Fin 2), (0 : Fin 2), by simp [Spec.AbsorbingMedium]⟩
  · intro d hd
    obtain rfl : d = 1 / 3 := by simpa [exParams] using hd
    norm_num
  · simp [exParams]
  · simp [exParams, Spec.layerCount, Spec.homogeneousRaster]
  · simp [exParams, Spec.IsReal]
  · simp [exParams]
  · intro h
    simp [gratingType, Spec.homogeneousRaster] at h

end Meent
