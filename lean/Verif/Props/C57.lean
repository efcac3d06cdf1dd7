import Verif.Lemmas.Jax
import Verif.Lemmas.Example1D
import Verif.Props.C04
import Verif.Props.C41
import Verif.Props.C42

/-!
# C57: the JAX and the NumPy backend return the same results

Both backends get the same settings.

* `C57_numpy_to_jax_partial`, `C57_jax_to_numpy`: the same `eig` and `pinv` are used; then everything agrees, results,
  `T1` and layer information.
* `C57_iff_partial`: both directions in one statement.
* `C57_other_eig`: each backend has its own eigensolver; then the results agree.
* `C57_fields`: so the fields agree.
* `C57_pinv_negation`, `C57_extra_thickness_negation`, `C57_field_call_negation`: three places where the backends differ.
-/

open Matrix

namespace Meent

/-- **C57, NumPy to JAX.**  Whenever NumPy solves a problem, JAX returns the same.  Left out: `use_pinv=True` with the
discrete transform of a pixel structure (see `C57_pinv_negation`). -/
theorem C57_numpy_to_jax_partial (env : Jax.Env) (s : Settings) (hp : Spec.NoDiscretePinv s)
    (sol : Solved s.p.fto.1 s.p.fto.2) (h : conv_solve env.la s = .ok sol) : Jax.conv_solve env s = .ok sol :=
  Jax.refines_conv_solve env s hp sol h

/-- **C57, NumPy to JAX with `use_pinv=True`.**  Here it is enough that NumPy could do without the pseudo-inverse. -/
theorem C57_numpy_to_jax_pinv_partial (env : Jax.Env) (s : Settings) (u : Ucell) (hu : s.ucell = .raster u)
    (hf : s.fourier_type = 0) (cs : List (Conv (FlatIdx s.p.fto.1 s.p.fto.2)))
    (hc : convMats env.la (Spec.withPinv s false) = .ok cs)
    (sol : Solved s.p.fto.1 s.p.fto.2) (h : conv_solve env.la (Spec.withPinv s true) = .ok sol) :
    Jax.conv_solve env (Spec.withPinv s true) = .ok sol := by
  have h1 := Jax.refines_convMats env (Spec.withPinv s false) (Or.inl rfl) cs hc
  have h2 : Jax.convMats env (Spec.withPinv s true) = .ok cs := by
    have e : Jax.convMats env (Spec.withPinv s true) = Jax.convMats env (Spec.withPinv s false) := by
      simp only [Jax.convMats, hu, hf, if_true]
      rfl
    rw [e]; exact h1
  have h3 : convMats env.la (Spec.withPinv s true) = .ok cs := Meent.refines_convMats env.la s cs hc
  unfold conv_solve at h
  rw [h3] at h
  exact Except.bind_ok.mpr ⟨cs, h2, Jax.refines_solve_for_conv env (Spec.withPinv s true) _ _ sol h⟩

/-- **C57, JAX to NumPy.**  Whenever JAX solves a problem, NumPy returns the same, for every Fourier type, structure and value
of `use_pinv`.  Needed: at least one pixel, enough samples for every ellipse (see `C57_ellipse_negation`), and no more
thicknesses than layers (see `C57_extra_thickness_negation`). -/
theorem C57_jax_to_numpy (env : Jax.Env) (s : Settings) (hpix : ∀ u, s.ucell = .raster u → 0 < u.ny ∧ 0 < u.nx)
    (he : Spec.EllipsesSplit s.ucell)
    (hl : s.p.thickness.length ≤ Spec.layerCount s.ucell) (sol : Solved s.p.fto.1 s.p.fto.2)
    (h : Jax.conv_solve env s = .ok sol) : conv_solve env.la s = .ok sol :=
  Jax.refines_conv_solve' env s hpix he hl sol h

/-- **C57.**  The backends succeed on the same problems and return the same. -/
theorem C57_iff_partial (env : Jax.Env) (s : Settings) (hp : Spec.NoDiscretePinv s)
    (hpix : ∀ u, s.ucell = .raster u → 0 < u.ny ∧ 0 < u.nx) (he : Spec.EllipsesSplit s.ucell)
    (hl : s.p.thickness.length ≤ Spec.layerCount s.ucell)
    (sol : Solved s.p.fto.1 s.p.fto.2) : Jax.conv_solve env s = .ok sol ↔ conv_solve env.la s = .ok sol :=
  ⟨C57_jax_to_numpy env s hpix he hl sol, C57_numpy_to_jax_partial env s hp sol⟩

/-- **C57, different eigensolvers.**  JAX with its own eigensolver, of which only independent eigenvectors for diagonalisable
matrices are asked, succeeds whenever NumPy does, and the result objects are equal. -/
theorem C57_other_eig (la : LinAlg) (env : Jax.Env) (hb : Spec.ReturnsBasis env.la) (s : Settings)
    (hp : s.p.use_pinv = false) (sol : Solved s.p.fto.1 s.p.fto.2) (h : conv_solve la s = .ok sol) :
    ∃ sol', Jax.conv_solve env s = .ok sol' ∧ sol'.result = sol.result := by
  obtain ⟨sol', h1, h2⟩ := C04_eigenbasis_success la env.la hb s hp sol h
  exact ⟨sol', C57_numpy_to_jax_partial env s (Or.inl hp) sol' h1, h2⟩

/-- **C57, fields.**  `calculate_field` after the two solves returns the same field arrays. -/
theorem C57_fields (env : Jax.Env) (s : Settings) (hp : Spec.NoDiscretePinv s) (rx ry rz : ℕ) (sel : Bool × Bool × Bool)
    (sol : Solved s.p.fto.1 s.p.fto.2) (F : FieldCell rx ry rz)
    (h : conv_solve_field env.la s rx ry rz sel = .ok (sol, F)) :
    Jax.conv_solve env s = .ok sol ∧ Jax.calculate_field s.p sol rx ry rz sel = .ok F := by
  unfold conv_solve_field at h
  obtain ⟨r, h1, h⟩ := Except.bind_ok.mp h
  obtain ⟨f, h2, h⟩ := Except.bind_ok.mp h
  cases h
  exact ⟨C57_numpy_to_jax_partial env s hp _ h1, h2⟩

/-- A JAX library that clamps out-of-range indices to the last entry, around the linear algebra `la`. -/
def clampEnv (la : LinAlg) : Jax.Env where
  la := la
  oob := fun l _ => match l.getLast? with
    | some a => .ok a
    | none => .error .indexError
  oobC := fun {N} a i => if h : 0 < N then a ⟨N - 1, by omega⟩ else i

/-- The example grating is solved by JAX, whatever happens out of range. -/
example (env : Jax.Env) (hb : Spec.ReturnsBasis env.la) : ∃ sol, Jax.conv_solve env (exSettings 0 none) = .ok sol := by
  obtain ⟨o, h⟩ := exTE_ok
  obtain ⟨sol, h, -⟩ := C57_other_eig exLA env hb _ rfl _ h
  exact ⟨sol, h⟩

example : ∃ sol, Jax.conv_solve (clampEnv (scaledLA exLA 2)) (exSettings 0 none) = .ok sol ∧
    conv_solve (scaledLA exLA 2) (exSettings 0 none) = .ok sol := by
  obtain ⟨o, h⟩ := exTE_ok
  obtain ⟨sol, h, -⟩ := C57_other_eig exLA (clampEnv (scaledLA exLA 2)) scaledLA_basis _ rfl _ h
  refine ⟨sol, h, C57_jax_to_numpy (clampEnv (scaledLA exLA 2)) (exSettings 0 none) ?_ (fun _ h => by cases h) ?_ sol h⟩
  · intro u hu
    cases hu
    exact ⟨one_pos, two_pos⟩
  · simp [exSettings, exParams, exCell, Spec.layerCount]

/-! ### Where the backends differ -/

/-- Three pixels of permittivity 9, 16 and -25: the average vanishes. -/
noncomputable def zeroCell : Ucell := ⟨1, 3, [fun _ j => ![3, 4, -5 * Complex.I] j]⟩

/-- The example settings with this grating and `use_pinv=True`. -/
noncomputable def zeroSettings : Settings where
  p := { exParams 0 none with use_pinv := true }
  ucell := .raster zeroCell
  fourier_type := 0
  enhanced_dfs := false
  algo := .tmm

private theorem zero_enlarge : enlarge ⟨1, 3, fun _ j => ![3, 4, -5 * Complex.I] j⟩ 0 0 false
    = ⟨1, 3, fun _ j => ![3, 4, -5 * Complex.I] j⟩ := by
  simp [enlarge]

private theorem zero_genConv (env : Jax.Env) :
    (∃ c, convDiscrete env.la ⟨1, 3, fun _ j => ![3, 4, -5 * Complex.I] j⟩ 0 0 false true = .ok c) ∧
      Jax.convDiscrete env ⟨1, 3, fun _ j => ![3, 4, -5 * Complex.I] j⟩ 0 0 false = .error .nan := by
  have hne : ∀ (x : Fin 3) (y : Fin 1), (![3, 4, -5 * Complex.I] x : ℂ) ^ 2 ≠ 0 := by
    intro x y
    fin_cases x <;> simp
  have h1 : dfs2d (Raster.sq ⟨1, 3, fun _ j => ![3, 4, -5 * Complex.I] j⟩) true true 0 0
      = .ok (0 : Matrix (FlatIdx 0 0) (FlatIdx 0 0) ℂ) := by
    refine dfs2d_iff_gen.mpr ⟨by simp [Raster.sq], by simp [Raster.sq], ?_⟩
    rw [genConv_00_tt]
    have h0 : ((3 : ℂ) ^ 2 + 4 ^ 2 + (5 * Complex.I) ^ 2) / 3 = 0 := by
      rw [mul_pow, Complex.I_sq]; norm_num
    simp only [dftCoeff_zero, Raster.sq, Fin.sum_univ_three]
    simp [h0]
  have h2 : ∃ m, dfs2d (Raster.sq ⟨1, 3, fun _ j => ![3, 4, -5 * Complex.I] j⟩) true false 0 0 = .ok m := by
    refine ⟨_, dfs2d_iff_gen.mpr ⟨by simp [Raster.sq], by simp [Raster.sq], genConv_00_tf ?_ ?_⟩⟩
    · exact hne
    · intro x
      have := hne x 0
      simpa [dftCoeff_zero, Raster.sq] using this
  have h3 : ∃ m, dfs2d (Raster.sq ⟨1, 3, fun _ j => ![3, 4, -5 * Complex.I] j⟩) false true 0 0 = .ok m := by
    refine ⟨_, dfs2d_iff_gen.mpr ⟨by simp [Raster.sq], by simp [Raster.sq], genConv_00_ft ?_ ?_⟩⟩
    · intro x
      have := hne x 0
      simpa [dftCoeff_zero, Raster.sq] using this
    · simp [dftCoeff_zero, Raster.sq, Fin.sum_univ_three]
      rw [mul_pow, Complex.I_sq]
      norm_num
  obtain ⟨m, hm⟩ := h2
  obtain ⟨m', hm'⟩ := h3
  constructor
  · refine ⟨{ epx := m', epy := m, epzi := env.la.pinv 0 }, ?_⟩
    unfold convDiscrete
    rw [zero_enlarge]
    exact Except.bind_ok.mpr ⟨_, h1, Except.bind_ok.mpr ⟨_, hm, Except.bind_ok.mpr ⟨_, hm', Except.bind_ok.mpr ⟨_, rfl, rfl⟩⟩⟩⟩
  · unfold Jax.convDiscrete
    rw [zero_enlarge]
    dsimp only
    rw [Jax.refines_dfs2d env _ _ _ _ _ _ h1, Jax.refines_dfs2d env _ _ _ _ _ _ hm, Jax.refines_dfs2d env _ _ _ _ _ _ hm']
    simp [Jax.meeinv, Jax.inv, bind, Except.bind]

private theorem loop_pinv {S C L : Type} {step : C → ℝ → S → Res (S × L)} (h : ∀ c d s, ∃ r, step c d s = .ok r)
    (convs : List C) (th : List ℝ) : ∀ (k : ℕ) (s : S × List L), k ≤ convs.length → k ≤ th.length →
      ∃ r, layerLoop step convs th k s = .ok r
  | 0, s, _, _ => ⟨s, rfl⟩
  | k + 1, s, h1, h2 => by
    obtain ⟨r, hr⟩ := h (convs[k]) (th[k]) s.1
    obtain ⟨q, hq⟩ := loop_pinv h convs th k (r.1, s.2 ++ [r.2]) (by omega) (by omega)
    refine ⟨q, ?_⟩
    simp only [layerLoop]
    refine Except.bind_ok.mpr ⟨convs[k], ?_, Except.bind_ok.mpr ⟨th[k], ?_, Except.bind_ok.mpr ⟨r, hr, hq⟩⟩⟩
    · simp [getIdx, show k < convs.length by omega]
    · simp [getIdx, show k < th.length by omega]

private theorem jax_loop_pinv {S C L : Type} {la : LinAlg} {step : C → ℝ → S → Res (S × L)}
    (h : ∀ c d s, ∃ r, step c d s = .ok r) (convs : List C) (th : List ℝ) (hc : convs ≠ []) :
    ∀ (k : ℕ) (s : S × List L), k ≤ th.length → ∃ r, Jax.layerLoop (clampEnv la) step convs th k s = .ok r
  | 0, s, _ => ⟨s, rfl⟩
  | k + 1, s, h2 => by
    have hx : ∃ c, Jax.getIdx (clampEnv la) convs k = .ok c := by
      unfold Jax.getIdx
      cases hk : convs[k]? with
      | some a => exact ⟨a, rfl⟩
      | none => exact ⟨convs.getLast hc, by simp [clampEnv, List.getLast?_eq_getLast_of_ne_nil hc]⟩
    obtain ⟨c, hx⟩ := hx
    obtain ⟨r, hr⟩ := h c (th[k]) s.1
    obtain ⟨q, hq⟩ := jax_loop_pinv (la := la) h convs th hc k (r.1, s.2 ++ [r.2]) (by omega)
    refine ⟨q, ?_⟩
    simp only [Jax.layerLoop]
    refine Except.bind_ok.mpr ⟨c, hx, Except.bind_ok.mpr ⟨th[k], ?_, Except.bind_ok.mpr ⟨r, hr, hq⟩⟩⟩
    simp [Jax.getIdx, show k < th.length by omega]

/-- With the pseudo-inverse nothing can go wrong in the TE solver. -/
theorem solve_1d_pinv (la : LinAlg) (p : Params) (hp : p.use_pinv = true) (h0 : p.pol = 0) (wl : ℝ)
    (convs : List (Conv (Fin (2 * p.fto.1 + 1)))) (hl : p.thickness.length ≤ convs.length) :
    ∃ o, solve_1d la p wl convs = .ok o := by
  have hstep : ∀ k0 kx (c : Conv (Fin (2 * p.fto.1 + 1))) d s, ∃ r, step1d la p k0 kx c d s = .ok r := by
    intro k0 kx c d s
    simp only [step1d, transfer_1d_2, transfer_1d_3, tmmStep, meeinv, hp, h0, if_true, bind, Except.bind]
    exact ⟨_, rfl⟩
  obtain ⟨r, hr⟩ := loop_pinv (hstep (2 * Real.pi / wl) (kxVec p wl)) convs p.thickness p.thickness.length
    ((Jax.transfer_1d_1 p.pol (kxVec p wl) p.n_top p.n_bot).2.2, []) hl le_rfl
  have h4 : ∀ a b, ∃ q, transfer_1d_4 la p.pol r.1 a b p.theta p.n_top p.n_bot p.use_pinv = .ok q := by
    intro a b
    simp only [transfer_1d_4, meeinv, hp, h0, if_true, bind, Except.bind]
    exact ⟨_, rfl⟩
  obtain ⟨q, hq⟩ := h4 (Jax.transfer_1d_1 p.pol (kxVec p wl) p.n_top p.n_bot).1
    (Jax.transfer_1d_1 p.pol (kxVec p wl) p.n_top p.n_bot).2.1
  exact ⟨{ res := q.1, T1 := q.2, infos := r.2 },
    Except.bind_ok.mpr ⟨_, Jax.both_1d_1 (Or.inl h0) _ _ _, Except.bind_ok.mpr ⟨r, hr, Except.bind_ok.mpr ⟨q, hq, rfl⟩⟩⟩⟩

private theorem jax_solve_1d_pinv (la : LinAlg) (p : Params) (hp : p.use_pinv = true) (h0 : p.pol = 0) (wl : ℝ)
    (convs : List (Conv (Fin (2 * p.fto.1 + 1)))) (hl : convs ≠ []) :
    ∃ o, Jax.solve_1d (clampEnv la) p wl convs = .ok o := by
  have hstep : ∀ k0 kx (c : Conv (Fin (2 * p.fto.1 + 1))) d s, ∃ r, Jax.step1d (clampEnv la) p k0 kx c d s = .ok r := by
    intro k0 kx c d s
    simp only [Jax.step1d, Jax.transfer_1d_2, Jax.tmmStep, Jax.meeinv, Jax.cond, hp, h0, if_true, if_false, ne_eq,
      not_true_eq_false, bind, Except.bind]
    exact ⟨_, rfl⟩
  obtain ⟨r, hr⟩ := jax_loop_pinv (la := la) (hstep (2 * Real.pi / wl) (Jax.kxVec p wl)) convs p.thickness hl
    p.thickness.length ((Jax.transfer_1d_1 p.pol (Jax.kxVec p wl) p.n_top p.n_bot).2.2, []) le_rfl
  have h4 : ∀ a b, ∃ q, Jax.transfer_1d_4 (clampEnv la) p.pol r.1 a b p.theta p.n_top p.n_bot p.use_pinv = .ok q := by
    intro a b
    simp only [Jax.transfer_1d_4, Jax.meeinv, Jax.cond, hp, h0, if_true, if_false, ne_eq, not_true_eq_false, bind, Except.bind]
    exact ⟨_, rfl⟩
  obtain ⟨q, hq⟩ := h4 (Jax.transfer_1d_1 p.pol (Jax.kxVec p wl) p.n_top p.n_bot).1
    (Jax.transfer_1d_1 p.pol (Jax.kxVec p wl) p.n_top p.n_bot).2.1
  exact ⟨{ res := q.1, T1 := q.2, infos := r.2 }, Except.bind_ok.mpr ⟨r, hr, Except.bind_ok.mpr ⟨q, hq, rfl⟩⟩⟩

/-- **C57, `use_pinv=True`.**  The average permittivity of this grating vanishes.  NumPy uses the pseudo-inverse, as asked, and
returns a result; JAX does not hand the setting on and returns NaN. -/
theorem C57_pinv_negation (env : Jax.Env) : (∃ sol, conv_solve env.la zeroSettings = .ok sol) ∧
    Jax.conv_solve env zeroSettings = .error .nan := by
  obtain ⟨⟨c, h1⟩, h2⟩ := zero_genConv env
  have hc : convMats env.la zeroSettings = .ok [c] := by
    simp only [convMats, zeroSettings, exParams, if_true, to_conv_mat_raster_discrete, Ucell.rasters, zeroCell,
      List.map_cons, List.map_nil]
    rw [mapM_ok]
    exact .cons h1 .nil
  constructor
  · obtain ⟨o, ho⟩ := solve_1d_pinv env.la zeroSettings.p rfl rfl 1 [c.row] (by simp [zeroSettings, exParams])
    refine ⟨.tetm o, Except.bind_ok.mpr ⟨[c], hc, ?_⟩⟩
    have hg : gratingType zeroSettings = 0 := by simp [gratingType, zeroSettings, zeroCell, exParams]
    unfold solve_for_conv
    rw [hg]
    exact Except.bind_ok.mpr ⟨o, ho, rfl⟩
  · have hj : Jax.convMats env zeroSettings = .error .nan := by
      simp only [Jax.convMats, zeroSettings, exParams, if_true, Jax.to_conv_mat_raster_discrete, Ucell.rasters, zeroCell,
        List.map_cons, List.map_nil, List.mapM_cons, List.mapM_nil]
      rw [h2]
      rfl
    unfold Jax.conv_solve
    rw [hj]
    rfl

/-- **C57, more thicknesses than layers.**  NumPy raises `IndexError`.  A JAX whose out-of-range reads are clamped
returns a result: it takes the last layer for the missing one. -/
theorem C57_extra_thickness_negation (la : LinAlg) :
    ∃ s : Settings, Spec.layerCount s.ucell < s.p.thickness.length ∧ conv_solve la s = .error .indexError ∧
      ∃ sol, Jax.conv_solve (clampEnv la) s = .ok sol := by
  refine ⟨{ exSettings 0 none with p := { exParams 0 none with use_pinv := true, thickness := [1 / 3, 1 / 3] } }, ?_, ?_, ?_⟩
  · simp [exSettings, exCell, Spec.layerCount]
  · refine (C42_rejects_surplus_thickness_partial la _ rfl (by simp [exSettings, exCell, Spec.layerCount])).2 [exConv] ?_ ?_
    · have := Meent.refines_convMats la { exSettings 0 none with p := { exParams 0 none with thickness := [1 / 3, 1 / 3] } } [exConv]
      exact this (exCell_conv la)
    · simp [gratingType, exSettings, exCell, exParams]
  · obtain ⟨o, ho⟩ := jax_solve_1d_pinv la { exParams 0 none with use_pinv := true, thickness := [1 / 3, 1 / 3] } rfl rfl 1
      [exConv.row] (by simp)
    have hc := Jax.refines_convMats (clampEnv la)
      { exSettings 0 none with p := { exParams 0 none with thickness := [1 / 3, 1 / 3] } } (Or.inl rfl) [exConv] (exCell_conv la)
    refine ⟨.tetm o, Except.bind_ok.mpr ⟨[exConv], hc, ?_⟩⟩
    have hg : gratingType { exSettings 0 none with p := { exParams 0 none with use_pinv := true, thickness := [1 / 3, 1 / 3] } } = 0 := by
      simp [gratingType, exSettings, exCell, exParams]
    unfold Jax.solve_for_conv
    rw [hg]
    exact Except.bind_ok.mpr ⟨o, ho, rfl⟩

/-- **C57, solving and computing fields in one call** fails with `AttributeError` in JAX, while NumPy does it (for every
problem it can solve with TMM). -/
theorem C57_field_call_negation (env : Jax.Env) (s : Settings) (ha : s.algo = .tmm) (rx ry rz : ℕ) (sel : Bool × Bool × Bool)
    (sol : Solved s.p.fto.1 s.p.fto.2) (h : conv_solve env.la s = .ok sol) :
    (∃ F, conv_solve_field env.la s rx ry rz sel = .ok (sol, F)) ∧
      Jax.conv_solve_field_no_jit env s rx ry rz sel = .error .attributeError := by
  refine ⟨?_, rfl⟩
  have : ∃ F, calculate_field s.p sol rx ry rz sel = .ok F := by
    have hn : sol ≠ .conicalSmm := by
      rintro rfl
      unfold conv_solve solve_for_conv at h
      obtain ⟨cs, -, h⟩ := Except.bind_ok.mp h
      rw [ha] at h
      split at h <;> first
        | (obtain ⟨o, -, h⟩ := Except.bind_ok.mp h; cases h)
        | simp_all
    unfold calculate_field
    cases sol with
    | tetm o => exact ⟨_, rfl⟩
    | conical o => exact ⟨_, rfl⟩
    | conicalSmm => exact absurd rfl hn
    | twoD o => exact ⟨_, rfl⟩
  obtain ⟨F, hF⟩ := this
  exact ⟨F, Except.bind_ok.mpr ⟨sol, h, Except.bind_ok.mpr ⟨F, hF, rfl⟩⟩⟩

#print axioms C57_numpy_to_jax_partial
#print axioms C57_numpy_to_jax_pinv_partial
#print axioms C57_jax_to_numpy
#print axioms C57_iff_partial
#print axioms C57_other_eig
#print axioms C57_fields
#print axioms C57_pinv_negation
#print axioms C57_extra_thickness_negation
#print axioms C57_field_call_negation

end Meent
