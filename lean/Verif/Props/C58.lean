import Verif.Lemmas.JaxObject
import Verif.Spec.JaxObject
import Verif.Props.C57
import Verif.Props.C55

/-!
# C58: a JAX solver survives being passed through a JAX transformation

`MeeJax` is registered as a pytree: JAX takes it apart (`_tree_flatten`) and puts it together again (`_tree_unflatten`).

* `C58_round_trip_partial`: all parameters survive and the solver gives the same outcome, provided `use_pinv` is off, the
  polarization is in range and neither an array assigned to `fto` nor one assigned to `ucell` was rejected.
* `C58_pinv_negation`: `use_pinv` is lost.
* `C58_psi_negation`: an object whose `psi` is out of range cannot be put together again.
-/

open Matrix

namespace Meent

/-- The object that `_tree_unflatten` builds. -/
private theorem unflatten {o : Obj} (ht : o.Tidy) (hc : o.Consistent) (hu : o.ucell ≠ none)
    (hp : -(1 / 10 ^ 6) < o.pol ∧ o.pol < 1 + 1 / 10 ^ 6) (hθ : o.theta = some 0 → o.perturbation = 0)
    (hf : ∃ x y, o.fto = .pair x y) :
    Jax.treeUnflatten (Jax.treeFlatten o) = .ok { o with use_pinv := false, grating := none, stored := .nothing } := by
  have h1 : ∀ x : Obj, x.perturbation = o.perturbation → setTheta o.theta x = ({ x with theta := o.theta }, .ok ()) := by
    intro x hx
    match h : o.theta with
    | none => rfl
    | some t =>
      unfold setTheta
      dsimp only
      by_cases h0 : t = 0
      · rw [if_pos h0, hx, hθ (by rw [h, h0]), h0]
      · rw [if_neg h0]
  obtain ⟨w, h2⟩ : ∃ w, ∀ x : Obj, Jax.setPol o.pol x = ({ x with pol := w, psi := Real.pi / 2 * (1 - w) }, .ok ()) := Jax.setPol_room hp
  have h3 : ∀ x : Obj, setPsi (some o.psi) x = ({ x with psi := o.psi, pol := o.pol }, .ok ()) := by
    intro x
    simp only [setPsi, ← ht.1]
  have h4 : ∀ x : Obj, setFto o.fto.read x = ({ x with fto := o.fto }, .ok ()) := by
    intro x
    obtain ⟨a, b, h⟩ := hf
    rw [h]
    rfl
  have h5 : ∀ x : Obj, setPeriod (readPeriod o) x = ({ x with period := o.period }, .ok ()) := by
    intro x
    have := ht.2
    unfold readPeriod
    rcases h : o.period with _ | ⟨a, _ | ⟨b, l⟩⟩
    · rfl
    · rw [h] at this; simp at this
    · simp [setPeriod, Num.val, Function.comp_def]
  have h6 : ∀ x : Obj, setThickness o.thickness.read x = ({ x with thickness := o.thickness }, .ok ()) := by
    intro x
    rcases h : o.thickness with l | t
    · simp [ThickVal.read, setThickness, Num.val, Function.comp_def]
    · rfl
  have h7 : ∀ x : Obj, Jax.setUcell (Jax.readUcell o) x = ({ x with ucell := o.ucell, modeling := o.modeling }, .ok ()) := by
    intro x
    unfold Jax.readUcell
    unfold Obj.Consistent at hc
    match h : o.ucell with
    | none => exact absurd h hu
    | some (.raster u) => rw [h] at hc; simp only at hc; rw [hc]; rfl
    | some (.vector u) => rw [h] at hc; simp only at hc; rw [hc]; rfl
  unfold Jax.treeUnflatten Jax.init andThen
  simp only [Jax.treeFlatten, h1, h2, h3, h4, h5, h6, h7, setPhi]

/-- **C58.**  `o` is any JAX object after any history.  Taking it apart and putting it together again gives an object with the
same parameters, which `conv_solve` treats in the same way: the same result or the same exception. -/
theorem C58_round_trip_partial (env : Jax.Env) (k : Kwargs) (ops : List Op) (o : Obj) (h : Spec.JaxHistory env k ops o)
    (hk : k.ucell ≠ .badDtype) (hn : Spec.NoRejectedArray ops) (hu : o.ucell ≠ none)
    (hp : -(1 / 10 ^ 6) < o.pol ∧ o.pol < 1 + 1 / 10 ^ 6) (hθ : o.theta = some 0 → o.perturbation = 0)
    (hf : ∃ x y, o.fto = .pair x y) (hpinv : o.use_pinv = false) :
    ∃ o', Jax.treeUnflatten (Jax.treeFlatten o) = .ok o' ∧ Spec.SameParameters o o' ∧
      (Jax.step env o' .convSolve).2 = (Jax.step env o .convSolve).2 := by
  obtain ⟨o0, h0, rfl⟩ := h
  obtain ⟨a, b, c, d, e, f, g, e1, e2, e3, e4, e5, e6, rfl, e8⟩ := Jax.init_ok h0
  have ht : (Jax.run env { g with fourier_type := k.fourier_type, enhanced_dfs := k.enhanced_dfs, use_pinv := k.use_pinv } ops).Tidy := by
    exact Jax.run_induction (A := fun _ => True) (Jax.init_tidy h0) (fun o op _ h => Jax.tidy_step op h) ops (fun _ _ => trivial)
  have hc : (Jax.run env { g with fourier_type := k.fourier_type, enhanced_dfs := k.enhanced_dfs, use_pinv := k.use_pinv } ops).Consistent := by
    refine Jax.run_induction (A := fun op => op ≠ .setUcell .badDtype) ?_ (fun o op ha h => Jax.consistent_step op ha h) ops ?_
    · have := Jax.setUcell_consistent (o := { f with algo := k.algo, stored := .nothing, modeling := none, grating := none, ucell := none })
        hk trivial
      rw [e6] at this
      exact this
    · intro op hop e
      exact hn (e ▸ hop)
  generalize Jax.run env { g with fourier_type := k.fourier_type, enhanced_dfs := k.enhanced_dfs, use_pinv := k.use_pinv } ops = o at *
  refine ⟨_, unflatten ht hc hu hp hθ hf, ?_, ?_⟩
  · constructor <;> first | rfl | exact hpinv
  · have key := Jax.step_congr env o none .nothing o.perturbation
    have e : ({ o with use_pinv := false, grating := none, stored := .nothing } : Obj)
        = { o with grating := none, stored := .nothing, perturbation := o.perturbation } := by
      rw [← hpinv]
    rw [e]; exact key

private theorem jax_exObj_init {v : ℝ} (h : 0 ≤ v ∧ v ≤ 1) (phi : Option ℂ) :
    Jax.init (exKwargs v phi) = .ok (exObj v phi) := by
  unfold Jax.init andThen
  simp only [exKwargs, setTheta, setPhi, Jax.setPol_in h, setPsi, setFto, setPeriod, setThickness, Jax.setUcell,
    if_neg exTheta_ne, Num.toInt]
  rfl

/-- A solver that has been used: the example grating, solved, then its wavelength and polarization changed. -/
private noncomputable def usedOps : List Op := [.convSolve, .setWavelength 2, .setPol 1]

/-- It survives. -/
example (env : Jax.Env) : ∃ o o0, Jax.init (exKwargs 0 none) = .ok o0 ∧ o = Jax.run env o0 usedOps ∧
    ∃ o', Jax.treeUnflatten (Jax.treeFlatten o) = .ok o' ∧ o'.wavelength = 2 ∧ o'.pol = 1 ∧
      (Jax.step env o' .convSolve).2 = (Jax.step env o .convSolve).2 := by
  have h0 := jax_exObj_init (v := 0) ⟨le_rfl, zero_le_one⟩ none
  obtain ⟨g, st, hfr⟩ := Jax.convSolve_frame env (exObj 0 none)
  have e : Jax.run env (exObj 0 none) usedOps
      = { exObj 0 none with grating := g, stored := st, wavelength := 2, pol := 1, psi := Real.pi / 2 * (1 - 1) } := by
    simp only [usedOps, Jax.run, List.foldl_cons, List.foldl_nil, Jax.step_convSolve_fst, hfr]
    simp only [Jax.step, Meent.step, Jax.setPol_in (v := 1) ⟨zero_le_one, le_rfl⟩, Out.ofSetter]
  obtain ⟨o', h1, h2, h3⟩ := C58_round_trip_partial env (exKwargs 0 none) usedOps _ ⟨_, h0, rfl⟩
    (by simp [exKwargs]) (by simp [Spec.NoRejectedArray, usedOps]) (by rw [e]; simp [exObj]) (by rw [e]; norm_num)
    (by rw [e]; intro h; exact absurd (Option.some.inj h) exTheta_ne) (by rw [e]; exact ⟨0, 0, rfl⟩) (by rw [e]; rfl)
  refine ⟨_, _, h0, rfl, o', h1, ?_, ?_, h3⟩
  · rw [← h2.wavelength, e]
  · rw [← h2.pol, e]

/-! ### What is lost -/

/-- **C58, `psi` out of range.**  The setter accepts `psi = 2`; the polarization is then `1 - 4/π < 0`, and putting the
object together again raises `ValueError`. -/
theorem C58_psi_negation (env : Jax.Env) : ∃ o0, Jax.init (exKwargs 0 none) = .ok o0 ∧
    (Jax.step env o0 (.setPsi (some 2))).2 = .done ∧
    Jax.treeUnflatten (Jax.treeFlatten (Jax.step env o0 (.setPsi (some 2))).1) = .error .valueError := by
  refine ⟨_, jax_exObj_init (v := 0) ⟨le_rfl, zero_le_one⟩ none, rfl, ?_⟩
  have hπ : Real.pi < 3.15 := Real.pi_lt_d2
  have hπ0 := Real.pi_pos
  have hlt : -(2 * 2 / Real.pi - 1) < -(1 / 10 ^ 6) := by
    have : (2 * 2 / 3.15 : ℝ) < 2 * 2 / Real.pi := by
      apply div_lt_div_of_pos_left <;> linarith
    norm_num at this ⊢
    linarith
  have hp : ∀ x : Obj, Jax.setPol (-(2 * 2 / Real.pi - 1)) x = (x, .error .valueError) := by
    intro x
    generalize -(2 * 2 / Real.pi - 1) = v at hlt ⊢
    have hv : v < 0 := hlt.trans (by norm_num)
    have h1 : ¬(1 < v ∧ v < 1 + 1 / 10 ^ 6) := fun h => by linarith [h.1]
    have h2 : ¬(0 - 1 / 10 ^ 6 < v ∧ v < 0) := fun h => by linarith [h.1]
    have h3 : ¬(0 ≤ v ∧ v ≤ 1) := fun h => by linarith [h.1]
    unfold Jax.setPol
    dsimp only
    rw [if_neg h1, if_neg h2, if_pos h3]
  unfold Jax.treeUnflatten Jax.init andThen
  simp only [Jax.step, Meent.step, Jax.treeFlatten, setPsi, exObj, Out.ofSetter, setTheta, setPhi, hp, if_neg exTheta_ne]

/-- Constructor arguments: the grating whose average permittivity vanishes, with `use_pinv=True` and the continuous Fourier
transform. -/
noncomputable def pinvKwargs : Kwargs := { exKwargs 0 none with ucell := .raster zeroCell, fourier_type := 1, use_pinv := true }

/-- The object they construct. -/
noncomputable def pinvObj : Obj := { exObj 0 none with ucell := some (.raster zeroCell), fourier_type := 1, use_pinv := true }

private theorem pinvObj_init : Jax.init pinvKwargs = .ok pinvObj := by
  unfold Jax.init andThen
  simp only [pinvKwargs, exKwargs, setTheta, setPhi, Jax.setPol_in (v := 0) ⟨le_rfl, zero_le_one⟩, setPsi, setFto, setPeriod,
    setThickness, Jax.setUcell, if_neg exTheta_ne, Num.toInt]
  rfl

private theorem zero_cont (la : LinAlg) :
    (∃ c, convRasterContinuous la ⟨1, 3, fun _ j => ![3, 4, -5 * Complex.I] j⟩ 0 0 true = .ok c) ∧
      convRasterContinuous la ⟨1, 3, fun _ j => ![3, 4, -5 * Complex.I] j⟩ 0 0 false = .error .linAlgError := by
  haveI : NeZero (Raster.mk 1 3 fun _ j => ![3, 4, -5 * Complex.I] j).ny := ⟨one_ne_zero⟩
  haveI : NeZero (Raster.mk 1 3 fun _ j => ![3, 4, -5 * Complex.I] j).nx := ⟨three_ne_zero⟩
  have hne : ∀ (x : Fin 3) (y : Fin 1), (![3, 4, -5 * Complex.I] x : ℂ) ^ 2 ≠ 0 := by
    intro x y
    fin_cases x <;> simp
  have p0 : ∀ (N : ℕ) [NeZero N] (a : Fin N → ℂ), pixL N a 0 = (∑ y, a y) / N := by
    intro N _ a
    rw [pixL_eq, dftCoeff_zero]
    simp [pixKappa]
  have h0 : ((3 : ℂ) ^ 2 + 4 ^ 2 + (5 * Complex.I) ^ 2) / 3 = 0 := by
    rw [mul_pow, Complex.I_sq]; norm_num
  have h1 : genConv (pixL 3) (pixL 1) true true 0 0 (fun x (y : Fin 1) => (![3, 4, -5 * Complex.I] x : ℂ) ^ 2)
      = .ok (0 : Matrix (FlatIdx 0 0) (FlatIdx 0 0) ℂ) := by
    rw [genConv_00_tt]
    simp only [p0, Fin.sum_univ_three]
    simp [h0]
  have h2 : ∃ m, genConv (pixL 3) (pixL 1) true false 0 0 (fun x (y : Fin 1) => (![3, 4, -5 * Complex.I] x : ℂ) ^ 2) = .ok m := by
    refine ⟨_, genConv_00_tf hne ?_⟩
    intro x
    have := hne x 0
    simpa [p0] using this
  have h3 : ∃ m, genConv (pixL 3) (pixL 1) false true 0 0 (fun x (y : Fin 1) => (![3, 4, -5 * Complex.I] x : ℂ) ^ 2) = .ok m := by
    refine ⟨_, genConv_00_ft ?_ ?_⟩
    · intro x
      have := hne x 0
      simpa [p0] using this
    · simp [p0, Fin.sum_univ_three]
      rw [mul_pow, Complex.I_sq]
      norm_num
  obtain ⟨m, hm⟩ := h2
  obtain ⟨m', hm'⟩ := h3
  have key : ∀ u, convRasterContinuous la ⟨1, 3, fun _ j => ![3, 4, -5 * Complex.I] j⟩ 0 0 u
      = (do let epzi ← meeinv la (0 : Matrix (FlatIdx 0 0) (FlatIdx 0 0) ℂ) u
            .ok { epx := m', epy := m, epzi := epzi }) := by
    intro u
    rw [convRaster_pix]
    simp only [bind, Except.bind]
    rw [h1]
    simp only
    rw [hm]
    simp only
    rw [hm']
  constructor
  · exact ⟨{ epx := m', epy := m, epzi := la.pinv 0 }, by rw [key]; rfl⟩
  · rw [key]
    simp [meeinv, npInv, bind, Except.bind]

/-- **C58, `use_pinv`.**  It is not among the values that are handed on.  This solver returns a result; after the round trip it
has `use_pinv = False` and raises. -/
theorem C58_pinv_negation (env : Jax.Env) : ∃ o o', Jax.init pinvKwargs = .ok o ∧
    Jax.treeUnflatten (Jax.treeFlatten o) = .ok o' ∧ o.use_pinv = true ∧ o'.use_pinv = false ∧
    (∃ r, (Jax.step env o .convSolve).2 = .result r) ∧ ∃ e, (Jax.step env o' .convSolve).2 = .raised e := by
  obtain ⟨⟨c, h1⟩, h2⟩ := zero_cont env.la
  have hu : Jax.treeUnflatten (Jax.treeFlatten pinvObj) = .ok { pinvObj with use_pinv := false, grating := none, stored := .nothing } := by
    refine unflatten (Jax.init_tidy pinvObj_init) ?_ (by simp [pinvObj]) ?_ ?_ ⟨0, 0, rfl⟩
    · simp [Obj.Consistent, pinvObj, exObj]
    · norm_num [pinvObj, exObj]
    · intro h; exact absurd (Option.some.inj h) exTheta_ne
  refine ⟨_, _, pinvObj_init, hu, rfl, rfl, ?_, ?_⟩
  · let s : Settings := { zeroSettings with fourier_type := 1 }
    have hs : pinvObj.settings (.raster zeroCell) 0 0 = s := by
      simp [Obj.settings, Obj.params, pinvObj, exObj, s, zeroSettings, exParams]
    have hc : convMats env.la s = .ok [c] := by
      simp only [convMats, s, zeroSettings, exParams, if_true, to_conv_mat_raster_continuous, Ucell.rasters, zeroCell,
        List.map_cons, List.map_nil, one_ne_zero, if_false]
      rw [mapM_ok]
      exact .cons h1 .nil
    obtain ⟨o, ho⟩ := solve_1d_pinv env.la s.p rfl rfl 1 [c.row] (by simp [s, zeroSettings, exParams])
    have hok : conv_solve env.la s = .ok (.tetm o) := by
      refine Except.bind_ok.mpr ⟨[c], hc, ?_⟩
      have hg : gratingType s = 0 := by simp [gratingType, s, zeroSettings, zeroCell, exParams]
      unfold solve_for_conv
      rw [hg]
      exact Except.bind_ok.mpr ⟨o, ho, rfl⟩
    refine (Jax.result_of (o := pinvObj) (u := .raster zeroCell) (fx := 0) (fy := 0) ?_ ?_ ?_).1 ?_
    · simp [Obj.structure, pinvObj, exObj]
    · simp [Obj.orders, pinvObj, exObj]
    · simp [Obj.ready, Obj.anglesReady, pinvObj, exObj]
    · rw [hs]
      exact ⟨_, C57_numpy_to_jax_partial env s (Or.inr (Or.inl (by simp [s]))) _ hok⟩
  · let s : Settings := { zeroSettings with fourier_type := 1, p := exParams 0 none }
    have hs : Obj.settings { pinvObj with use_pinv := false, grating := none, stored := .nothing } (.raster zeroCell) 0 0 = s := by
      simp [Obj.settings, Obj.params, pinvObj, exObj, s, zeroSettings, exParams]
    refine (Jax.result_of (o := { pinvObj with use_pinv := false, grating := none, stored := .nothing })
      (u := .raster zeroCell) (fx := 0) (fy := 0) ?_ ?_ ?_).2 ?_
    · simp [Obj.structure, pinvObj, exObj]
    · simp [Obj.orders, pinvObj, exObj]
    · simp [Obj.ready, Obj.anglesReady, pinvObj, exObj]
    · rw [hs]
      rintro ⟨sol, h⟩
      have h' := C57_jax_to_numpy env s (by
          intro u hu
          cases hu
          exact ⟨one_pos, three_pos⟩) (fun _ h => by cases h) (by simp [s, exParams, zeroSettings, Spec.layerCount, zeroCell]) sol h
      unfold conv_solve convMats at h'
      simp only [s, zeroSettings, exParams, one_ne_zero, if_false, to_conv_mat_raster_continuous, Ucell.rasters, zeroCell,
        List.map_cons, List.map_nil, List.mapM_cons, bind, Except.bind] at h'
      rw [h2] at h'
      cases h'

#print axioms C58_round_trip_partial
#print axioms C58_psi_negation
#print axioms C58_pinv_negation

end Meent
