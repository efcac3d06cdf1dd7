import Verif.Lemmas.TorchObject
import Verif.Lemmas.ObjectExample
import Verif.Props.C40

/-!
# A PyTorch solver object for examples (helper lemmas)
-/

namespace Meent.TObj

/-- Constructor arguments of the two-pixel grating of `exSettings`. -/
noncomputable def exKwargs (pol : ℝ) : Kwargs where
  theta := some ((Real.pi / 6 : ℝ) : ℂ)
  period := some (.seq [.float 1, .float 1])
  thickness := .seq [.float (1 / 3)]
  ucell := .raster exCell
  pol := pol
  enhanced_dfs := false

/-- The object they construct, up to the grating type. -/
noncomputable def exObj (pol : ℝ) : TObj where
  device := "cpu"
  n_top := 1
  n_bot := 1
  theta := some ((Real.pi / 6 : ℝ) : ℂ)
  phi := none
  psi := Real.pi / 2 * (1 - pol)
  pol := pol
  fto := .pair 0 0
  period := .list [1, 1]
  wavelength := 1
  thickness := .list [1 / 3]
  algo := .tmm
  perturbation := 1 / 10 ^ 10
  use_pinv := false
  fourier_type := 0
  enhanced_dfs := false
  ucell := some (.iso (.raster exCell))
  modeling := some .raster
  grating := none
  stored := .nothing

theorem setPol_ok {v : ℝ} (h : 0 ≤ v ∧ v ≤ 1) (o : TObj) :
    setPol v o = ({ o with pol := v, psi := Real.pi / 2 * (1 - v) }, .ok ()) := by
  unfold setPol; rw [if_neg (not_not.mpr h)]

theorem exObj_computes {pol : ℝ} (h : 0 ≤ pol ∧ pol ≤ 1) :
    Computes (exKwargs pol) "cpu" (.pair 0 0) (.list [1, 1]) (.list [1 / 3]) (some (.iso (.raster exCell))) (some .raster) where
  hc := rfl
  hd := by simp [exKwargs, readDevice]
  hd' := by simp [exKwargs, setDevice]
  h1 := setPol_ok h
  h2 := by simp [exKwargs, setFto, Num.toInt]
  hp := ⟨_, rfl, by simp [setPeriod, Num.val]⟩
  h4 := by simp [exKwargs, setThickness, Num.val]
  h5 := fun q _ _ => rfl

theorem exObj_init {pol : ℝ} (h : 0 ≤ pol ∧ pol ≤ 1) : ∃ o, init (exKwargs pol) = .ok o ∧ o.core = exObj pol := by
  obtain ⟨o, h1, h2⟩ := init_intro (exObj_computes h)
  refine ⟨o, h1, h2.trans ?_⟩
  simp only [built, exKwargs, exObj, Option.map_some, if_neg exTheta_ne]

theorem exObj_settings (pol : ℝ) : (exObj pol).settings (.iso (.raster exCell)) 0 0 = (exSettings pol none).torch := by
  simp [settings, params, periods, exObj, exSettings, exParams, Settings.torch]

theorem exObj_struct (pol : ℝ) : (exObj pol).struct = .ok (.iso (.raster exCell)) := by
  simp [struct, exObj]

theorem exObj_orders (pol : ℝ) : (exObj pol).orders = .ok (0, 0) := by
  simp [orders, exObj]

theorem exObj_ready (pol : ℝ) : (exObj pol).ready = .ok () := by
  simp [ready, anglesReady, periods, exObj]

theorem exTorch_ok (pol : ℝ) (hpol : pol = 0 ∨ pol = 1) : ∃ o : Out1D 1, tConv_solve exLA (exSettings pol none).torch = .ok (.tetm o : Solved 0 0) := by
  have hl : Spec.LosslessCladdings (exSettings pol none).p :=
    { (exSettings_lossless pol none (by simp)).toRealIllumination with
      n_bot_real := by simp [exSettings, exParams, Spec.IsReal], n_bot_pos := by simp [exSettings, exParams] }
  obtain ⟨o, ho⟩ : ∃ o, conv_solve exLA (exSettings pol none) = .ok (.tetm o) := by
    rcases hpol with rfl | rfl
    · exact exTE_ok
    · exact exTM_ok
  obtain ⟨sol', h1, h2, -⟩ := C40_tetm_partial hl (exSettings_grating pol hpol) ho
  cases sol' with
  | tetm o' => exact ⟨o', h1⟩
  | conical o' => exact absurd h2 (by simp [Solved.result, Spec.SameEfficiencies])
  | conicalSmm => exact absurd h2 (by simp [Solved.result, Spec.SameEfficiencies])
  | twoD o' => exact absurd h2 (by simp [Solved.result, Spec.SameEfficiencies])

theorem exObj_solve (pol : ℝ) (hpol : pol = 0 ∨ pol = 1) : ∃ o : Out1D 1, ∃ g, convSolve exLA (exObj pol) =
    ({ exObj pol with grating := g, stored := .solved 0 0 (.tetm o) }, .ok ⟨0, 0, (Solved.tetm o : Solved 0 0).result⟩) := by
  obtain ⟨o, ho⟩ := exTorch_ok pol hpol
  have h : tConv_solve exLA ((exObj pol).settings (.iso (.raster exCell)) 0 0) = .ok (.tetm o : Solved 0 0) := ho
  exact ⟨o, _, convSolve_intro (exObj_struct pol) (exObj_orders pol) (exObj_ready pol) h⟩

/-- Constructor arguments of a vector model without layers: the bare interface. -/
noncomputable def bareKwargs : Kwargs where
  n_top := 2
  n_bot := ((1 : ℝ) : ℂ)
  theta := some ((Real.pi / 6 : ℝ) : ℂ)
  phi := some 0
  period := some (.seq [.float 1, .float 1])
  thickness := .seq []
  ucell := .vector []
  enhanced_dfs := false

/-- The object they construct, up to the grating type. -/
noncomputable def bareObj : TObj where
  device := "cpu"
  n_top := 2
  n_bot := ((1 : ℝ) : ℂ)
  theta := some ((Real.pi / 6 : ℝ) : ℂ)
  phi := some 0
  psi := Real.pi / 2 * (1 - 0)
  pol := 0
  fto := .pair 0 0
  period := .list [1, 1]
  wavelength := 1
  thickness := .list []
  algo := .tmm
  perturbation := 1 / 10 ^ 10
  use_pinv := false
  fourier_type := 0
  enhanced_dfs := false
  ucell := some (.iso (.vector []))
  modeling := some .vector
  grating := none
  stored := .nothing

theorem bareObj_init : ∃ o, init bareKwargs = .ok o ∧ o.core = bareObj := by
  obtain ⟨o, h1, h2⟩ := init_intro (k := bareKwargs) (d := "cpu") (f := .pair 0 0) (p := .list [1, 1]) (t := .list [])
    (u := some (.iso (.vector []))) (m := some .vector)
    { hc := rfl
      hd := by simp [bareKwargs, readDevice]
      hd' := by simp [bareKwargs, setDevice]
      h1 := setPol_ok ⟨le_rfl, zero_le_one⟩
      h2 := by simp [bareKwargs, setFto, Num.toInt]
      hp := ⟨_, rfl, by simp [setPeriod, Num.val]⟩
      h4 := by simp [bareKwargs, setThickness, Num.val]
      h5 := fun q _ _ => rfl }
  refine ⟨o, h1, h2.trans ?_⟩
  simp only [built, bareKwargs, bareObj, Option.map_some, if_neg exTheta_ne]

theorem bareObj_ok (la : LinAlg) : ∃ o' r, convSolve la bareObj = (o', .ok r) := by
  obtain ⟨o, ho, hi⟩ := bareVec_ok' la
  have hl : Spec.LosslessCladdings (bareSettings ((1 : ℝ) : ℂ) 0 (some 0)).p :=
    { bareSettings_illumination _ 0 (some 0) (by simp [Spec.IsReal]) with
      n_bot_real := by simp [bareSettings, Spec.IsReal], n_bot_pos := by simp [bareSettings] }
  obtain ⟨sol, x, x', h, -⟩ := out4_torch (la := la) (s := { bareSettings ((1 : ℝ) : ℂ) 0 (some 0) with ucell := .vector [] })
    hl ((bareSettings ((1 : ℝ) : ℂ) 0 (some 0)).p.psi) (.inl (by simp [gratingType])) rfl ho
    (by intro o' h l hl; cases h; rw [hi] at hl; cases hl)
  have h : tConv_solve la (bareObj.settings (.iso (.vector [])) 0 0) = .ok (sol : Solved 0 0) := h
  exact ⟨_, _, convSolve_intro (by simp [struct, bareObj, periods]) (by simp [orders, bareObj])
    (by simp [ready, anglesReady, bareObj, periods]) h⟩

end Meent.TObj
