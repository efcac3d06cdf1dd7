import Verif.Lemmas.Object
import Verif.Lemmas.Example2D
import Verif.Lemmas.BareExample

/-!
# Concrete objects (helper lemmas)
-/

namespace Meent

/-- Constructor arguments of the example grating; everything not named has its default. -/
noncomputable def exKwargs (pol : ℝ) (phi : Option ℂ) : Kwargs where
  theta := some ((Real.pi / 6 : ℝ) : ℂ)
  phi := phi
  thickness := .seq [.float (1 / 3)]
  ucell := .raster exCell
  pol := pol
  enhanced_dfs := false

/-- The object they construct. -/
noncomputable def exObj (pol : ℝ) (phi : Option ℂ) : Obj where
  n_top := 1
  n_bot := 1
  theta := some ((Real.pi / 6 : ℝ) : ℂ)
  phi := phi
  psi := Real.pi / 2 * (1 - pol)
  pol := pol
  fto := .pair 0 0
  period := [1, 1]
  wavelength := 1
  thickness := .list [1 / 3]
  algo := .tmm
  perturbation := 1 / 10 ^ 20
  use_pinv := false
  fourier_type := 0
  enhanced_dfs := false
  ucell := some (.raster exCell)
  modeling := some .raster
  grating := none
  stored := .nothing

theorem exTheta_ne : ((Real.pi / 6 : ℝ) : ℂ) ≠ 0 := by
  rw [Complex.ofReal_ne_zero]; positivity

theorem setPol_ok {v : ℝ} (h : 0 ≤ v ∧ v ≤ 1) (o : Obj) :
    setPol v o = ({ o with pol := v, psi := Real.pi / 2 * (1 - v) }, .ok ()) := by
  unfold setPol; rw [if_neg (not_not.mpr h)]

theorem setPol_err {v : ℝ} (h : ¬(0 ≤ v ∧ v ≤ 1)) (o : Obj) : setPol v o = (o, .error .valueError) := by
  unfold setPol; rw [if_pos h]

theorem exObj_init {pol : ℝ} (h : 0 ≤ pol ∧ pol ≤ 1) (phi : Option ℂ) :
    init (exKwargs pol phi) = .ok (exObj pol phi) := by
  unfold init initFrom andThen
  simp only [exKwargs, setTheta, setPhi, setPol_ok h, setPsi, setFto, setPeriod, setThickness, setUcell,
    if_neg exTheta_ne, Num.toInt]
  rfl

theorem exObj_settings (pol : ℝ) (phi : Option ℂ) :
    (exObj pol phi).settings (.raster exCell) 0 0 = exSettings pol phi := by
  simp [Obj.settings, Obj.params, exObj, exSettings, exParams]

theorem exObj_structure (pol : ℝ) (phi : Option ℂ) : (exObj pol phi).structure = .ok (.raster exCell) := by
  simp [Obj.structure, exObj]

theorem exObj_orders (pol : ℝ) (phi : Option ℂ) : (exObj pol phi).orders = .ok (0, 0) := by
  simp [Obj.orders, exObj]

theorem exObj_ready (pol : ℝ) (phi : Option ℂ) : (exObj pol phi).ready = .ok () := by
  simp [Obj.ready, Obj.anglesReady, exObj]

/-- The TE solve succeeds. -/
theorem exObj_te : ∃ o : Out1D 1, convSolve exLA (exObj 0 none) =
    ({ exObj 0 none with grating := some 0, stored := .solved 0 0 (.tetm o) },
      .ok ⟨0, 0, (Solved.tetm o : Solved 0 0).result⟩) := by
  obtain ⟨o, ho⟩ := exTE_ok
  refine ⟨o, ?_⟩
  have h : conv_solve exLA ((exObj 0 none).settings (.raster exCell) 0 0) = .ok (Solved.tetm o : Solved 0 0) := ho
  have := convSolve_intro (exObj_structure 0 none) (exObj_orders 0 none) (exObj_ready 0 none) h
  rw [this, exObj_settings, exSettings_grating 0 (.inl rfl)]

/-- The conical solve succeeds. -/
theorem exObj_con (pol : ℝ) : ∃ o' r, convSolve exLA (exObj pol (some 0)) = (o', .ok r) := by
  obtain ⟨o, ho⟩ := exCon_ok pol
  have h : conv_solve exLA ((exObj pol (some 0)).settings (.raster exCell) 0 0) = .ok (Solved.conical o : Solved 0 0) := ho
  exact ⟨_, _, convSolve_intro (exObj_structure pol _) (exObj_orders pol _) (exObj_ready pol _) h⟩

/-- Constructor arguments of a vector model without layers: the bare interface. -/
noncomputable def bareKwargs : Kwargs where
  n_top := 2
  n_bot := ((1 : ℝ) : ℂ)
  theta := some ((Real.pi / 6 : ℝ) : ℂ)
  phi := some 0
  thickness := .seq []
  ucell := .vector []
  enhanced_dfs := false

/-- The object they construct. -/
noncomputable def bareObj : Obj where
  n_top := 2
  n_bot := ((1 : ℝ) : ℂ)
  theta := some ((Real.pi / 6 : ℝ) : ℂ)
  phi := some 0
  psi := Real.pi / 2 * (1 - 0)
  pol := 0
  fto := .pair 0 0
  period := [1, 1]
  wavelength := 1
  thickness := .list []
  algo := .tmm
  perturbation := 1 / 10 ^ 20
  use_pinv := false
  fourier_type := 0
  enhanced_dfs := false
  ucell := some (.vector [])
  modeling := some .vector
  grating := none
  stored := .nothing

theorem bareObj_init : init bareKwargs = .ok bareObj := by
  unfold init initFrom andThen
  simp only [bareKwargs, setTheta, setPhi, setPol_ok (v := 0) ⟨le_rfl, zero_le_one⟩, setPsi, setFto, setPeriod,
    setThickness, setUcell, if_neg exTheta_ne, Num.toInt]
  rfl

/-- The 2D solver handles the bare interface. -/
theorem bareVec_ok' (la : LinAlg) :
    ∃ o, conv_solve la { bareSettings ((1 : ℝ) : ℂ) 0 (some 0) with ucell := .vector [] } = .ok (.twoD o) ∧ o.infos = [] := by
  obtain ⟨o, ho⟩ := bareSettings_con_ok la 1 one_pos 0
  obtain ⟨cs, hc, -, -, ho⟩ := conv_solve_conical.mp ho
  rw [bareSettings_convs] at hc
  cases hc
  obtain ⟨-, -, init, r, x, h1, h2, h3, rfl⟩ := (solve_con_iff rfl).mp ho
  cases h2
  refine ⟨⟨x, []⟩, conv_solve_twoD.mpr ⟨[], ?_, ?_, rfl, ?_⟩, rfl⟩
  · simp [convMats, bareSettings, modeling_vector_instruction, to_conv_mat_vector]; rfl
  · simp [gratingType]
  · exact (solve_2d_iff (p := (bareSettings ((1 : ℝ) : ℂ) 0 (some 0)).p) rfl).mpr
      ⟨le_rfl, init, (init.2.2.2, []), x, h1, rfl, h3, rfl⟩

theorem bareVec_ok (la : LinAlg) :
    ∃ o, conv_solve la { bareSettings ((1 : ℝ) : ℂ) 0 (some 0) with ucell := .vector [] } = .ok (.twoD o) :=
  (bareVec_ok' la).imp fun _ h => h.1

theorem bareObj_ok (la : LinAlg) : ∃ o' r, convSolve la bareObj = (o', .ok r) := by
  obtain ⟨o, ho⟩ := bareVec_ok la
  have h : conv_solve la (bareObj.settings (.vector []) 0 0) = .ok (Solved.twoD o : Solved 0 0) := ho
  exact ⟨_, _, convSolve_intro (by simp [Obj.structure, bareObj]) (by simp [Obj.orders, bareObj])
    (by simp [Obj.ready, Obj.anglesReady, bareObj]) h⟩

end Meent
