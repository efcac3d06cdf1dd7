import Verif.Model.Object

/-!
# Specification vocabulary: histories of a solver object
-/

namespace Meent.Spec

/-- The three formulations. -/
inductive Formulation
  | teTm
  | conical
  | full2d
  deriving DecidableEq

open Classical in
/-- The formulation a user expects for the structure and settings in force. -/
noncomputable def expected (u : Structure) (pol : ℝ) (phi : Option ℂ) (fto_y : ℕ) : Formulation :=
  match u with
  | .vector _ => .full2d
  | .raster c =>
    if c.ny ≠ 1 then .full2d
    else if (pol = 0 ∨ pol = 1) ∧ phi = none ∧ fto_y = 0 then .teTm
    else .conical

/-- The number reported by `grating_type_assigned`. -/
def Formulation.code : Formulation → ℕ
  | .teTm => 0
  | .conical => 1
  | .full2d => 2

/-- `r` is what the solver of the formulation `f` returns for the settings `s`. -/
def ReturnedBy (la : LinAlg) (s : Settings) (f : Formulation) (r : Result s.p.fto.1 s.p.fto.2) : Prop :=
  ∃ convs, convMats la s = .ok convs ∧
    match f with
    | .teTm => s.algo = .tmm ∧ ∃ o, solve_1d la s.p s.p.wavelength (convs.map Conv.row) = .ok o ∧
        r = ⟨some (o.res.row1 _), none, none⟩
    | .conical => (s.algo = .tmm ∧ ∃ o, solve_1d_conical la s.p s.p.wavelength convs = .ok o ∧
        r = ⟨some o.out.res, some o.out.res_te, some o.out.res_tm⟩) ∨ (s.algo = .smm ∧ r = ⟨none, none, none⟩)
    | .full2d => s.algo = .tmm ∧ ∃ o, solve_2d la s.p s.p.wavelength convs = .ok o ∧
        r = ⟨some o.out.res, some o.out.res_te, some o.out.res_tm⟩

/-- A history: a constructed object and the operations applied to it; `o` is the object now. -/
def History (la : LinAlg) (k : Kwargs) (ops : List Op) (o : Obj) : Prop := ∃ o0, init k = .ok o0 ∧ o = run la o0 ops

/-- No structure was ever passed, neither to the constructor nor later. -/
def NoStructure (k : Kwargs) (ops : List Op) : Prop :=
  (k.ucell = .none) ∧ ∀ v, Op.setUcell v ∈ ops → v = .none ∨ v = .other

/-- No array of an unsupported dtype was ever assigned to `ucell`. -/
def NoRejectedArray (ops : List Op) : Prop := Op.setUcell .badDtype ∉ ops

/-- Every value ever assigned to `psi` lies in `[0, π/2]`. -/
def PsiInRange (k : Kwargs) (ops : List Op) : Prop :=
  (∀ ψ, k.psi = some ψ → 0 ≤ ψ ∧ ψ ≤ Real.pi / 2) ∧
    ∀ ψ, Op.setPsi (some ψ) ∈ ops → 0 ≤ ψ ∧ ψ ≤ Real.pi / 2

/-- All parameters a user can read and assign have the same values. -/
structure SameParameters (a b : Obj) : Prop where
  n_top : a.n_top = b.n_top
  n_bot : a.n_bot = b.n_bot
  theta : a.theta = b.theta
  phi : a.phi = b.phi
  psi : a.psi = b.psi
  pol : a.pol = b.pol
  fto : a.fto = b.fto
  period : a.period = b.period
  wavelength : a.wavelength = b.wavelength
  thickness : a.thickness = b.thickness
  algo : a.algo = b.algo
  use_pinv : a.use_pinv = b.use_pinv
  fourier_type : a.fourier_type = b.fourier_type
  enhanced_dfs : a.enhanced_dfs = b.enhanced_dfs
  ucell : a.ucell = b.ucell

/-- The parameters as settings of one solve of structure `u`: `theta` given, two periods, a list of thicknesses,
two non-negative orders. -/
structure Reads (o : Obj) (s : Settings) : Prop where
  ucell : o.ucell = some s.ucell
  n_top : s.p.n_top = o.n_top
  n_bot : s.p.n_bot = o.n_bot
  theta : o.theta = some s.p.theta
  phi : s.p.phi = o.phi
  psi : s.p.psi = (o.psi : ℂ)
  pol : s.p.pol = o.pol
  orders : o.orders = .ok s.p.fto
  period : ∃ rest, o.period = s.p.period.1 :: s.p.period.2 :: rest
  wavelength : s.p.wavelength = o.wavelength
  thickness : o.thickness = .list s.p.thickness
  use_pinv : s.p.use_pinv = o.use_pinv
  fourier_type : s.fourier_type = o.fourier_type
  enhanced_dfs : s.enhanced_dfs = o.enhanced_dfs
  algo : s.algo = o.algo

/-- Normal form of `fto`: two integers, a missing y order is 0; `none` for unsupported input. -/
noncomputable def normalFto : Arg → Option (ℤ × ℤ)
  | .scalar v => some (v.toInt, 0)
  | .arr0 v => some (v.toInt, 0)
  | .seq [v] => some (v.toInt, 0)
  | .arr [v] => some (v.toInt, 0)
  | .seq [v, w] => some (v.toInt, w.toInt)
  | .arr [v, w] => some (v.toInt, w.toInt)
  | _ => none

/-- Normal form of `period`: one value per axis, a single value counts for both; `none` for unsupported input. -/
def normalPeriod : Arg → Option (ℝ × ℝ)
  | .scalar v => some (v.val, v.val)
  | .arr0 v => some (v.val, v.val)
  | .seq [v] => some (v.val, v.val)
  | .arr [v] => some (v.val, v.val)
  | .seq [v, w] => some (v.val, w.val)
  | .arr [v, w] => some (v.val, w.val)
  | _ => none

/-- Normal form of `thickness`: the list of thicknesses. -/
def normalThickness : Arg → Option (List ℝ)
  | .scalar v => some [v.val]
  | .arr0 v => some [v.val]
  | .seq l => some (l.map Num.val)
  | .arr l => some (l.map Num.val)
  | .other => none

/-- An array. -/
def IsArray : Arg → Prop
  | .arr _ => True
  | .arr0 _ => True
  | _ => False

/-- Every array ever assigned to `fto` had one or two entries (or no axis). -/
def FtoArraysFit (ops : List Op) : Prop := ∀ v, Op.setFto v ∈ ops → IsArray v → (normalFto v).isSome

end Meent.Spec
