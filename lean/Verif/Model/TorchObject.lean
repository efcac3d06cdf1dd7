import Verif.Model.Object
import Verif.Model.TorchField

/-!
# The PyTorch solver object: constructor, property setters, `conv_solve(**kwargs)`, `calculate_field`

/repo/meent/on_torch/emsolver/_base.py:13-242, /repo/meent/on_torch/emsolver/rcwa.py:48-277, /repo/meent/on_torch/mee.py:9-40,
/repo/meent/on_torch/modeler/modeling.py:60-74.

As in `Model/Object`, an operation maps an object to the object afterwards and what the caller sees, and an exception in the
middle of a setter leaves the attributes assigned so far.  The simplifications listed there apply here too.  In addition: tensors
and arrays are not told apart (the setters treat them alike), tensors are on the device of the object, and requesting gradients
has no influence on values.
-/

namespace Meent

/-- What can be passed as `device`: a number, a string, a `torch.device`, or something else.
on_torch/emsolver/_base.py:43-50, 87-95 -/
inductive DeviceArg
  | num (x : ℝ)
  | str (s : String)
  | dev (name : String)
  | other

/-- What can be assigned to `ucell`.
on_torch/emsolver/rcwa.py:94-126 -/
inductive TUcellArg
  /-- a tensor or array with three axes -/
  | raster (u : Ucell)
  /-- a tensor or array with four axes, the last of length 3 -/
  | aniso (u : Ucell3)
  /-- a tensor or array of any other shape -/
  | badShape
  /-- an array of a dtype that `torch.from_numpy` does not support -/
  | badDtype
  /-- a list of vector layers -/
  | vector (ls : List VLayer)
  /-- a list of vector layers with indices of three components -/
  | avector (ls : List AVLayer)
  | none
  | other

/-- The value of `_period`: a tensor of one axis, or of none.
on_torch/emsolver/_base.py:217-229 -/
inductive PeriodVal
  | list (l : List ℝ)
  | zeroD (t : ℝ)

/-- The attributes of a PyTorch solver object.
on_torch/emsolver/_base.py:37-80, on_torch/emsolver/rcwa.py:75-87 -/
structure TObj where
  device : String
  n_top : ℂ
  n_bot : ℂ
  theta : Option ℂ
  phi : Option ℂ
  psi : ℝ
  pol : ℝ
  fto : FtoVal
  period : PeriodVal
  wavelength : ℝ
  thickness : ThickVal
  algo : Algo
  perturbation : ℂ
  use_pinv : Bool
  fourier_type : ℤ
  enhanced_dfs : Bool
  ucell : Option TStructure
  modeling : Option Modeling
  grating : Option ℕ
  stored : Stored

/-- A setter returns the object after the assignment and `None` or an exception.
on_torch/emsolver/_base.py:82-242, on_torch/emsolver/rcwa.py:93-126 -/
abbrev TSetter (α : Type) : Type := α → TObj → TObj × Res Unit

namespace TObj

/-- `device` setter: 0, 1 or a `torch.device`; no strings.
on_torch/emsolver/_base.py:86-95 -/
noncomputable def setDevice : TSetter DeviceArg
  | .num x, o => if x = 0 then ({ o with device := "cpu" }, .ok ())
    else if x = 1 then ({ o with device := "cuda" }, .ok ())
    else (o, .error .valueError)
  | .dev d, o => ({ o with device := d }, .ok ())
  | _, o => (o, .error .valueError)

open Classical in
/-- `theta` setter (on_torch/emsolver/_base.py:131-137). -/
noncomputable def setTheta : TSetter (Option ℂ)
  | .none, o => ({ o with theta := none }, .ok ())
  | some t, o => ({ o with theta := some (if t = 0 then o.perturbation else t) }, .ok ())

/-- `phi` setter (on_torch/emsolver/_base.py:143-148). -/
def setPhi : TSetter (Option ℂ) := fun phi o => ({ o with phi := phi }, .ok ())

/-- `psi` setter (on_torch/emsolver/_base.py:154-160). -/
noncomputable def setPsi : TSetter (Option ℝ)
  | .none, o => (o, .ok ())
  | some psi, o => ({ o with psi := psi, pol := -(2 * psi / Real.pi - 1) }, .ok ())

open Classical in
/-- `pol` setter (on_torch/emsolver/_base.py:172-179). -/
noncomputable def setPol : TSetter ℝ := fun pol o =>
  if ¬(0 ≤ pol ∧ pol ≤ 1) then (o, .error .valueError)
  else ({ o with pol := pol, psi := Real.pi / 2 * (1 - pol) }, .ok ())

/-- `fto` setter (on_torch/emsolver/_base.py:185-211): an array is stored before it is validated. -/
noncomputable def setFto : TSetter Arg
  | .seq [a], o => ({ o with fto := .pair a.toInt 0 }, .ok ())
  | .seq [a, b], o => ({ o with fto := .pair a.toInt b.toInt }, .ok ())
  | .seq _, o => (o, .error .valueError)
  | .arr [a], o => ({ o with fto := .pair a.toInt 0 }, .ok ())
  | .arr [a, b], o => ({ o with fto := .pair a.toInt b.toInt }, .ok ())
  | .arr l, o => ({ o with fto := .raw l }, .error .valueError)
  | .arr0 v, o => ({ o with fto := .pair v.toInt 0 }, .ok ())
  | .scalar v, o => ({ o with fto := .pair v.toInt 0 }, .ok ())
  | .other, o => (o, .error .valueError)

/-- `period` setter (on_torch/emsolver/_base.py:217-229).  The tensor is stored before `len()` is taken of it, which raises
`TypeError` if it has no axis. -/
def setPeriod : TSetter Arg
  | .scalar v, o => ({ o with period := .list [v.val, v.val] }, .ok ())
  | .seq [a], o => ({ o with period := .list [a.val, a.val] }, .ok ())
  | .seq l, o => ({ o with period := .list (l.map Num.val) }, .ok ())
  | .arr [a], o => ({ o with period := .list [a.val, a.val] }, .ok ())
  | .arr l, o => ({ o with period := .list (l.map Num.val) }, .ok ())
  | .arr0 v, o => ({ o with period := .zeroD v.val }, .error .typeError)
  | .other, o => (o, .error .valueError)

/-- `thickness` setter (on_torch/emsolver/_base.py:235-242). -/
def setThickness : TSetter Arg
  | .scalar v, o => ({ o with thickness := .list [v.val] }, .ok ())
  | .seq l, o => ({ o with thickness := .list (l.map Num.val) }, .ok ())
  | .arr l, o => ({ o with thickness := .list (l.map Num.val) }, .ok ())
  | .arr0 v, o => ({ o with thickness := .zeroD v.val }, .ok ())
  | .other, o => (o, .error .valueError)

/-- `ucell` setter (on_torch/emsolver/rcwa.py:93-126).  The modeling type is assigned before an array is checked; `None` does not
reset it. -/
def setUcell : TSetter TUcellArg
  | .raster u, o => ({ o with modeling := some .raster, ucell := some (.iso (.raster u)) }, .ok ())
  | .aniso u, o => ({ o with modeling := some .raster, ucell := some (.aniso u) }, .ok ())
  | .badShape, o => ({ o with modeling := some .raster }, .error .valueError)
  | .badDtype, o => ({ o with modeling := some .raster }, .error .typeError)
  | .vector ls, o => ({ o with modeling := some .vector, ucell := some (.iso (.vector ls)) }, .ok ())
  | .avector ls, o => ({ o with modeling := some .vector, ucell := some (.avector ls) }, .ok ())
  | .none, o => ({ o with ucell := none }, .ok ())
  | .other, o => (o, .error .valueError)

/-- `type_complex` setter (on_torch/emsolver/_base.py:101-117): the precision changes, then `theta`, `phi`, `psi`, `fto` and
`thickness` are assigned to themselves. -/
noncomputable def setTypeComplex : TSetter TypeArg
  | .unsupported, o => (o, .error .valueError)
  | .supported, o =>
    let o1 := (setTheta o.theta o).1
    let r := setFto o1.fto.read o1
    match r.2 with
    | .error e => (r.1, .error e)
    | .ok () => setThickness r.1.thickness.read r.1

/-- The truncation orders as `conv_solve` reads them, with the simplifications of `Obj.orders`.
on_torch/emsolver/rcwa.py:203-217, on_torch/emsolver/_base.py:246-249 -/
def orders (o : TObj) : Res (ℕ × ℕ) :=
  match o.fto with
  | .pair x y => if 0 ≤ x ∧ 0 ≤ y then .ok (x.toNat, y.toNat) else .error .valueError
  | .raw (.int x :: .int y :: _) => if 0 ≤ x ∧ 0 ≤ y then .ok (x.toNat, y.toNat) else .error .valueError
  | .raw (_ :: _ :: _) => .error .typeError
  | .raw _ => .error .indexError

/-- `self.period[0]` and `self.period[1]`, if both exist.
on_torch/emsolver/_base.py:264-269 -/
def periods (o : TObj) : Option (ℝ × ℝ) :=
  match o.period with
  | .list (a :: b :: _) => some (a, b)
  | _ => none

/-- The parameters of a solve with orders `fx`, `fy`; only used when the object is ready.
on_torch/emsolver/_base.py:244-460 -/
noncomputable def params (o : TObj) (fx fy : ℕ) : Params where
  n_top := o.n_top
  n_bot := o.n_bot
  theta := o.theta.getD 0
  phi := o.phi
  psi := (o.psi : ℂ)
  pol := o.pol
  fto := (fx, fy)
  period := o.periods.getD (0, 0)
  wavelength := o.wavelength
  thickness := match o.thickness with
    | .list l => l
    | .zeroD _ => []
  use_pinv := o.use_pinv

/-- All settings of a solve of the structure `u`.
on_torch/emsolver/rcwa.py:196-224 -/
noncomputable def settings (o : TObj) (u : TStructure) (fx fy : ℕ) : TSettings where
  p := o.params fx fy
  ucell := u
  fourier_type := o.fourier_type
  enhanced_dfs := o.enhanced_dfs
  algo := o.algo

/-- What `get_kx_ky_vector` needs (on_torch/emsolver/_base.py:244-269): `torch.sin(None)` raises `TypeError`, a missing second
period `IndexError`. -/
def anglesReady (o : TObj) : Res Unit :=
  match o.theta with
  | none => .error .typeError
  | some _ => match o.periods with
    | none => .error .indexError
    | some _ => .ok ()

/-- What a solver needs beyond the matrices: the above, and `len(self.thickness)`.
on_torch/emsolver/_base.py:295, 356, 417 -/
def ready (o : TObj) : Res Unit :=
  match o.anglesReady, o.thickness with
  | .error e, _ => .error e
  | .ok (), .list _ => .ok ()
  | .ok (), .zeroD _ => .error .typeError

/-- The structure as `conv_solve` finds it (on_torch/emsolver/rcwa.py:199-220).  `None.shape` and `list.shape` raise
`AttributeError`, `enumerate(None)` raises `TypeError`; a vector model whose `ucell` is an array cannot be reached. -/
def struct (o : TObj) : Res TStructure :=
  match o.modeling, o.ucell with
  | none, _ => .error .valueError
  | some .raster, u =>
    if o.fourier_type = 0 ∨ o.fourier_type = 1 then
      match u with
      | some (.iso (.raster c)) => .ok (.iso (.raster c))
      | some (.aniso c) => .ok (.aniso c)
      | _ => .error .attributeError
    else .error .valueError
  | some .vector, some (.iso (.vector ls)) => match o.periods with
    | none => .error .indexError
    | some _ => .ok (.iso (.vector ls))
  | some .vector, some (.avector ls) => match o.periods with
    | none => .error .indexError
    | some _ => .ok (.avector ls)
  | some .vector, _ => .error .typeError

/-- `conv_solve()` on the object: the matrices, then the grating type, then the solver, which first drops the stored fields.
on_torch/emsolver/rcwa.py:166-194, 199-224 -/
noncomputable def convSolve (la : LinAlg) (o : TObj) : TObj × Res AnyResult :=
  match o.struct, o.orders with
  | .error e, _ => (o, .error e)
  | .ok _, .error e => (o, .error e)
  | .ok u, .ok (fx, fy) =>
    let s := o.settings u fx fy
    match tConvMats la s with
    | .error e => (o, .error e)
    | .ok convs =>
      let o1 := { o with grating := some (tGratingType s), stored := .nothing }
      match o.ready with
      | .error e => (o1, .error e)
      | .ok () =>
        match tSolve_for_conv la s o.wavelength convs with
        | .error e => (o1, .error e)
        | .ok r => ({ o1 with stored := .solved fx fy r }, .ok ⟨fx, fy, r.result⟩)

end TObj

/-- A field array of any shape.
on_torch/emsolver/rcwa.py:226-266 -/
structure AnyTField where
  res_x : ℕ
  res_y : ℕ
  res_z : ℕ
  cell : TFieldCell res_x res_y res_z

namespace TObj

open Classical in
/-- `calculate_field` on the object, with the simplifications of `Meent.calculateField`.
on_torch/emsolver/rcwa.py:226-266 -/
noncomputable def calculateField (o : TObj) (res_x res_y res_z : ℕ) (sel : Bool × Bool × Bool) : Res AnyTField :=
  match o.anglesReady with
  | .error e => .error e
  | .ok () =>
    match o.stored with
    | .nothing => .error .typeError
    | .solved fx fy r =>
      if o.orders = .ok (fx, fy) ∧ o.grating = some r.grating then
        match tCalculate_field (o.params fx fy) r res_x res_y res_z sel with
        | .error e => .error e
        | .ok c => .ok ⟨res_x, res_y, res_z, c⟩
      else .error .valueError

/-- An assignment to an attribute.
on_torch/emsolver/_base.py:82-242, on_torch/emsolver/rcwa.py:93-126, 161-164, 197 -/
inductive Assign
  | device (v : DeviceArg)
  | n_top (v : ℂ)
  | n_bot (v : ℂ)
  | theta (v : Option ℂ)
  | phi (v : Option ℂ)
  | psi (v : Option ℝ)
  | pol (v : ℝ)
  | fto (v : Arg)
  | period (v : Arg)
  | wavelength (v : ℝ)
  | thickness (v : Arg)
  | algo (v : Algo)
  | perturbation (v : ℂ)
  | use_pinv (v : Bool)
  | fourier_type (v : ℤ)
  | enhanced_dfs (v : Bool)
  | type_complex (v : TypeArg)
  | ucell (v : TUcellArg)
  | grating_type (v : Option ℕ)

/-- `setattr(self, name, value)`.  Attributes without a property setter are assigned as they are.
on_torch/emsolver/_base.py:82-242, on_torch/emsolver/rcwa.py:93-126, 161-164, 197 -/
noncomputable def setattr (o : TObj) : Assign → TObj × Res Unit
  | .device v => setDevice v o
  | .n_top v => ({ o with n_top := v }, .ok ())
  | .n_bot v => ({ o with n_bot := v }, .ok ())
  | .theta v => setTheta v o
  | .phi v => setPhi v o
  | .psi v => setPsi v o
  | .pol v => setPol v o
  | .fto v => setFto v o
  | .period v => setPeriod v o
  | .wavelength v => ({ o with wavelength := v }, .ok ())
  | .thickness v => setThickness v o
  | .algo v => ({ o with algo := v }, .ok ())
  | .perturbation v => ({ o with perturbation := v }, .ok ())
  | .use_pinv v => ({ o with use_pinv := v }, .ok ())
  | .fourier_type v => ({ o with fourier_type := v }, .ok ())
  | .enhanced_dfs v => ({ o with enhanced_dfs := v }, .ok ())
  | .type_complex v => setTypeComplex v o
  | .ucell v => setUcell v o
  | .grating_type v => ({ o with grating := v }, .ok ())

/-- `[setattr(self, k, v) for k, v in kwargs.items()]`: in order, up to the first exception.
on_torch/emsolver/rcwa.py:197, 270 -/
noncomputable def setattrs : TObj → List Assign → TObj × Res Unit
  | o, [] => (o, .ok ())
  | o, a :: as => match setattr o a with
    | (o', .error e) => (o', .error e)
    | (o', .ok ()) => setattrs o' as

/-- `conv_solve(**kwargs)`.
on_torch/emsolver/rcwa.py:196-224 -/
noncomputable def convSolveKw (la : LinAlg) (o : TObj) (kws : List Assign) : TObj × Res AnyResult :=
  match setattrs o kws with
  | (o', .error e) => (o', .error e)
  | (o', .ok ()) => convSolve la o'

/-- `conv_solve_field(res_x, res_y, res_z, set_field_input, **kwargs)`.
on_torch/emsolver/rcwa.py:268-274 -/
noncomputable def convSolveField (la : LinAlg) (o : TObj) (res_x res_y res_z : ℕ) (sel : Bool × Bool × Bool) (kws : List Assign) :
    TObj × Res (AnyResult × AnyTField) :=
  match setattrs o kws with
  | (o', .error e) => (o', .error e)
  | (o', .ok ()) => match convSolve la o' with
    | (o'', .error e) => (o'', .error e)
    | (o'', .ok r) => match calculateField o'' res_x res_y res_z sel with
      | .error e => (o'', .error e)
      | .ok f => (o'', .ok (r, f))

/-- Everything a user can do with the object.
on_torch/emsolver/_base.py:82-242, on_torch/emsolver/rcwa.py:93-277 -/
inductive Op
  | assign (a : Assign)
  | convSolve (kws : List Assign)
  | calculateField (res_x res_y res_z : ℕ) (sel : Bool × Bool × Bool)
  | convSolveField (res_x res_y res_z : ℕ) (sel : Bool × Bool × Bool) (kws : List Assign)

/-- The object after one operation, whether it returned or raised.
on_torch/emsolver/_base.py:82-242, on_torch/emsolver/rcwa.py:93-277 -/
noncomputable def step (la : LinAlg) (o : TObj) : Op → TObj
  | .assign a => (setattr o a).1
  | .convSolve kws => (convSolveKw la o kws).1
  | .calculateField _ _ _ _ => o
  | .convSolveField rx ry rz sel kws => (convSolveField la o rx ry rz sel kws).1

/-- The object after a sequence of operations; exceptions are caught by the caller, who carries on.
on_torch/emsolver/_base.py:82-242, on_torch/emsolver/rcwa.py:93-277 -/
noncomputable def run (la : LinAlg) (o : TObj) (ops : List Op) : TObj := ops.foldl (step la) o

/-- Constructor arguments of `MeeTorch`; `period` is `none` if it is not passed.
on_torch/mee.py:11, on_torch/emsolver/rcwa.py:48-70, on_torch/modeler/modeling.py:61 -/
structure Kwargs where
  device : DeviceArg := .num 0
  type_complex : TypeArg := .supported
  n_top : ℂ := 1
  n_bot : ℂ := 1
  theta : Option ℂ := some 0
  phi : Option ℂ := none
  psi : Option ℝ := none
  period : Option Arg := none
  wavelength : ℝ := 1
  ucell : TUcellArg := .none
  thickness : Arg := .seq [.float 0]
  pol : ℝ := 0
  fto : Arg := .seq [.int 0, .int 0]
  algo : Algo := .tmm
  perturbation : ℂ := 1 / 10 ^ 10
  fourier_type : ℤ := 0
  enhanced_dfs : Bool := true
  use_pinv : Bool := false

/-- Continue after a setter unless it raised.
on_torch/mee.py:11-40 -/
def andThen (r : TObj × Res Unit) (f : TObj → Res TObj) : Res TObj :=
  match r.2 with
  | .ok () => f r.1
  | .error e => .error e

/-- The device as the constructors read it: `device in (0, 'cpu')`, `device in (1, 'gpu', 'cuda')`, or a `torch.device`.
on_torch/mee.py:14-21, on_torch/emsolver/_base.py:42-50 -/
noncomputable def readDevice : DeviceArg → Res String
  | .num x => if x = 0 then .ok "cpu" else if x = 1 then .ok "cuda" else .error .valueError
  | .str s => if s = "cpu" then .ok "cpu" else if s = "gpu" ∨ s = "cuda" then .ok "cuda" else .error .valueError
  | .dev d => .ok d
  | .other => .error .valueError

open Classical in
/-- `_assign_grating_type()` at the end of the constructor: it does nothing without a structure.  Simplification: orders the
solvers cannot use are not looked at.
on_torch/emsolver/rcwa.py:81, 136-155 -/
noncomputable def assignGratingType (o : TObj) : TObj :=
  match o.modeling, o.ucell with
  | some _, some u => match o.orders with
    | .ok (fx, fy) => { o with grating := some (tGratingType (o.settings u fx fy)) }
    | .error _ => o
  | _, _ => o

/-- `RCWATorch.__init__` (rcwa.py:48-87, _base.py:37-80) on an object whose attributes are `o`; all of them are assigned.
on_torch/emsolver/rcwa.py:48-87, on_torch/emsolver/_base.py:37-80 -/
noncomputable def initRCWA (k : Kwargs) (o : TObj) : Res TObj :=
  match readDevice k.device, k.type_complex with
  | .error e, _ => .error e
  | .ok _, .unsupported => .error .valueError
  | .ok d, .supported =>
    let o := { o with device := d, perturbation := k.perturbation, n_top := k.n_top, n_bot := k.n_bot }
    andThen (setTheta k.theta o) fun o =>
    andThen (setPhi k.phi o) fun o =>
    andThen (setPol k.pol o) fun o =>
    andThen (setPsi k.psi o) fun o =>
    andThen (setFto k.fto o) fun o =>
    andThen (setPeriod (k.period.getD (.seq [.float 1, .float 1])) o) fun o =>
    let o := { o with wavelength := k.wavelength }
    andThen (setThickness k.thickness o) fun o =>
    let o := { o with algo := k.algo, use_pinv := k.use_pinv, stored := .nothing, modeling := none, grating := none }
    andThen (setUcell k.ucell o) fun o =>
    let o := assignGratingType o
    .ok { o with fourier_type := k.fourier_type, enhanced_dfs := k.enhanced_dfs, use_pinv := k.use_pinv }

/-- Filler for the fields before the constructor assigned them.
on_torch/mee.py:11-40 -/
noncomputable def blank : TObj where
  device := ""
  n_top := 0
  n_bot := 0
  theta := none
  phi := none
  psi := 0
  pol := 0
  fto := .raw []
  period := .list []
  wavelength := 0
  thickness := .list []
  algo := .other
  perturbation := 0
  use_pinv := false
  fourier_type := 0
  enhanced_dfs := false
  ucell := none
  modeling := none
  grating := none
  stored := .nothing

/-- `MeeTorch(**kwargs)`, which is what `call_mee(backend=2, **kwargs)` returns: the device and precision are read, `device` is
assigned through its setter, `ModelingTorch.__init__` assigns `period` (`None` if it is not passed) through its setter, and
`RCWATorch.__init__` runs.
on_torch/mee.py:11-40, on_torch/modeler/modeling.py:61-74 -/
noncomputable def init (k : Kwargs) : Res TObj :=
  match readDevice k.device, k.type_complex with
  | .error e, _ => .error e
  | .ok _, .unsupported => .error .valueError
  | .ok d, .supported =>
    andThen (setDevice k.device { blank with device := d }) fun o =>
    andThen (setPeriod (k.period.getD .other) o) fun o =>
    initRCWA k o

end TObj

end Meent
