import Verif.Model.Field

/-!
# The solver object: constructor, property setters, `conv_solve`, `calculate_field` as a state machine

/repo/meent/on_numpy/emsolver/_base.py:10-201, rcwa.py:43-224, /repo/meent/main.py:1-25.

An operation maps an object to the object afterwards and what the caller sees: a value or an exception.
An exception in the middle of a setter leaves the attributes assigned so far.

Simplifications: arithmetic is exact (`type_complex` only selects a precision in the code); angles and
indices are scalars, `pol` and `psi` real numbers; raster arrays have three axes; sequences assigned to
`fto`, `period`, `thickness` have numeric entries; `T1`, `layer_info_list` and the lists behind `fto` and
`ucell` are not modified by the user in place.
-/

namespace Meent

/-- A Python `int` or `float`.
on_numpy/emsolver/_base.py:150-199 -/
inductive Num
  | int (i : ℤ)
  | float (x : ℝ)

/-- Its value.
on_numpy/emsolver/_base.py:150-199 -/
def Num.val : Num → ℝ
  | .int i => i
  | .float x => x

/-- `int(v)`: truncation toward zero.
on_numpy/emsolver/_base.py:152-171 -/
noncomputable def Num.toInt : Num → ℤ
  | .int i => i
  | .float x => if 0 ≤ x then ⌊x⌋ else ⌈x⌉

/-- What can be assigned to `fto`, `period`, `thickness`.
on_numpy/emsolver/_base.py:148-201 -/
inductive Arg
  /-- a Python `int` or `float` -/
  | scalar (v : Num)
  /-- a list or tuple of numbers -/
  | seq (l : List Num)
  /-- a one-dimensional `ndarray` -/
  | arr (l : List Num)
  /-- a zero-dimensional `ndarray` -/
  | arr0 (v : Num)
  /-- anything else: `None`, `bool`, NumPy scalars, strings, … -/
  | other

/-- The value of `_fto`.  Besides the normal form (a list of two Python ints) it can be the raw
`tolist()` of a rejected array (_base.py:153). -/
inductive FtoVal
  | pair (x y : ℤ)
  | raw (l : List Num)

/-- The value of `_thickness`: an array of one axis, or of none.
on_numpy/emsolver/_base.py:195-201 -/
inductive ThickVal
  | list (l : List ℝ)
  | zeroD (t : ℝ)

/-- `_modeling_type_assigned`: 0 or 1 (or `None`, as an `Option`).
on_numpy/emsolver/rcwa.py:73, 92, 103 -/
inductive Modeling
  | raster
  | vector
  deriving DecidableEq

/-- What can be assigned to `ucell`.
on_numpy/emsolver/rcwa.py:89-108 -/
inductive UcellArg
  /-- an `ndarray` of a supported dtype -/
  | raster (u : Ucell)
  /-- an `ndarray` of any other dtype (e.g. bool, int16, object) -/
  | badDtype
  /-- a list of vector layers -/
  | vector (ls : List VLayer)
  | none
  | other

/-- What can be assigned to `type_complex`: 0, 1, `np.complex128`, `np.complex64` or something else.
on_numpy/emsolver/_base.py:19-24, 62-70 -/
inductive TypeArg
  | supported
  | unsupported

/-- What `T1` and `layer_info_list` hold.
on_numpy/emsolver/_base.py:46-47, 224-226 -/
inductive Stored
  /-- no solve yet, or the last one raised: `T1` is `None` -/
  | nothing
  /-- the outcome of the last solve -/
  | solved (fx fy : ℕ) (r : Solved fx fy)

/-- The attributes of a solver object.
on_numpy/emsolver/_base.py:10-47, on_numpy/emsolver/rcwa.py:68-82 -/
structure Obj where
  n_top : ℂ
  n_bot : ℂ
  theta : Option ℂ
  phi : Option ℂ
  psi : ℝ
  pol : ℝ
  fto : FtoVal
  period : List ℝ
  wavelength : ℝ
  thickness : ThickVal
  algo : Algo
  perturbation : ℂ
  use_pinv : Bool
  fourier_type : ℤ
  enhanced_dfs : Bool
  ucell : Option Structure
  modeling : Option Modeling
  grating : Option ℕ
  stored : Stored

/-- A setter returns the object after the assignment and `None` or an exception.
on_numpy/emsolver/_base.py:53-201, on_numpy/emsolver/rcwa.py:88-108 -/
abbrev Setter (α : Type) : Type := α → Obj → Obj × Res Unit

open Classical in
/-- `theta` setter (_base.py:92-98). -/
noncomputable def setTheta : Setter (Option ℂ)
  | .none, o => ({ o with theta := none }, .ok ())
  | some t, o => ({ o with theta := some (if t = 0 then o.perturbation else t) }, .ok ())

/-- `phi` setter (_base.py:104-110). -/
def setPhi : Setter (Option ℂ) := fun phi o => ({ o with phi := phi }, .ok ())

/-- `psi` setter (_base.py:116-121): nothing for `None`, no range check. -/
noncomputable def setPsi : Setter (Option ℝ)
  | .none, o => (o, .ok ())
  | some psi, o => ({ o with psi := psi, pol := -(2 * psi / Real.pi - 1) }, .ok ())

open Classical in
/-- `pol` setter (_base.py:133-140). -/
noncomputable def setPol : Setter ℝ := fun pol o =>
  if ¬(0 ≤ pol ∧ pol ≤ 1) then (o, .error .valueError)
  else ({ o with pol := pol, psi := Real.pi / 2 * (1 - pol) }, .ok ())

/-- `fto` setter (_base.py:146-171).  An array is first stored as `fto.tolist()` and validated
afterwards. -/
noncomputable def setFto : Setter Arg
  | .seq [a], o => ({ o with fto := .pair a.toInt 0 }, .ok ())
  | .seq [a, b], o => ({ o with fto := .pair a.toInt b.toInt }, .ok ())
  | .seq _, o => (o, .error .valueError)
  | .arr [a], o => ({ o with fto := .pair a.toInt 0 }, .ok ())
  | .arr [a, b], o => ({ o with fto := .pair a.toInt b.toInt }, .ok ())
  | .arr l, o => ({ o with fto := .raw l }, .error .valueError)
  | .arr0 v, o => ({ o with fto := .pair v.toInt 0 }, .ok ())
  | .scalar v, o => ({ o with fto := .pair v.toInt 0 }, .ok ())
  | .other, o => (o, .error .valueError)

/-- `period` setter (_base.py:177-186).  `len()` of a zero-dimensional array raises `TypeError`. -/
def setPeriod : Setter Arg
  | .scalar v, o => ({ o with period := [v.val, v.val] }, .ok ())
  | .seq [a], o => ({ o with period := [a.val, a.val] }, .ok ())
  | .seq l, o => ({ o with period := l.map Num.val }, .ok ())
  | .arr [a], o => ({ o with period := [a.val, a.val] }, .ok ())
  | .arr l, o => ({ o with period := l.map Num.val }, .ok ())
  | .arr0 _, o => (o, .error .typeError)
  | .other, o => (o, .error .valueError)

/-- `thickness` setter (_base.py:192-199). -/
def setThickness : Setter Arg
  | .scalar v, o => ({ o with thickness := .list [v.val] }, .ok ())
  | .seq l, o => ({ o with thickness := .list (l.map Num.val) }, .ok ())
  | .arr l, o => ({ o with thickness := .list (l.map Num.val) }, .ok ())
  | .arr0 v, o => ({ o with thickness := .zeroD v.val }, .ok ())
  | .other, o => (o, .error .valueError)

/-- What reading `fto` returns, as something that can be assigned: a list.
on_numpy/emsolver/_base.py:143-145 -/
def FtoVal.read : FtoVal → Arg
  | .pair x y => .seq [.int x, .int y]
  | .raw l => .seq l

/-- What reading `period` returns: an array.
on_numpy/emsolver/_base.py:175-177 -/
def readPeriod (o : Obj) : Arg := .arr (o.period.map .float)

/-- What reading `thickness` returns: an array.
on_numpy/emsolver/_base.py:190-192 -/
def ThickVal.read : ThickVal → Arg
  | .list l => .arr (l.map .float)
  | .zeroD t => .arr0 (.float t)

/-- `ucell` setter (rcwa.py:88-108).  For an array the modeling type is assigned before the dtype is
checked; `None` does not reset it. -/
def setUcell : Setter UcellArg
  | .raster u, o => ({ o with modeling := some .raster, ucell := some (.raster u) }, .ok ())
  | .badDtype, o => ({ o with modeling := some .raster }, .error .valueError)
  | .vector ls, o => ({ o with modeling := some .vector, ucell := some (.vector ls) }, .ok ())
  | .none, o => ({ o with ucell := none }, .ok ())
  | .other, o => (o, .error .valueError)

/-- `type_complex` setter (_base.py:60-80): the precision changes, then `theta`, `phi`, `psi`, `fto` and
`thickness` are assigned to themselves. -/
noncomputable def setTypeComplex : Setter TypeArg
  | .unsupported, o => (o, .error .valueError)
  | .supported, o =>
    let o1 := (setTheta o.theta o).1
    let r := setFto o1.fto.read o1
    match r.2 with
    | .error e => (r.1, .error e)
    | .ok () => setThickness r.1.thickness.read r.1

/-- The truncation orders as `conv_solve` reads them: `self.fto[0]`, `self.fto[1]`.  Simplification:
negative orders are reported as `ValueError` (the code asks for an array of negative size), non-integer
ones as `TypeError`.
on_numpy/emsolver/rcwa.py:179-192, on_numpy/emsolver/_base.py:205-206 -/
def Obj.orders (o : Obj) : Res (ℕ × ℕ) :=
  match o.fto with
  | .pair x y => if 0 ≤ x ∧ 0 ≤ y then .ok (x.toNat, y.toNat) else .error .valueError
  | .raw (.int x :: .int y :: _) => if 0 ≤ x ∧ 0 ≤ y then .ok (x.toNat, y.toNat) else .error .valueError
  | .raw (_ :: _ :: _) => .error .typeError
  | .raw _ => .error .indexError

/-- The parameters of a solve with orders `fx`, `fy`; only used when `theta` is given, `period` has at least
two entries and `thickness` has one axis (see `Obj.ready`).
on_numpy/emsolver/_base.py:203-418 -/
noncomputable def Obj.params (o : Obj) (fx fy : ℕ) : Params where
  n_top := o.n_top
  n_bot := o.n_bot
  theta := o.theta.getD 0
  phi := o.phi
  psi := (o.psi : ℂ)
  pol := o.pol
  fto := (fx, fy)
  period := (o.period.getD 0 0, o.period.getD 1 0)
  wavelength := o.wavelength
  thickness := match o.thickness with
    | .list l => l
    | .zeroD _ => []
  use_pinv := o.use_pinv

/-- All settings of a solve of the structure `u`.
on_numpy/emsolver/rcwa.py:173-199 -/
noncomputable def Obj.settings (o : Obj) (u : Structure) (fx fy : ℕ) : Settings where
  p := o.params fx fy
  ucell := u
  fourier_type := o.fourier_type
  enhanced_dfs := o.enhanced_dfs
  algo := o.algo

/-- What `get_kx_ky_vector` needs (_base.py:203-222): `self.theta.real` with `None` and `self.period[1]` out of
range raise. -/
def Obj.anglesReady (o : Obj) : Res Unit :=
  match o.theta with
  | none => .error .attributeError
  | some _ => if o.period.length < 2 then .error .indexError else .ok ()

/-- What a solver needs beyond the matrices: the above, and `len(self.thickness)` (_base.py:248, 308, 368), which
raises for a zero-dimensional array. -/
def Obj.ready (o : Obj) : Res Unit :=
  match o.anglesReady, o.thickness with
  | .error e, _ => .error e
  | .ok (), .list _ => .ok ()
  | .ok (), .zeroD _ => .error .typeError

/-- The structure as `conv_solve` finds it (rcwa.py:176-195): the modeling type selects how `ucell` is read.
`None.shape` and `list.shape` raise `AttributeError`; `enumerate(None)` raises `TypeError`; the last case (a
vector model whose `ucell` is an array) cannot be reached. -/
def Obj.structure (o : Obj) : Res Structure :=
  match o.modeling, o.ucell with
  | none, _ => .error .valueError
  | some .raster, u =>
    if o.fourier_type = 0 ∨ o.fourier_type = 1 then
      match u with
      | some (.raster c) => .ok (.raster c)
      | _ => .error .attributeError
    else .error .valueError
  | some .vector, some (.vector ls) => if o.period.length < 2 then .error .indexError else .ok (.vector ls)
  | some .vector, _ => .error .typeError

/-- What `conv_solve` returns.
on_numpy/emsolver/rcwa.py:8-26, 165-171 -/
structure AnyResult where
  fx : ℕ
  fy : ℕ
  result : Result fx fy

/-- `conv_solve` on the object (rcwa.py:173-199, 155-171 and the first lines of the solvers): the
convolution matrices are computed first, then the grating type is assigned and the stored fields are
dropped, then the solver runs. -/
noncomputable def convSolve (la : LinAlg) (o : Obj) : Obj × Res AnyResult :=
  match o.structure, o.orders with
  | .error e, _ => (o, .error e)
  | .ok _, .error e => (o, .error e)
  | .ok u, .ok (fx, fy) =>
    let s := o.settings u fx fy
    match convMats la s with
    | .error e => (o, .error e)
    | .ok convs =>
      let o1 := { o with grating := some (gratingType s), stored := .nothing }
      match o.ready with
      | .error e => (o1, .error e)
      | .ok () =>
        match solve_for_conv la s o.wavelength convs with
        | .error e => (o1, .error e)
        | .ok r => ({ o1 with stored := .solved fx fy r }, .ok ⟨fx, fy, r.result⟩)

/-- The grating type whose solver produced `r`.
on_numpy/emsolver/rcwa.py:155-163 -/
def Solved.grating {fx fy : ℕ} : Solved fx fy → ℕ
  | .tetm _ => 0
  | .conical _ => 1
  | .conicalSmm => 1
  | .twoD _ => 2

/-- A field array of any shape.
on_numpy/emsolver/rcwa.py:205-219 -/
structure AnyField where
  res_x : ℕ
  res_y : ℕ
  res_z : ℕ
  cell : FieldCell res_x res_y res_z

open Classical in
/-- `calculate_field` on the object (rcwa.py:201-219): the current wavelength, orders, period, angles and
polarization with the stored outcome of the last solve.  Without one, `T1` is `None` and indexing it raises
`TypeError` (simplification: after a TE/TM solve that raised before its first layer was finished the code
returns an empty array instead).  Simplification: if the orders or the grating type were changed since the
solve, the shapes do not fit and the model reports `ValueError`. -/
noncomputable def calculateField (o : Obj) (res_x res_y res_z : ℕ) (sel : Bool × Bool × Bool) : Res AnyField :=
  match o.anglesReady with
  | .error e => .error e
  | .ok () =>
    match o.stored with
    | .nothing => .error .typeError
    | .solved fx fy r =>
      if o.orders = .ok (fx, fy) ∧ o.grating = some r.grating then
        match calculate_field (o.params fx fy) r res_x res_y res_z sel with
        | .error e => .error e
        | .ok c => .ok ⟨res_x, res_y, res_z, c⟩
      else .error .valueError

/-- Everything a user can do with the object.
on_numpy/emsolver/_base.py:53-201, on_numpy/emsolver/rcwa.py:84-224 -/
inductive Op
  | setNTop (v : ℂ)
  | setNBot (v : ℂ)
  | setTheta (v : Option ℂ)
  | setPhi (v : Option ℂ)
  | setPsi (v : Option ℝ)
  | setPol (v : ℝ)
  | setFto (v : Arg)
  | setPeriod (v : Arg)
  | setWavelength (v : ℝ)
  | setThickness (v : Arg)
  | setAlgo (v : Algo)
  | setPerturbation (v : ℂ)
  | setUsePinv (v : Bool)
  | setFourierType (v : ℤ)
  | setEnhancedDfs (v : Bool)
  | setTypeComplex (v : TypeArg)
  | setUcell (v : UcellArg)
  | setGratingType (v : Option ℕ)
  | convSolve
  | calculateField (res_x res_y res_z : ℕ) (sel : Bool × Bool × Bool)

/-- What the caller sees.
on_numpy/emsolver/_base.py:53-201, on_numpy/emsolver/rcwa.py:84-224 -/
inductive Out
  | done
  | result (r : AnyResult)
  | field (f : AnyField)
  | raised (e : Err)

/-- Outcome of a setter.
on_numpy/emsolver/_base.py:53-201 -/
def Out.ofSetter : Obj × Res Unit → Obj × Out
  | (o, .ok ()) => (o, .done)
  | (o, .error e) => (o, .raised e)

/-- One operation.  Attributes without a property setter are assigned as they are.
on_numpy/emsolver/_base.py:53-201, on_numpy/emsolver/rcwa.py:84-224 -/
noncomputable def step (la : LinAlg) (o : Obj) : Op → Obj × Out
  | .setNTop v => ({ o with n_top := v }, .done)
  | .setNBot v => ({ o with n_bot := v }, .done)
  | .setTheta v => Out.ofSetter (setTheta v o)
  | .setPhi v => Out.ofSetter (setPhi v o)
  | .setPsi v => Out.ofSetter (setPsi v o)
  | .setPol v => Out.ofSetter (setPol v o)
  | .setFto v => Out.ofSetter (setFto v o)
  | .setPeriod v => Out.ofSetter (setPeriod v o)
  | .setWavelength v => ({ o with wavelength := v }, .done)
  | .setThickness v => Out.ofSetter (setThickness v o)
  | .setAlgo v => ({ o with algo := v }, .done)
  | .setPerturbation v => ({ o with perturbation := v }, .done)
  | .setUsePinv v => ({ o with use_pinv := v }, .done)
  | .setFourierType v => ({ o with fourier_type := v }, .done)
  | .setEnhancedDfs v => ({ o with enhanced_dfs := v }, .done)
  | .setTypeComplex v => Out.ofSetter (setTypeComplex v o)
  | .setUcell v => Out.ofSetter (setUcell v o)
  | .setGratingType v => ({ o with grating := v }, .done)
  | .convSolve => match convSolve la o with
    | (o', .ok r) => (o', .result r)
    | (o', .error e) => (o', .raised e)
  | .calculateField rx ry rz sel => match calculateField o rx ry rz sel with
    | .ok f => (o, .field f)
    | .error e => (o, .raised e)

/-- The object after a sequence of operations; exceptions are caught by the caller, who carries on.
on_numpy/emsolver/_base.py:53-201, on_numpy/emsolver/rcwa.py:84-224 -/
noncomputable def run (la : LinAlg) (o : Obj) (ops : List Op) : Obj := ops.foldl (fun o op => (step la o op).1) o

/-- Constructor arguments (rcwa.py:44-66). -/
structure Kwargs where
  n_top : ℂ := 1
  n_bot : ℂ := 1
  theta : Option ℂ := some 0
  phi : Option ℂ := none
  psi : Option ℝ := none
  period : Arg := .seq [.float 1, .float 1]
  wavelength : ℝ := 1
  ucell : UcellArg := .none
  thickness : Arg := .seq [.float 0]
  pol : ℝ := 0
  fto : Arg := .seq [.int 0, .int 0]
  algo : Algo := .tmm
  perturbation : ℂ := 1 / 10 ^ 20
  type_complex : TypeArg := .supported
  fourier_type : ℤ := 0
  enhanced_dfs : Bool := true
  use_pinv : Bool := false

/-- Continue after a setter unless it raised.
on_numpy/emsolver/_base.py:16-47 -/
def andThen (r : Obj × Res Unit) (f : Obj → Res Obj) : Res Obj :=
  match r.2 with
  | .ok () => f r.1
  | .error e => .error e

/-- `RCWANumpy.__init__` (rcwa.py:44-83, _base.py:11-50) on an object without attributes; `o` only fills the
fields of the record before they are assigned.  An exception means that there is no object. -/
noncomputable def initFrom (k : Kwargs) (o : Obj) : Res Obj :=
  match k.type_complex with
  | .unsupported => .error .valueError
  | .supported =>
    let o := { o with perturbation := k.perturbation, n_top := k.n_top, n_bot := k.n_bot }
    andThen (setTheta k.theta o) fun o =>
    andThen (setPhi k.phi o) fun o =>
    andThen (setPol k.pol o) fun o =>
    andThen (setPsi k.psi o) fun o =>
    andThen (setFto k.fto o) fun o =>
    andThen (setPeriod k.period o) fun o =>
    let o := { o with wavelength := k.wavelength }
    andThen (setThickness k.thickness o) fun o =>
    let o := { o with algo := k.algo, stored := .nothing, modeling := none, grating := none, ucell := none }
    andThen (setUcell k.ucell o) fun o =>
    .ok { o with fourier_type := k.fourier_type, enhanced_dfs := k.enhanced_dfs, use_pinv := k.use_pinv }

/-- Filler for the fields before the constructor assigned them.
on_numpy/emsolver/_base.py:10-47 -/
noncomputable def blank : Obj where
  n_top := 0
  n_bot := 0
  theta := none
  phi := none
  psi := 0
  pol := 0
  fto := .raw []
  period := []
  wavelength := 0
  thickness := .list []
  algo := .other
  perturbation := 0
  use_pinv := false
  fourier_type := 0
  enhanced_dfs := false
  ucell := none
  modeling := none
  grating := none
  stored := .nothing

/-- The constructor.
on_numpy/emsolver/_base.py:11-47, on_numpy/emsolver/rcwa.py:45-82 -/
noncomputable def init (k : Kwargs) : Res Obj := initFrom k blank

/-- `o` can be reached: a constructed object after any sequence of operations.
on_numpy/emsolver/_base.py:11-47, on_numpy/emsolver/rcwa.py:45-224 -/
def Reachable (la : LinAlg) (o : Obj) : Prop := ∃ k o0 ops, init k = .ok o0 ∧ o = run la o0 ops

/-! ### `call_mee` -/

/-- What can be passed as `backend`, as far as `==` with small integers sees it.
main.py:1, 14-20 -/
inductive BackendArg
  | int (i : ℤ)
  | float (x : ℝ)
  | bool (b : Bool)
  /-- strings, `None`, …: never equal to a number -/
  | other

open Classical in
/-- Python's `backend == k`; `True == 1` and `False == 0`.
main.py:14-20 -/
noncomputable def BackendArg.eqInt : BackendArg → ℤ → Bool
  | .int i, k => decide (i = k)
  | .float x, k => decide (x = (k : ℝ))
  | .bool b, k => decide ((if b then 1 else 0) = k)
  | .other, _ => false

/-- The three solver classes.
main.py:15-22 -/
inductive Backend
  | numpy
  | jax
  | torch
  deriving DecidableEq

/-- The dispatch of `call_mee` (main.py:14-25): the class that is instantiated. -/
noncomputable def call_mee (b : BackendArg) : Res Backend :=
  if b.eqInt 0 then .ok .numpy
  else if b.eqInt 1 then .ok .jax
  else if b.eqInt 2 then .ok .torch
  else .error .valueError

end Meent
