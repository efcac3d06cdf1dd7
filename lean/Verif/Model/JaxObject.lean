import Verif.Model.Object
import Verif.Model.Jax

/-!
# The JAX solver object: setters, `conv_solve(**kwargs)`, and its pytree form

/repo/meent/on_jax/emsolver/_base.py:25-239, /repo/meent/on_jax/emsolver/rcwa.py:50-243,
/repo/meent/on_jax/mee.py:6-33, /repo/meent/on_jax/__init__.py:11-13.

The attributes are those of the NumPy object (`Obj`), and so are the simplifications listed there; setters that read
as in NumPy are shared.  Devices and traced values are not modelled.  Simplification: an empty `period` is reported as
`IndexError`, as in NumPy (JAX leaves the outcome of the read unspecified).
-/

namespace Meent.Jax

open Classical in
/-- `pol` setter: values up to 1e-6 outside `[0, 1]` are moved to the nearest end.
on_jax/emsolver/_base.py:156-170 -/
noncomputable def setPol : Setter ℝ := fun pol o =>
  let room : ℝ := 1 / 10 ^ 6
  let pol := if 1 < pol ∧ pol < 1 + room then 1 else if 0 - room < pol ∧ pol < 0 then 0 else pol
  if ¬(0 ≤ pol ∧ pol ≤ 1) then (o, .error .valueError)
  else ({ o with pol := pol, psi := Real.pi / 2 * (1 - pol) }, .ok ())

/-- `ucell` setter: an array of an unsupported dtype is dropped without an exception, after the modeling type has been
assigned.  Simplification: in the constructor this leaves the attribute undefined, which the model reports like `None`.
on_jax/emsolver/rcwa.py:95-121 -/
def setUcell : Setter UcellArg
  | .raster u, o => ({ o with modeling := some .raster, ucell := some (.raster u) }, .ok ())
  | .badDtype, o => ({ o with modeling := some .raster }, .ok ())
  | .vector ls, o => ({ o with modeling := some .vector, ucell := some (.vector ls) }, .ok ())
  | .none, o => ({ o with ucell := none }, .ok ())
  | .other, o => (o, .error .valueError)

/-- `conv_solve()` on the object.
on_jax/emsolver/rcwa.py:217-243, 176-206 -/
noncomputable def convSolve (env : Env) (o : Obj) : Obj × Res AnyResult :=
  match o.structure, o.orders with
  | .error e, _ => (o, .error e)
  | .ok _, .error e => (o, .error e)
  | .ok u, .ok (fx, fy) =>
    let s := o.settings u fx fy
    match convMats env s with
    | .error e => (o, .error e)
    | .ok convs =>
      let o1 := { o with grating := some (gratingType s), stored := .nothing }
      match o.ready with
      | .error e => (o1, .error e)
      | .ok () =>
        match solve_for_conv env s o.wavelength convs with
        | .error e => (o1, .error e)
        | .ok r => ({ o1 with stored := .solved fx fy r }, .ok ⟨fx, fy, r.result⟩)

/-- One operation.  `theta`, `phi`, `psi`, `fto`, `period`, `thickness` and `type_complex` setters read as in NumPy.
on_jax/emsolver/_base.py:80-239, on_jax/emsolver/rcwa.py:91-280 -/
noncomputable def step (env : Env) (o : Obj) : Op → Obj × Out
  | .setPol v => Out.ofSetter (setPol v o)
  | .setUcell v => Out.ofSetter (setUcell v o)
  | .convSolve => match convSolve env o with
    | (o', .ok r) => (o', .result r)
    | (o', .error e) => (o', .raised e)
  | op => Meent.step env.la o op

/-- The object after a sequence of operations.
on_jax/emsolver/_base.py:80-239, on_jax/emsolver/rcwa.py:91-280 -/
noncomputable def run (env : Env) (o : Obj) (ops : List Op) : Obj := ops.foldl (fun o op => (step env o op).1) o

/-- The constructor.
on_jax/emsolver/rcwa.py:51-87, on_jax/emsolver/_base.py:27-65 -/
noncomputable def init (k : Kwargs) : Res Obj :=
  match k.type_complex with
  | .unsupported => .error .valueError
  | .supported =>
    let o := { blank with perturbation := k.perturbation, n_top := k.n_top, n_bot := k.n_bot }
    andThen (setTheta k.theta o) fun o =>
    andThen (setPhi k.phi o) fun o =>
    andThen (setPol k.pol o) fun o =>
    andThen (setPsi k.psi o) fun o =>
    andThen (setFto k.fto o) fun o =>
    andThen (setPeriod k.period o) fun o =>
    let o := { o with wavelength := k.wavelength }
    andThen (setThickness k.thickness o) fun o =>
    let o := { o with algo := k.algo, stored := .nothing, modeling := none, grating := none, ucell := none }
    andThen (setUcell k.ucell o) fun o =>
    .ok { o with fourier_type := k.fourier_type, enhanced_dfs := k.enhanced_dfs, use_pinv := k.use_pinv }

/-- `[setattr(self, k, v) for k, v in kwargs.items()]`: the assignments are made in order; the first exception ends the
call.
on_jax/emsolver/rcwa.py:218 -/
noncomputable def setAttrs (env : Env) : Obj → List Op → Obj × Res Unit
  | o, [] => (o, .ok ())
  | o, op :: ops => match step env o op with
    | (o', .raised e) => (o', .error e)
    | (o', _) => setAttrs env o' ops

/-- `conv_solve(**kwargs)`; `kws` are assignments.
on_jax/emsolver/rcwa.py:216-243 -/
noncomputable def convSolveKw (env : Env) (o : Obj) (kws : List Op) : Obj × Res AnyResult :=
  match setAttrs env o kws with
  | (o', .error e) => (o', .error e)
  | (o', .ok ()) => convSolve env o'

/-! ### `MeeJax` as a pytree -/

/-- What reading `ucell` returns, as something that can be passed to the constructor.
on_jax/emsolver/rcwa.py:91-93 -/
def readUcell (o : Obj) : UcellArg :=
  match o.ucell with
  | none => .none
  | some (.raster u) => .raster u
  | some (.vector ls) => .vector ls

/-- `_tree_flatten`: the children and the auxiliary data, as constructor arguments.  `use_pinv` is not among them, so it
is left at its default.
on_jax/mee.py:13-29 -/
def treeFlatten (o : Obj) : Kwargs where
  n_top := o.n_top
  n_bot := o.n_bot
  theta := o.theta
  phi := o.phi
  psi := some o.psi
  period := readPeriod o
  wavelength := o.wavelength
  ucell := readUcell o
  thickness := o.thickness.read
  pol := o.pol
  fto := o.fto.read
  algo := o.algo
  perturbation := o.perturbation
  type_complex := .supported
  fourier_type := o.fourier_type
  enhanced_dfs := o.enhanced_dfs

/-- `_tree_unflatten`: the constructor is called with them.
on_jax/mee.py:31-33 -/
noncomputable def treeUnflatten (k : Kwargs) : Res Obj := init k

end Meent.Jax

namespace Meent

/-- NumPy's `conv_solve(**kwargs)`: the line that would assign them is commented out.
on_numpy/emsolver/rcwa.py:173-174 -/
noncomputable def convSolveKw (la : LinAlg) (o : Obj) (_kws : List Op) : Obj × Res AnyResult := convSolve la o

end Meent
