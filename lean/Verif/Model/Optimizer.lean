import Mathlib.Algebra.Star.Basic
import Verif.Model.Basic

/-!
# The optimizers of the PyTorch and JAX backends

Models /repo/meent/on_torch/optimizer/optimizer.py and /repo/meent/on_jax/optimizer/optimizer.py.

The solver object is seen as a collection of named attributes.  `forward` and `loss_fn` together are a loss of the attribute
values which may raise; what automatic differentiation computes for it is a parameter.
-/

namespace Meent.Optim

/-- What the calls can raise.  Exceptions of `forward` and `loss_fn` are passed on.
on_torch/optimizer/optimizer.py:19-22, 28-29, 34, 38-41 -/
inductive OErr
  | attributeError
  | valueError
  | runtimeError
  | solver (e : Err)

/-- `forward` and `loss_fn` as functions of the attribute values, and the derivative that automatic differentiation computes for
an attribute; none if the loss does not depend on it.
on_torch/optimizer/optimizer.py:20-22, 38-41 -/
structure Problem (ι V : Type) where
  forward : (ι → Option V) → Res ℝ
  deriv : (ι → Option V) → ι → Option V

/-- An optimizer: its initial state, and one update of the state and of the parameters, which come with their gradients.
`torch.optim.Optimizer` (on_torch/optimizer/optimizer.py:29, 42) and `optax.GradientTransformation` followed by `apply_updates`
(on_jax/optimizer/optimizer.py:38, 44-45) -/
structure Opt (S V : Type) where
  init : List V → S
  step : S → List (V × Option V) → S × List V

variable {ι V S : Type}

/-! ### PyTorch -/

/-- A leaf tensor.  `bufs` are the tensors that were allocated for its gradient, `used` is their number, and `grad` says which
of them `.grad` is at present.
on_torch/optimizer/optimizer.py:19, 23 -/
structure Leaf (V : Type) where
  value : V
  requires : Bool
  grad : Option ℕ
  bufs : ℕ → V
  used : ℕ

/-- The attributes of the PyTorch object.
on_torch/optimizer/optimizer.py:19, 23, 28, 34, 45 -/
abbrev TAttrs (ι V : Type) := ι → Option (Leaf V)

/-- The attribute values.
on_torch/optimizer/optimizer.py:20, 38 -/
def TAttrs.values (o : TAttrs ι V) : ι → Option V := fun i => (o i).map Leaf.value

/-- The contents of `.grad`.
on_torch/optimizer/optimizer.py:23, 42 -/
def Leaf.gradient (l : Leaf V) : Option V := l.grad.map l.bufs

/-- What `backward()` does at a leaf with derivative `d`: it adds to the gradient in place if there is one, else it stores it.
on_torch/optimizer/optimizer.py:22, 41 -/
def Leaf.accumulate [Add V] (l : Leaf V) (d : V) : Leaf V :=
  match l.grad with
  | some k => { l with bufs := Function.update l.bufs k (l.bufs k + d) }
  | none => { l with grad := some l.used, bufs := Function.update l.bufs l.used d, used := l.used + 1 }

/-- `[setattr(getattr(self, poi), 'requires_grad', True) for poi in pois]` (optimizer.py:19, 34). -/
def setRequires [DecidableEq ι] (o : TAttrs ι V) : List ι → TAttrs ι V × Except OErr Unit
  | [] => (o, .ok ())
  | i :: is =>
    match o i with
    | none => (o, .error .attributeError)
    | some l => setRequires (Function.update o i (some { l with requires := true })) is

/-- `loss.backward()`: derivatives go to every leaf that requires them (optimizer.py:22, 41). -/
def backward [Add V] (P : Problem ι V) (o : TAttrs ι V) : TAttrs ι V := fun i =>
  (o i).map fun l =>
    if l.requires then
      match P.deriv o.values i with
      | none => l
      | some d => l.accumulate d
    else l

/-- The loss has a graph: it depends on a leaf that requires gradients.  Otherwise `backward()` raises `RuntimeError`
(optimizer.py:22, 41). -/
def Tracked (P : Problem ι V) (o : TAttrs ι V) : Prop :=
  ∃ i l, o i = some l ∧ l.requires = true ∧ (P.deriv o.values i).isSome

open Classical in
/-- Forward pass, loss and `backward()` (optimizer.py:20-22, 38-41). -/
noncomputable def pass [Add V] (P : Problem ι V) (o : TAttrs ι V) : TAttrs ι V × Except OErr Unit :=
  match P.forward o.values with
  | .error e => (o, .error (.solver e))
  | .ok _ => if Tracked P o then (backward P o, .ok ()) else (o, .error .runtimeError)

/-- `grad` (optimizer.py:18-25).  The dictionary contains the tensors `.grad` themselves, so it is a list of references. -/
noncomputable def grad [DecidableEq ι] [Add V] (P : Problem ι V) (o : TAttrs ι V) (pois : List ι) :
    TAttrs ι V × Except OErr (List (ι × Option ℕ)) :=
  match setRequires o pois with
  | (o1, .error e) => (o1, .error e)
  | (o1, .ok _) =>
    match pass P o1 with
    | (o2, .error e) => (o2, .error e)
    | (o2, .ok _) => (o2, .ok (pois.map fun i => (i, (o2 i).bind Leaf.grad)))

/-- What a reference returned by `grad` reads.
on_torch/optimizer/optimizer.py:23-25 -/
def readGrad (o : TAttrs ι V) (i : ι) (k : ℕ) : Option V := (o i).map fun l => l.bufs k

/-- `optimizer.zero_grad()` with its default `set_to_none=True` (optimizer.py:37; PyTorch 2). -/
def zeroGrad [DecidableEq ι] (pois : List ι) (o : TAttrs ι V) : TAttrs ι V := fun i =>
  if i ∈ pois then (o i).map fun l => { l with grad := none } else o i

/-- New values, written in place by `optimizer.step()` (optimizer.py:42). -/
def assign [DecidableEq ι] (o : TAttrs ι V) : List (ι × V) → TAttrs ι V
  | [] => o
  | (i, v) :: rest => assign (Function.update o i ((o i).map fun l => { l with value := v })) rest

/-- `optimizer.step()` (optimizer.py:42). -/
def optStep [DecidableEq ι] (opt : Opt S V) (pois : List ι) (s : S) (o : TAttrs ι V) : S × TAttrs ι V :=
  let r := opt.step s (pois.filterMap fun i => (o i).map fun l => (l.value, l.gradient))
  (r.1, assign o (pois.zip r.2))

/-- The loop of `fit` (optimizer.py:36-42). -/
noncomputable def fitLoop [DecidableEq ι] [Add V] (P : Problem ι V) (opt : Opt S V) (pois : List ι) :
    ℕ → S → TAttrs ι V → TAttrs ι V × Except OErr Unit
  | 0, _, o => (o, .ok ())
  | n + 1, s, o =>
    match pass P (zeroGrad pois o) with
    | (o2, .error e) => (o2, .error e)
    | (o2, .ok _) => fitLoop P opt pois n (optStep opt pois s o2).1 (optStep opt pois s o2).2

/-- `fit` (optimizer.py:27-45).  `torch.optim.Optimizer` refuses an empty parameter list. -/
noncomputable def fit [DecidableEq ι] [Add V] (P : Problem ι V) (opt : Opt S V) (o : TAttrs ι V) (pois : List ι) (n : ℕ) :
    TAttrs ι V × Except OErr (List V) :=
  match pois.mapM o with
  | none => (o, .error .attributeError)
  | some ls =>
    if pois = [] then (o, .error .valueError)
    else
      match setRequires o pois with
      | (o1, .error e) => (o1, .error e)
      | (o1, .ok _) =>
        match fitLoop P opt pois n (opt.init (ls.map Leaf.value)) o1 with
        | (o2, .error e) => (o2, .error e)
        | (o2, .ok _) => (o2, .ok (pois.filterMap o2.values))

/-! ### JAX -/

/-- An attribute of the JAX object: a value, and whether it is a tracer of a transformation.
on_jax/optimizer/optimizer.py:21-26, 30-32 -/
structure JVal (V : Type) where
  value : V
  traced : Bool

/-- The attributes of the JAX object.
on_jax/optimizer/optimizer.py:30, 37 -/
abbrev JAttrs (ι V : Type) := ι → Option (JVal V)

/-- The attribute values.
on_jax/optimizer/optimizer.py:22 -/
def JAttrs.values (o : JAttrs ι V) : ι → Option V := fun i => (o i).map JVal.value

/-- `[setattr(self, poi, v) …]` in `conv_solve(**params)`, `grad` and `fit` (optimizer.py:32, 51; rcwa.py:218). -/
def jset [DecidableEq ι] (o : JAttrs ι V) : List (ι × JVal V) → JAttrs ι V
  | [] => o
  | (i, v) :: rest => jset (Function.update o i (some v)) rest

/-- `_grad` with a `forward` that assigns its keyword arguments, as `conv_solve` does (optimizer.py:19-27).  Inside
`value_and_grad` they are tracers.  A loss that does not depend on a parameter has derivative zero. -/
def jpass [DecidableEq ι] [Zero V] (P : Problem ι V) (o : JAttrs ι V) (params : List (ι × V)) :
    JAttrs ι V × Except OErr (List (ι × V)) :=
  let o1 := jset o (params.map fun p => (p.1, ⟨p.2, true⟩))
  match P.forward o1.values with
  | .error e => (o1, .error (.solver e))
  | .ok _ => (o1, .ok (params.map fun p => (p.1, (P.deriv o1.values p.1).getD 0)))

/-- `params = {poi: (getattr(self, poi)) for poi in pois}` (optimizer.py:30, 37). -/
def jparams (o : JAttrs ι V) (pois : List ι) : Option (List (ι × V)) :=
  pois.mapM fun i => (o.values i).map fun v => (i, v)

/-- `grad` (optimizer.py:29-34). -/
def jgrad [DecidableEq ι] [Zero V] (P : Problem ι V) (o : JAttrs ι V) (pois : List ι) :
    JAttrs ι V × Except OErr (List (ι × V)) :=
  match jparams o pois with
  | none => (o, .error .attributeError)
  | some params =>
    match jpass P o params with
    | (o1, .error e) => (o1, .error e)
    | (o1, .ok g) => (jset o1 (params.map fun p => (p.1, ⟨p.2, false⟩)), .ok g)

/-- The loop of `fit` (optimizer.py:40-49).  `step` is compiled: `forward` runs only when it is traced, in the first
iteration, where it assigns tracers; later iterations repeat the recorded computation.  The model runs `forward` each time, which
leaves the same tracers; so it may also raise later, which the program does not. -/
def jfitLoop [DecidableEq ι] [Zero V] [Star V] (P : Problem ι V) (opt : Opt S V) :
    ℕ → S → List (ι × V) → JAttrs ι V → JAttrs ι V × Except OErr (List (ι × V))
  | 0, _, params, o => (o, .ok params)
  | n + 1, s, params, o =>
    match jpass P o params with
    | (o1, .error e) => (o1, .error e)
    | (o1, .ok g) =>
      let r := opt.step s ((params.zip g).map fun pg => (pg.1.2, some (star pg.2.2)))
      jfitLoop P opt n r.1 ((params.map Prod.fst).zip r.2) o1

/-- `fit` (optimizer.py:36-53). -/
def jfit [DecidableEq ι] [Zero V] [Star V] (P : Problem ι V) (opt : Opt S V) (o : JAttrs ι V) (pois : List ι) (n : ℕ) :
    JAttrs ι V × Except OErr (List (ι × V)) :=
  match jparams o pois with
  | none => (o, .error .attributeError)
  | some params =>
    match jfitLoop P opt n (opt.init (params.map Prod.snd)) params o with
    | (o1, .error e) => (o1, .error e)
    | (o1, .ok params') => (jset o1 (params'.map fun p => (p.1, ⟨p.2, false⟩)), .ok params')

end Meent.Optim
