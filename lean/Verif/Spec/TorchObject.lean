import Verif.Model.TorchObject

/-!
# Specification vocabulary: histories of a PyTorch solver object, keyword arguments
-/

namespace Meent.Spec

/-- A history of a PyTorch object: constructed, then any operations; `o` is the object now. -/
def TorchHistory (la : LinAlg) (k : TObj.Kwargs) (ops : List TObj.Op) (o : TObj) : Prop :=
  ∃ o0, TObj.init k = .ok o0 ∧ o = TObj.run la o0 ops

/-- The assignments an operation makes, directly or through keyword arguments. -/
def assignments : TObj.Op → List TObj.Assign
  | .assign a => [a]
  | .convSolve kws => kws
  | .calculateField _ _ _ _ => []
  | .convSolveField _ _ _ _ kws => kws

/-- An array that the `ucell` setter rejects. -/
def RejectedUcell : TObj.Assign → Prop
  | .ucell .badShape => True
  | .ucell .badDtype => True
  | _ => False

/-- No array that is rejected was ever assigned to `ucell`. -/
def TorchNoRejected (ops : List TObj.Op) : Prop := ∀ op ∈ ops, ∀ a ∈ assignments op, ¬ RejectedUcell a

/-- All parameters a user can read and assign have the same values. -/
structure TorchSameParameters (a b : TObj) : Prop where
  device : a.device = b.device
  n_top : a.n_top = b.n_top
  n_bot : a.n_bot = b.n_bot
  theta : a.theta = b.theta
  phi : a.phi = b.phi
  psi : a.psi = b.psi
  pol : a.pol = b.pol
  fto : a.fto = b.fto
  period : a.period = b.period
  wavelength : a.wavelength = b.wavelength
  thickness : a.thickness = b.thickness
  algo : a.algo = b.algo
  use_pinv : a.use_pinv = b.use_pinv
  fourier_type : a.fourier_type = b.fourier_type
  enhanced_dfs : a.enhanced_dfs = b.enhanced_dfs
  ucell : a.ucell = b.ucell

/-- The parameters as settings of one solve: a structure, `theta` given, two periods, a list of thicknesses, two non-negative
orders. -/
structure TorchReads (o : TObj) (s : TSettings) : Prop where
  ucell : o.ucell = some s.ucell
  n_top : s.p.n_top = o.n_top
  n_bot : s.p.n_bot = o.n_bot
  theta : o.theta = some s.p.theta
  phi : s.p.phi = o.phi
  psi : s.p.psi = (o.psi : ℂ)
  pol : s.p.pol = o.pol
  orders : o.orders = .ok s.p.fto
  period : ∃ rest, o.period = .list (s.p.period.1 :: s.p.period.2 :: rest)
  wavelength : s.p.wavelength = o.wavelength
  thickness : o.thickness = .list s.p.thickness
  use_pinv : s.p.use_pinv = o.use_pinv
  fourier_type : s.fourier_type = o.fourier_type
  enhanced_dfs : s.enhanced_dfs = o.enhanced_dfs
  algo : s.algo = o.algo

/-- The constructor arguments `k`, with the parameter named by the assignment replaced; `none` if it is not one of the
constructor's parameters (or is a `pol` given next to a `psi`, an angle of `None`, no structure). -/
def torchOverride : TObj.Assign → TObj.Kwargs → Option TObj.Kwargs
  | .device v, k => some { k with device := v }
  | .n_top v, k => some { k with n_top := v }
  | .n_bot v, k => some { k with n_bot := v }
  | .theta v, k => some { k with theta := v }
  | .phi v, k => some { k with phi := v }
  | .psi (some v), k => some { k with psi := some v }
  | .pol v, k => if k.psi.isNone then some { k with pol := v } else none
  | .fto v, k => some { k with fto := v }
  | .period v, k => some { k with period := some v }
  | .wavelength v, k => some { k with wavelength := v }
  | .thickness v, k => some { k with thickness := v }
  | .algo v, k => some { k with algo := v }
  | .use_pinv v, k => some { k with use_pinv := v }
  | .fourier_type v, k => some { k with fourier_type := v }
  | .enhanced_dfs v, k => some { k with enhanced_dfs := v }
  | .ucell (.raster u), k => some { k with ucell := .raster u }
  | .ucell (.aniso u), k => some { k with ucell := .aniso u }
  | .ucell (.vector u), k => some { k with ucell := .vector u }
  | .ucell (.avector u), k => some { k with ucell := .avector u }
  | _, _ => none

/-- Several parameters replaced, one after the other. -/
def torchOverrides : List TObj.Assign → TObj.Kwargs → Option TObj.Kwargs
  | [], k => some k
  | a :: as, k => (torchOverride a k).bind (torchOverrides as)

/-- Solves and field evaluations without keyword arguments. -/
def SolvesOnly (ops : List TObj.Op) : Prop := ∀ op ∈ ops, assignments op = [] ∧ ∀ a, op ≠ .assign a

end Meent.Spec
