import Verif.Model.TorchObject
import Verif.Model.JaxObject

/-!
# The same script on the three backends (specification)
-/

namespace Meent.Spec

/-- A structure, passed to the PyTorch backend. -/
def torchUcell : UcellArg → TUcellArg
  | .raster u => .raster u
  | .badDtype => .badDtype
  | .vector ls => .vector ls
  | .none => .none
  | .other => .other

/-- The arguments `k`, all passed by name to the PyTorch constructor. -/
def torchArgs (k : Kwargs) : TObj.Kwargs where
  type_complex := k.type_complex
  n_top := k.n_top
  n_bot := k.n_bot
  theta := k.theta
  phi := k.phi
  psi := k.psi
  period := some k.period
  wavelength := k.wavelength
  ucell := torchUcell k.ucell
  thickness := k.thickness
  pol := k.pol
  fto := k.fto
  algo := k.algo
  perturbation := k.perturbation
  fourier_type := k.fourier_type
  enhanced_dfs := k.enhanced_dfs
  use_pinv := k.use_pinv

/-- A line of a script, run with a PyTorch object. -/
def torchOp : Op → TObj.Op
  | .setNTop v => .assign (.n_top v)
  | .setNBot v => .assign (.n_bot v)
  | .setTheta v => .assign (.theta v)
  | .setPhi v => .assign (.phi v)
  | .setPsi v => .assign (.psi v)
  | .setPol v => .assign (.pol v)
  | .setFto v => .assign (.fto v)
  | .setPeriod v => .assign (.period v)
  | .setWavelength v => .assign (.wavelength v)
  | .setThickness v => .assign (.thickness v)
  | .setAlgo v => .assign (.algo v)
  | .setPerturbation v => .assign (.perturbation v)
  | .setUsePinv v => .assign (.use_pinv v)
  | .setFourierType v => .assign (.fourier_type v)
  | .setEnhancedDfs v => .assign (.enhanced_dfs v)
  | .setTypeComplex v => .assign (.type_complex v)
  | .setUcell v => .assign (.ucell (torchUcell v))
  | .setGratingType v => .assign (.grating_type v)
  | .convSolve => .convSolve []
  | .calculateField rx ry rz sel => .calculateField rx ry rz sel

/-- A line that the backends read alike: no period that is a zero-dimensional array, and no array of a dtype that is not
supported (the backends support different ones). -/
def Portable : Op → Prop
  | .setPeriod (.arr0 _) => False
  | .setUcell .badDtype => False
  | _ => True

/-- For JAX: no polarization just outside `[0, 1]`, which JAX moves to the end of the interval. -/
def InRange : Op → Prop
  | .setPol v => ¬(1 < v ∧ v < 1 + 1 / 10 ^ 6) ∧ ¬(-(1 / 10 ^ 6) < v ∧ v < 0)
  | _ => True

/-- The attributes of a NumPy (or JAX) object and of a PyTorch object have the same values. -/
structure SameAttributes (o : Obj) (t : TObj) : Prop where
  n_top : t.n_top = o.n_top
  n_bot : t.n_bot = o.n_bot
  theta : t.theta = o.theta
  phi : t.phi = o.phi
  psi : t.psi = o.psi
  pol : t.pol = o.pol
  fto : t.fto = o.fto
  period : t.period = .list o.period
  wavelength : t.wavelength = o.wavelength
  thickness : t.thickness = o.thickness
  algo : t.algo = o.algo
  perturbation : t.perturbation = o.perturbation
  use_pinv : t.use_pinv = o.use_pinv
  fourier_type : t.fourier_type = o.fourier_type
  enhanced_dfs : t.enhanced_dfs = o.enhanced_dfs
  ucell : t.ucell = o.ucell.map .iso
  modeling : t.modeling = o.modeling

/-- The attributes of two NumPy or JAX objects have the same values. -/
structure SameAttributesJax (a b : Obj) : Prop where
  n_top : a.n_top = b.n_top
  n_bot : a.n_bot = b.n_bot
  theta : a.theta = b.theta
  phi : a.phi = b.phi
  psi : a.psi = b.psi
  pol : a.pol = b.pol
  fto : a.fto = b.fto
  period : a.period = b.period
  wavelength : a.wavelength = b.wavelength
  thickness : a.thickness = b.thickness
  algo : a.algo = b.algo
  perturbation : a.perturbation = b.perturbation
  use_pinv : a.use_pinv = b.use_pinv
  fourier_type : a.fourier_type = b.fourier_type
  enhanced_dfs : a.enhanced_dfs = b.enhanced_dfs
  ucell : a.ucell = b.ucell
  modeling : a.modeling = b.modeling

end Meent.Spec
