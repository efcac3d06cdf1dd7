import Verif.Model.JaxObject

/-!
# Specification vocabulary: histories of a JAX solver object, keyword arguments
-/

namespace Meent.Spec

/-- A history of a JAX object: constructed, then any operations; `o` is the object now. -/
def JaxHistory (env : Jax.Env) (k : Kwargs) (ops : List Op) (o : Obj) : Prop :=
  ∃ o0, Jax.init k = .ok o0 ∧ o = Jax.run env o0 ops

/-- The constructor arguments `k`, with the parameter assigned by `op` replaced; `none` if `op` does not assign one of the
constructor's physical parameters. -/
def override : Op → Kwargs → Option Kwargs
  | .setNTop v, k => some { k with n_top := v }
  | .setNBot v, k => some { k with n_bot := v }
  | .setTheta v, k => some { k with theta := v }
  | .setPhi v, k => some { k with phi := v }
  | .setPsi (some v), k => some { k with psi := some v }
  | .setPol v, k => if k.psi.isNone then some { k with pol := v } else none
  | .setFto v, k => some { k with fto := v }
  | .setPeriod v, k => some { k with period := v }
  | .setWavelength v, k => some { k with wavelength := v }
  | .setThickness v, k => some { k with thickness := v }
  | .setAlgo v, k => some { k with algo := v }
  | .setUsePinv v, k => some { k with use_pinv := v }
  | .setFourierType v, k => some { k with fourier_type := v }
  | .setEnhancedDfs v, k => some { k with enhanced_dfs := v }
  | .setUcell (.raster u), k => some { k with ucell := .raster u }
  | .setUcell (.vector u), k => some { k with ucell := .vector u }
  | _, _ => none

/-- Several parameters replaced, one after the other. -/
def overrides : List Op → Kwargs → Option Kwargs
  | [], k => some k
  | op :: ops, k => (override op k).bind (overrides ops)

end Meent.Spec
