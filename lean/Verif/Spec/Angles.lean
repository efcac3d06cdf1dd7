import Verif.Spec.Orders
import Verif.Spec.Backends
import Verif.Model.Torch

/-!
# Specification vocabulary: angles that mean the same (C83)
-/

namespace Meent.Spec

/-- The problem with polar angle `θ`, azimuth `φ` and polarization angle `ψ`. -/
abbrev withAngles (s : Settings) (θ φ ψ : ℂ) : Settings := { s with p := { s.p with theta := θ, phi := some φ, psi := ψ } }

/-- The same for PyTorch settings. -/
abbrev tWithAngles (s : TSettings) (θ φ ψ : ℂ) : TSettings := { s with p := { s.p with theta := θ, phi := some φ, psi := ψ } }

/-- PyTorch settings with polarization angle `ψ`. -/
abbrev tWithPsi (s : TSettings) (ψ : ℂ) : TSettings := { s with p := { s.p with psi := ψ } }

/-- The angles describe the same direction: its three Cartesian components agree. -/
def SameDirection (θ φ θ' φ' : ℂ) : Prop :=
  Complex.cos θ' = Complex.cos θ ∧ Complex.sin θ' * Complex.cos φ' = Complex.sin θ * Complex.cos φ ∧
  Complex.sin θ' * Complex.sin φ' = Complex.sin θ * Complex.sin φ

/-- `np.float32(np.pi / 2)`. -/
noncomputable def singleHalfPi : ℝ := 13176795 / 2 ^ 23

/-- The dictionary `r'` holds the efficiencies of `r`, and its amplitudes times `c`. -/
structure TimesPhase {ffy ffx : ℕ} (c : ℂ) (r r' : SubRes ffy ffx) : Prop where
  R_s : ∀ j i, r'.R_s j i = c * r.R_s j i
  R_p : ∀ j i, r'.R_p j i = c * r.R_p j i
  T_s : ∀ j i, r'.T_s j i = c * r.T_s j i
  T_p : ∀ j i, r'.T_p j i = c * r.T_p j i
  de_ri_s : r'.de_ri_s = r.de_ri_s
  de_ri_p : r'.de_ri_p = r.de_ri_p
  de_ri : r'.de_ri = r.de_ri
  de_ti_s : r'.de_ti_s = r.de_ti_s
  de_ti_p : r'.de_ti_p = r.de_ti_p
  de_ti : r'.de_ti = r.de_ti

end Meent.Spec
