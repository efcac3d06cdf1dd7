import Verif.Model.Basic
import Verif.Model.Transfer1D

/-!
# Specification: Maxwell's equations for one mode of a layer
-/

open Matrix

namespace Meent.Spec

variable {m : Type} [Fintype m] [DecidableEq m]

/-- Maxwell's curl equations for a mode that decays with the constant `q` (in units of the wave number) along the depth.  `E` and `H` list the Fourier coefficients along x, then
along y, and `H` is scaled by a constant.  The coefficients along the depth follow from them: `Ez` from the curl of `H` and `Hz` from the curl of `E`. -/
def CurlMode (kx ky : m → ℂ) (c : Conv m) (q : ℂ) (E H : m ⊕ m → ℂ) : Prop :=
  ∃ Ez Hz : m → ℂ,
    Ez = c.epzi *ᵥ (fun i => kx i * H (.inr i) - ky i * H (.inl i)) ∧
    Hz = (fun i => kx i * E (.inr i) - ky i * E (.inl i)) ∧
    (∀ i, q * H (.inl i) = (c.epy *ᵥ fun j => E (.inr j)) i - kx i * Hz i) ∧
    (∀ i, q * H (.inr i) = -(c.epx *ᵥ fun j => E (.inl j)) i - ky i * Hz i) ∧
    (∀ i, q * E (.inl i) = H (.inr i) - kx i * Ez i) ∧
    (∀ i, q * E (.inr i) = -H (.inl i) - ky i * Ez i)

/-- The matrices of a homogeneous medium of permittivity `e`. -/
noncomputable def constant (m : Type) [Fintype m] [DecidableEq m] (e : ℂ) : Conv m :=
  ⟨diagonal fun _ => e, diagonal fun _ => e, diagonal fun _ => e⁻¹⟩

end Meent.Spec
