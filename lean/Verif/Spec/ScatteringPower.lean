import Verif.Spec.Scattering
import Verif.Model.Scattering2D

/-!
# Specification: power in the 2D scattering functions
-/

open Matrix

namespace Meent.Spec

variable {m : Type} [Fintype m] [DecidableEq m]

/-- The layer is one of `scattering_2d_wv`: its modes are those returned for the matrices `c`.  The thickness is free. -/
def Layer2D (la : LinAlg) (kx ky : m → ℂ) (c : Conv m) (L : SLayer (m ⊕ m)) : Prop :=
  ∃ M, scattering_2d_wv la kx ky c = .ok M ∧ L.W = M.W ∧ L.V = M.V ∧ L.q = M.q

/-- The wave number along the depth of an order in a medium of permittivity `e`. -/
noncomputable def depthWave (e : ℂ) (kx ky : m → ℂ) (i : m) : ℂ := star (csqrt (e - kx i ^ 2 - ky i ^ 2))

/-- The power that waves with electric fields `a` (x components, then y components) carry along the depth in a medium of permittivity `e`, up to a constant.  The z component of
the electric field makes the wave transverse. -/
noncomputable def power2D (e : ℂ) (kx ky : m → ℂ) (a : m ⊕ m → ℂ) : ℝ :=
  ∑ i, (depthWave e kx ky i).re * (‖a (.inl i)‖ ^ 2 + ‖a (.inr i)‖ ^ 2 + ‖-(kx i * a (.inl i) + ky i * a (.inr i)) / depthWave e kx ky i‖ ^ 2)

/-- All waves propagate: there are none in orders that decay along the depth. -/
def PropagatingWaves2D (e : ℂ) (kx ky : m → ℂ) (a : m ⊕ m → ℂ) : Prop := ∀ i, (depthWave e kx ky i).re = 0 → a (.inl i) = 0 ∧ a (.inr i) = 0

/-- The reaction of two waves in a half space whose modes have magnetic fields `V`, summed over the orders: the component along the depth of the electric field of the first times the
magnetic field of the second (vector product). -/
noncomputable def reaction (V : Matrix (m ⊕ m) (m ⊕ m) ℂ) (a b : m ⊕ m → ℂ) : ℂ :=
  ∑ i, (a (.inl i) * (V *ᵥ b) (.inr i) - a (.inr i) * (V *ᵥ b) (.inl i))

/-- Waves with their orders reversed, `(-i, -j)` in place of `(i, j)`. -/
def reverseOrders {k : ℕ} (a : Fin k ⊕ Fin k → ℂ) : Fin k ⊕ Fin k → ℂ := fun j => a (j.map Fin.rev Fin.rev)

end Meent.Spec
