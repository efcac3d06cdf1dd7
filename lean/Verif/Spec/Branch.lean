import Verif.Spec.Orders
import Verif.Spec.Optics

/-!
# Specification: the physical branch of the longitudinal wavenumber

Waves leaving the grating behave as `exp(-i kz z)` with the distance `z` from it (in units of the vacuum
wavenumber); this goes with the `n - ik` convention for absorbing media.
-/

namespace Meent.Spec

/-- The wave with longitudinal wavenumber `kz` dies out away from the grating. -/
def Decays (kz : ℂ) : Prop := ∀ z : ℝ, 0 < z → ‖Complex.exp (-Complex.I * kz * z)‖ < 1

/-- `kz` is the longitudinal wavenumber of an outgoing wave with squared in-plane wavenumber `k2` in a medium
of index `n`. -/
structure OutgoingKz (n : ℂ) (k2 : ℝ) (kz : ℂ) : Prop where
  dispersion : kz ^ 2 + (k2 : ℂ) = n ^ 2
  propagating : n.im = 0 → k2 ≤ n.re ^ 2 → kz.im = 0 ∧ 0 ≤ kz.re
  evanescent : n.im = 0 → n.re ^ 2 < k2 → Decays kz
  absorbing : n.im < 0 → Decays kz

/-- An index written with the `n - ik` convention: positive real part, lossless or absorbing. -/
def PassiveIndex (n : ℂ) : Prop := 0 < n.re ∧ n.im ≤ 0

/-- No diffraction order in the plane of incidence is at grazing angle in cover and substrate at once. -/
def NoDoubleGrazing (p : Params) : Prop :=
  ∀ m : ℤ, ((orderKx p m ^ 2 : ℝ) : ℂ) ≠ p.n_top ^ 2 ∨ ((orderKx p m ^ 2 : ℝ) : ℂ) ≠ p.n_bot ^ 2

end Meent.Spec
