import Verif.Model.Rcwa

/-!
# Specification vocabulary: orders along the surface normal
-/

namespace Meent.Spec

/-- Order `(m, k)` leaves along the surface normal: both in-plane components of its wave vector vanish. -/
def AlongNormal (p : Params) (m k : ℤ) : Prop :=
  p.n_top * Complex.sin p.theta * Complex.cos (p.phi.getD 0) + m * ((p.wavelength / p.period.1 : ℝ) : ℂ) = 0 ∧
    p.n_top * Complex.sin p.theta * Complex.sin (p.phi.getD 0) + k * ((p.wavelength / p.period.2 : ℝ) : ℂ) = 0

/-- Some order kept in the calculation leaves along the surface normal. -/
def SomeAlongNormal (p : Params) : Prop :=
  ∃ m k : ℤ, |m| ≤ p.fto.1 ∧ |k| ≤ p.fto.2 ∧ AlongNormal p m k

end Meent.Spec
