import Verif.Spec.Orders

/-!
# Specification vocabulary: the Fresnel coefficients

`n₁`, `θ` are the (real) index and angle on the incident side, `n₂` the (real) index behind the
interface.  `c₂` is the cosine of the refraction angle, a negative imaginary number under total
internal reflection (fields vary as `exp (i ω t)`, so that waves decay away from the interface).
-/

namespace Meent.Spec

/-- `c₂` is the cosine of the refraction angle. -/
def RefractionCos (n₁ n₂ θ : ℝ) (c₂ : ℂ) : Prop :=
  c₂ ^ 2 = ((1 - (n₁ * Real.sin θ / n₂) ^ 2 : ℝ) : ℂ) ∧ 0 ≤ c₂.re ∧ c₂.im ≤ 0

/-- Reflection coefficient of the electric field, TE polarization. -/
noncomputable def rTE (n₁ n₂ c₁ c₂ : ℂ) : ℂ := (n₁ * c₁ - n₂ * c₂) / (n₁ * c₁ + n₂ * c₂)

/-- Transmission coefficient of the electric field, TE polarization. -/
noncomputable def tTE (n₁ n₂ c₁ c₂ : ℂ) : ℂ := 2 * n₁ * c₁ / (n₁ * c₁ + n₂ * c₂)

/-- Reflection coefficient of the magnetic field, TM polarization. -/
noncomputable def rTM (n₁ n₂ c₁ c₂ : ℂ) : ℂ := (n₂ * c₁ - n₁ * c₂) / (n₂ * c₁ + n₁ * c₂)

/-- Transmission coefficient of the magnetic field, TM polarization. -/
noncomputable def tTM (n₁ n₂ c₁ c₂ : ℂ) : ℂ := 2 * n₂ * c₁ / (n₂ * c₁ + n₁ * c₂)

end Meent.Spec
