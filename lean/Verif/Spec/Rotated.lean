import Verif.Model.Vector

/-!
# Specification: rotated rectangles
-/

namespace Meent.Spec

/-- The point lies in the rectangle with centre `(cx, cy)` and sides `lx`, `ly`, turned by `angle`
about its centre. -/
def InRect (cx cy lx ly angle x y : ℝ) : Prop :=
  |Real.cos angle * (x - cx) + Real.sin angle * (y - cy)| ≤ lx / 2 ∧
  |-Real.sin angle * (x - cx) + Real.cos angle * (y - cy)| ≤ ly / 2

/-- The angle is farther than the margin `1e-5` from all multiples of a right angle. -/
def Tilted (angle : ℝ) : Prop := ∀ k : ℤ, 1 / 100000 < |angle - k * (Real.pi / 2)|

end Meent.Spec
