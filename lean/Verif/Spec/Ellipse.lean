import Verif.Model.Vector

/-!
# What drawing an ellipse means (C66)

Nothing here refers to how the code finds its boxes; `VObj` is a box with rows `r0 … r1` (the y axis) and columns `c0 … c1`
(the x axis).
-/

namespace Meent.Spec

/-- The ellipse with centre `(cx, cy)` and full axes `lx` and `ly`, turned by `angle`, as a closed curve: `t = 0` is the end
of the axis `lx`, `t = π / 2` the end of the axis `ly`. -/
noncomputable def ellipseCurve (cx cy lx ly angle t : ℝ) : ℝ × ℝ :=
  (cx + lx / 2 * Real.cos t * Real.cos angle - ly / 2 * Real.sin t * Real.sin angle,
   cy + lx / 2 * Real.cos t * Real.sin angle + ly / 2 * Real.sin t * Real.cos angle)

/-- The sample number `k` of `N` samples per turn. -/
noncomputable def sample (N k : ℕ) : ℝ := -Real.pi + 2 * Real.pi * k / N

/-- The curve has no point above that of parameter `t`. -/
def EllipseTop (cx cy lx ly angle t : ℝ) : Prop :=
  ∀ t', (ellipseCurve cx cy lx ly angle t').2 ≤ (ellipseCurve cx cy lx ly angle t).2

/-- `h` is the largest height of the `N` samples. -/
def Highest (cx cy lx ly angle : ℝ) (N : ℕ) (h : ℝ) : Prop :=
  (∃ k < N, (ellipseCurve cx cy lx ly angle (sample N k)).2 = h) ∧
    ∀ k < N, (ellipseCurve cx cy lx ly angle (sample N k)).2 ≤ h

/-- `h` is the smallest height of the `N` samples. -/
def Lowest (cx cy lx ly angle : ℝ) (N : ℕ) (h : ℝ) : Prop :=
  (∃ k < N, (ellipseCurve cx cy lx ly angle (sample N k)).2 = h) ∧
    ∀ k < N, h ≤ (ellipseCurve cx cy lx ly angle (sample N k)).2

/-- The boxes cover the heights from `top` down to `bottom`, each going on where the one before it ends. -/
def StackedDown : ℝ → List VObj → ℝ → Prop
  | top, [], bottom => top = bottom
  | top, o :: os, bottom => o.r1 = top ∧ o.r0 ≤ o.r1 ∧ StackedDown o.r0 os bottom

/-- `o` is the smallest box around two points. -/
def BoxOf (o : VObj) (P Q : ℝ × ℝ) : Prop :=
  o.c0 = min P.1 Q.1 ∧ o.c1 = max P.1 Q.1 ∧ o.r0 = min P.2 Q.2 ∧ o.r1 = max P.2 Q.2

/-- The total area of boxes that do not overlap. -/
def totalArea (os : List VObj) : ℝ := (os.map fun o => (o.r1 - o.r0) * (o.c1 - o.c0)).sum

end Meent.Spec
