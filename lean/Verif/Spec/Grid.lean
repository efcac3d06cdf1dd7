import Verif.Model.Vector

/-!
# Specification: layers drawn from objects
-/

namespace Meent.Spec

/-- The point lies inside the object. -/
def Covers (o : VObj) (x y : ℝ) : Prop := o.c0 < x ∧ x < o.c1 ∧ o.r0 < y ∧ y < o.r1

/-- `z` is the index of the last object covering the point, or the base index if there is none. -/
def PaintedAs (base : ℂ) (objs : List VObj) (x y : ℝ) (z : ℂ) : Prop :=
  (∃ before o after, objs = before ++ o :: after ∧ Covers o x y ∧
    (∀ o' ∈ after, ¬ Covers o' x y) ∧ z = o.n) ∨
  ((∀ o ∈ objs, ¬ Covers o x y) ∧ z = base)

/-- The point lies in cell `(i, j)` of a drawn layer: the edges before it are smaller, its own edge
and those after it are larger. -/
def InCell (c : VCell) (x y : ℝ) (i : Fin c.ny) (j : Fin c.nx) : Prop :=
  (∀ k, k < i → c.y k < y) ∧ (∀ k, i ≤ k → y < c.y k) ∧
  (∀ k, k < j → c.x k < x) ∧ (∀ k, j ≤ k → x < c.x k)

/-- The coordinate `x` is farther from the edge `v` than the edges of a layer of `count` objects
are ever moved: four parts in `10 ^ 14` for every object. -/
def Clear (count : ℕ) (v x : ℝ) : Prop := 4 * (count : ℝ) / 10 ^ 14 * max 1 |v| < |v - x|

/-- The edge `v` is moved to `w` by at most four parts in `10 ^ 14` for every one of `count` objects. -/
def Drift (count : ℕ) (v w : ℝ) : Prop := |w - v| ≤ 4 * (count : ℝ) / 10 ^ 14 * max 1 |v|

/-- All horizontal edges of the objects. -/
def rowEdges (objs : List VObj) : List ℝ := objs.flatMap fun o => [o.r0, o.r1]

/-- All vertical edges of the objects. -/
def colEdges (objs : List VObj) : List ℝ := objs.flatMap fun o => [o.c0, o.c1]

/-- The object lies inside the unit cell. -/
def Inside (period : ℝ × ℝ) (o : VObj) : Prop :=
  0 ≤ o.c0 ∧ o.c0 < o.c1 ∧ o.c1 ≤ period.1 ∧ 0 ≤ o.r0 ∧ o.r0 < o.r1 ∧ o.r1 ≤ period.2

end Meent.Spec
