import Verif.Spec.Grid
import Verif.Spec.Shift

/-!
# Specification vocabulary: the pattern of a drawn layer
-/

namespace Meent.Spec

/-- `F` (a function of `(y, x)`) repeats with the periods of the cell along x and y. -/
def Biperiodic (period : ℝ × ℝ) (F : ℝ → ℝ → ℂ) : Prop := ∀ y x, F (y + period.2) x = F y x ∧ F y (x + period.1) = F y x

/-- Inside the cell and off the edges `F` is the refractive index that the objects paint. -/
def ShowsPattern (period : ℝ × ℝ) (base : ℂ) (objs : List VObj) (F : ℝ → ℝ → ℂ) : Prop :=
  ∀ x y, 0 < x ∧ x < period.1 → 0 < y ∧ y < period.2 → y ∉ rowEdges objs → x ∉ colEdges objs → PaintedAs base objs x y (F y x)

/-- The layer consists of objects inside the cell no two edges of which coincide. -/
structure DistinctEdges (period : ℝ × ℝ) (l : VLayer) (objs : List VObj) : Prop where
  drawn : l.objs = .ok objs
  inside : ∀ o ∈ objs, Inside period o
  rows : (rowEdges objs).Nodup
  cols : (colEdges objs).Nodup

/-- The objects of the layer have no edges in common and none on the border of the cell.  They may reach out of the cell. -/
structure FreeEdges (period : ℝ × ℝ) (l : VLayer) (objs : List VObj) : Prop where
  drawn : l.objs = .ok objs
  rows : (rowEdges objs).Nodup
  cols : (colEdges objs).Nodup
  rowBorder : 0 ∉ rowEdges objs ∧ period.2 ∉ rowEdges objs
  colBorder : 0 ∉ colEdges objs ∧ period.1 ∉ colEdges objs

/-- Both layers show the same periodic pattern, the second displaced by `(dx, dy)`. -/
def Displaced (period : ℝ × ℝ) (dx dy : ℝ) (l l' : VLayer) : Prop :=
  ∃ objs objs' F, DistinctEdges period l objs ∧ DistinctEdges period l' objs' ∧ Biperiodic period F ∧ ShowsPattern period l.base objs F ∧
    ShowsPattern period l'.base objs' fun y x => F (y - dy) (x - dx)

/-- The instruction with its centre moved by `(dx, dy)`. -/
def moveInstr (dx dy : ℝ) : VInstr → VInstr
  | .rectangle cx cy lx ly n angle nt np => .rectangle (cx + dx) (cy + dy) lx ly n angle nt np
  | .ellipse cx cy lx ly n angle nw nh => .ellipse (cx + dx) (cy + dy) lx ly n angle nw nh
  | .unknown => .unknown

/-- The layer with all its objects moved by `(dx, dy)`. -/
def moveLayer (dx dy : ℝ) (l : VLayer) : VLayer := ⟨l.base, l.instrs.map (moveInstr dx dy)⟩

/-- A layer of rectangles parallel to the axes (given at multiples of a right angle). -/
def Parallel (l : VLayer) : Prop :=
  ∀ i ∈ l.instrs, ∃ (cx cy lx ly : ℝ) (n : ℂ) (k : ℤ) (nt np : ℕ), i = .rectangle cx cy lx ly n (k * (Real.pi / 2)) nt np

end Meent.Spec
