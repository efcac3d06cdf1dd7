import Verif.Model.Compress
import Mathlib.Data.List.MinMax

/-!
# Vector modeling

/repo/meent/on_numpy/modeler/modeling.py:23-383 (rectangles), 384-491 (ellipses), 493-649 (grid), 668-683.
Coordinates are real numbers (the code also allows complex ones and then orders by real part).
-/

open Matrix

namespace Meent

/-- An axis-aligned object `[top_left, bottom_right, index]`, `top_left = [row, col]`.
on_numpy/modeler/modeling.py:24-31, 512-513 -/
structure VObj where
  r0 : ℝ
  c0 : ℝ
  r1 : ℝ
  c1 : ℝ
  n : ℂ

/-- `rectangle_no_approximation` (modeling.py:23-31). -/
noncomputable def rectNoApprox (cx cy lx ly : ℝ) (n : ℂ) : List VObj :=
  [{ r0 := cy - ly / 2, c0 := cx - lx / 2, r1 := cy + ly / 2, c1 := cx + lx / 2, n := n }]

/-- Python's `a % b` for floats.
on_numpy/modeler/modeling.py:33-320 -/
noncomputable def pyMod (a b : ℝ) : ℝ := a - b * ⌊a / b⌋

/-- A point `(x, y)`.
on_numpy/modeler/modeling.py:26-27 -/
abbrev Pt := ℝ × ℝ

/-- One rotated and shifted corner (modeling.py:82-96). -/
noncomputable def corner (cx cy angle x y : ℝ) : Pt :=
  (Real.cos angle * x - Real.sin angle * y + cx, Real.sin angle * x + Real.cos angle * y + cy)

/-- Corner bookkeeping of a rotated rectangle (modeling.py:98-164): the corners from top to bottom,
`length_top12`, `angle_inside` and whether the second corner is on the left. -/
structure RotInfo where
  top1 : Pt
  top2 : Pt
  top3 : Pt
  top4 : Pt
  length_top12 : ℝ
  angle_inside : ℝ
  top2_left : Bool

open Classical in
/-- The case split on the quadrant of the angle (modeling.py:98-164).  `angle` is already reduced
modulo 2π. -/
noncomputable def rotInfo (cx cy lx ly angle : ℝ) : Res RotInfo :=
  let UR := corner cx cy angle (lx / 2) (ly / 2)
  let RD := corner cx cy angle (lx / 2) (-ly / 2)
  let DL := corner cx cy angle (-lx / 2) (-ly / 2)
  let LU := corner cx cy angle (-lx / 2) (ly / 2)
  if 0 ≤ angle ∧ angle < Real.pi / 2 then
    .ok (if LU.2 > RD.2 then ⟨UR, LU, RD, DL, lx, Real.pi / 2 - angle, true⟩
      else ⟨UR, RD, LU, DL, ly, Real.pi / 2 - angle, false⟩)
  else if Real.pi / 2 ≤ angle ∧ angle < Real.pi then
    .ok (if UR.2 > DL.2 then ⟨RD, UR, DL, LU, ly, Real.pi - angle, true⟩
      else ⟨RD, DL, UR, LU, lx, Real.pi - angle, false⟩)
  else if Real.pi ≤ angle ∧ angle < Real.pi / 2 * 3 then
    .ok (if RD.2 > LU.2 then ⟨DL, RD, LU, UR, lx, Real.pi * 3 / 2 - angle, true⟩
      else ⟨DL, LU, RD, UR, ly, Real.pi * 3 / 2 - angle, false⟩)
  else if Real.pi / 2 * 3 ≤ angle ∧ angle < Real.pi * 2 then
    .ok (if DL.2 > UR.2 then ⟨LU, DL, UR, RD, ly, Real.pi * 2 - angle, true⟩
      else ⟨LU, UR, DL, RD, lx, Real.pi * 2 - angle, false⟩)
  else .error .valueError

/-- One outline sample: `(x, y, x_cp)`; `y_cp = y` always (modeling.py:180, 186, 195). -/
structure Sample where
  x : ℝ
  y : ℝ
  xcp : ℝ

/-- The samples `xxx, yyy, xxx_cp` of the left branch (modeling.py:171-203) and of the right branch
(251-317).  The divisors `n_split_triangle` / `n_split_parallelogram` are used exactly as in the
code. -/
noncomputable def outline (r : RotInfo) (nt np : ℕ) : List Sample :=
  if r.top2_left then
    let length := r.length_top12 / Real.sin r.angle_inside
    let t3 : Pt := (r.top3.1 - length, r.top3.2)
    ((List.range (nt + 1)).map fun (k : ℕ) =>
      let x := r.top1.1 - (r.top1.1 - r.top2.1) / nt * k
      { x := x, y := r.top1.2 - (r.top1.2 - r.top2.2) / np * k, xcp := x + length / nt * k })
    ++ ((List.range (np + 1)).map fun (k : ℕ) =>
      let x := r.top2.1 + (t3.1 - r.top2.1) / nt * k
      { x := x, y := r.top2.2 - (r.top2.2 - t3.2) / np * k, xcp := x + length })
    ++ ((List.range (nt + 1)).map fun (k : ℕ) =>
      let x := t3.1 + (r.top4.1 - t3.1) / nt * k
      { x := x, y := t3.2 - (t3.2 - r.top4.2) / np * k,
        xcp := x + length / nt * ((nt : ℝ) - k) })
  else
    let length := r.length_top12 / Real.cos r.angle_inside
    let t3 : Pt := (r.top3.1 + length, r.top3.2)
    ((List.range (nt + 1)).map fun (k : ℕ) =>
      let x := r.top1.1 + (r.top2.1 - r.top1.1) / nt * k
      { x := x, y := r.top1.2 - (r.top1.2 - r.top2.2) / np * k, xcp := x - length / nt * k })
    ++ ((List.range (np + 1)).map fun (k : ℕ) =>
      let x := r.top2.1 - (r.top2.1 - t3.1) / nt * k
      { x := x, y := r.top2.2 - (r.top2.2 - t3.2) / np * k, xcp := x - length })
    ++ ((List.range (nt + 1)).map fun (k : ℕ) =>
      let x := t3.1 - (t3.1 - r.top4.1) / nt * k
      { x := x, y := t3.2 - (t3.2 - r.top4.2) / np * k,
        xcp := x - length / nt * ((nt : ℝ) - k) })

/-- Consecutive samples become one slice (modeling.py:238-242, 319-324):
`[[y_next, x_mean], [y, x_cp_mean], n]` (roles of `x` and `x_cp` swapped on the right branch). -/
noncomputable def slices (left : Bool) (n : ℂ) : List Sample → List VObj
  | a :: b :: rest =>
    (if left then
      { r0 := b.y, c0 := (a.x + b.x) / 2, r1 := a.y, c1 := (a.xcp + b.xcp) / 2, n := n }
     else
      { r0 := b.y, c0 := (a.xcp + b.xcp) / 2, r1 := a.y, c1 := (a.x + b.x) / 2, n := n }) ::
    slices left n (b :: rest)
  | _ => []

open Classical in
/-- `rectangle` (modeling.py:33-341) with the default `angle_margin = 1e-5`.  A split count of 0
divides by zero (NaN) unless the rectangle is axis-aligned. -/
noncomputable def rectangle (cx cy lx ly : ℝ) (n : ℂ) (angle : ℝ) (nt np : ℕ) : Res (List VObj) :=
  let margin : ℝ := 1 / 100000
  let a := pyMod angle (2 * Real.pi)
  let b := pyMod |a| (2 * Real.pi)
  if 0 * Real.pi / 2 - margin ≤ b ∧ b ≤ 0 * Real.pi / 2 + margin then
    .ok (rectNoApprox cx cy lx ly n)
  else if 1 * Real.pi / 2 - margin ≤ b ∧ b ≤ 1 * Real.pi / 2 + margin then
    .ok (rectNoApprox cx cy ly lx n)
  else if 2 * Real.pi / 2 - margin ≤ b ∧ b ≤ 2 * Real.pi / 2 + margin then
    .ok (rectNoApprox cx cy lx ly n)
  else if 3 * Real.pi / 2 - margin ≤ b ∧ b ≤ 3 * Real.pi / 2 + margin then
    .ok (rectNoApprox cx cy ly lx n)
  else do
    let r ← rotInfo cx cy lx ly a
    if nt = 0 ∨ np = 0 then .error .nan
    else .ok (slices r.top2_left n (outline r nt np))

/-! ### Ellipses -/

/-- Point number `k` of the contour before the shift of the list: `np.linspace(-np.pi, np.pi, n)[:-1]`, rotated and shifted
(modeling.py:405-440). -/
noncomputable def ellipsePt (cx cy lx ly angle : ℝ) (n k : ℕ) : Pt :=
  let t := -Real.pi + k * (2 * Real.pi / ((n - 1 : ℕ) : ℝ))
  corner cx cy (pyMod angle (2 * Real.pi)) (lx / 2 * Real.cos t) (ly / 2 * Real.sin t)

/-- `np.argmax(points.real, axis=1)[1, 0]`: the first of the highest among the points `p 0, …, p (N - 1)`; none if there are no
points (modeling.py:442, 445). -/
noncomputable def argmaxY (N : ℕ) (p : ℕ → Pt) : Option ℕ := (List.range N).argmax fun k => (p k).2

/-- `np.roll(points, N // 2 - h, axis=1)` (modeling.py:444). -/
def rollTo (N h : ℕ) (p : ℕ → Pt) (i : ℕ) : Pt := p ((i + h + (N - N / 2)) % N)

open Classical in
/-- `arr` (modeling.py:447-479): the points from top to bottom, taken alternately from both sides of the highest point number
`h`; all zero if the comparison of its neighbours does not decide which side comes first.  `left` is what is read for the point
after the highest one. -/
noncomputable def ellipseArr (N : ℕ) (q : ℕ → Pt) (h : ℕ) (left : Pt) : List Pt :=
  let right := q ((h + (N - 1)) % N)
  let L := fun i => q ((h + i + 1) % N)
  let R := fun i => q ((h + (N - (i + 1))) % N)
  if left.2 > right.2 then q h :: (List.range (N / 2)).flatMap fun i => [L i, R i]
  else if left.2 < right.2 then q h :: (List.range (N / 2)).flatMap fun i => [R i, L i]
  else List.replicate (2 * (N / 2)) (0, 0)

/-- The boxes spanned by consecutive points (modeling.py:481-491; the last box, which closes the list, is dropped). -/
noncomputable def pairBoxes (n : ℂ) : List Pt → List VObj
  | a :: b :: rest => { r0 := min a.2 b.2, c0 := min a.1 b.1, r1 := max a.2 b.2, c1 := max a.1 b.1, n := n } ::
      pairBoxes n (b :: rest)
  | _ => []

/-- `ellipse` (modeling.py:384-491) without `debug`.  `np.vstack` raises `ValueError` on arrays of different lengths, `np.argmax`
on empty ones, and the point after the last one does not exist. -/
noncomputable def ellipse (cx cy lx ly : ℝ) (n : ℂ) (angle : ℝ) (nw nh : ℕ) : Res (List VObj) :=
  if nw - 1 ≠ nh - 1 then .error .valueError
  else
    let N := nw - 1
    let p := ellipsePt cx cy lx ly angle nw
    match argmaxY N p with
    | none => .error .valueError
    | some h0 =>
      let q := rollTo N h0 p
      match argmaxY N q with
      | none => .error .valueError
      | some h => if h + 1 < N then .ok (pairBoxes n (ellipseArr N q h (q (h + 1)))) else .error .indexError

/-! ### The grid of one layer -/

open Classical in
/-- `bisect.bisect_left(a, x, lo, hi)`: binary search, also on unsorted lists.
on_numpy/modeler/modeling.py:1, 519, 541 -/
noncomputable def bisectLeft (a : List ℝ) (x : ℝ) (lo hi : ℕ) : ℕ :=
  if h : lo < hi then
    let mid := (lo + hi) / 2
    if (a[mid]?).any (fun v => decide (v < x)) then bisectLeft a x (mid + 1) hi
    else bisectLeft a x lo mid
  else lo
termination_by hi - lo

/-- `perturbation_unit` for double precision (modeling.py:499). -/
noncomputable def pertUnit : ℝ := 1 / 10 ^ 14

open Classical in
/-- Insert a `top_left` coordinate into an edge list (modeling.py:518-540, 557-578); returns the
list, the accumulated perturbation and the coordinate as (re)written into the object. -/
noncomputable def insertTop (l : List ℝ) (pert v : ℝ) : List ℝ × ℝ × ℝ :=
  let index := bisectLeft l v 0 l.length
  if l[index]? = some v then
    let p := pert + pertUnit
    let v' := if v = 0 then v + p else v + v * p
    (l.insertIdx index v', p, v')
  else (l.insertIdx index v, pert, v)

open Classical in
/-- Insert a `bottom_right` coordinate (modeling.py:542-555, 580-603). -/
noncomputable def insertBot (l : List ℝ) (pert v : ℝ) : List ℝ × ℝ × ℝ :=
  let index := bisectLeft l v 0 l.length
  if l[index]? = some v then
    let p := pert + pertUnit
    let v' := v - v * p
    (l.insertIdx index v', p, v')
  else (l.insertIdx index v, pert, v)

/-- Accumulator of the gridding loop.
on_numpy/modeler/modeling.py:498-512 -/
structure GridAcc where
  rows : List ℝ
  cols : List ℝ
  pert : ℝ
  objs : List VObj

/-- One iteration of the gridding loop (modeling.py:514-604). -/
noncomputable def gridStep (s : GridAcc) (o : VObj) : GridAcc :=
  let a := insertTop s.rows s.pert o.r0
  let b := insertBot a.1 a.2.1 o.r1
  let c := insertTop s.cols b.2.1 o.c0
  let d := insertBot c.1 c.2.1 o.c1
  { rows := b.1, cols := d.1, pert := d.2.1,
    objs := s.objs ++ [{ r0 := a.2.2, c0 := c.2.2, r1 := b.2.2, c1 := d.2.2, n := o.n }] }

open Classical in
/-- Append the period when the last edge differs, then drop a leading zero
(modeling.py:606-614). -/
noncomputable def finishEdges (l : List ℝ) (period : ℝ) : List ℝ :=
  let l1 := if l.getLast? = some period then l else l ++ [period]
  if l1.head? = some 0 then l1.tail else l1

open Classical in
/-- `list.index(v)`: `ValueError` when absent.
on_numpy/modeler/modeling.py:623-630 -/
noncomputable def listIndex (l : List ℝ) (v : ℝ) : Res ℕ :=
  match l.findIdx? (fun w => decide (w = v)) with
  | some i => .ok i
  | none => .error .valueError

open Classical in
/-- `0 if top == 0 else list.index(top) + 1` (modeling.py:621-624, 627-630). -/
noncomputable def beginIdx (l : List ℝ) (v : ℝ) : Res ℕ :=
  if v = 0 then .ok 0 else do
    let i ← listIndex l v
    .ok (i + 1)

/-- `list.index(bottom) + 1` (modeling.py:625, 631). -/
noncomputable def endIdx (l : List ℝ) (v : ℝ) : Res ℕ := do
  let i ← listIndex l v
  .ok (i + 1)

/-- Slice assignment `ucell_layer[r0:r1, c0:c1] = n` (modeling.py:633). -/
def paintSlice (m : ℕ → ℕ → ℂ) (r0 r1 c0 c1 : ℕ) (n : ℂ) : ℕ → ℕ → ℂ :=
  fun i j => if r0 ≤ i ∧ i < r1 ∧ c0 ≤ j ∧ j < c1 then n else m i j

/-- The painting loop (modeling.py:618-633). -/
noncomputable def paintAll (rows cols : List ℝ) : List VObj → (ℕ → ℕ → ℂ) → Res (ℕ → ℕ → ℂ)
  | [], m => .ok m
  | o :: os, m => do
    let r0 ← beginIdx rows o.r0
    let r1 ← endIdx rows o.r1
    let c0 ← beginIdx cols o.c0
    let c1 ← endIdx cols o.c1
    paintAll rows cols os (paintSlice m r0 r1 c0 c1 o.n)

/-- The gridding phase of `vector_per_layer_numeric`: final edge lists and rewritten objects.
on_numpy/modeler/modeling.py:505-613 -/
noncomputable def gridLayer (objs : List VObj) : GridAcc :=
  objs.foldl gridStep { rows := [], cols := [], pert := 0, objs := [] }

/-- `vector_per_layer_numeric` (modeling.py:493-637).  The returned cell matrix is a function of
row and column index; its shape is `(rows.length, cols.length)`. -/
noncomputable def vectorPerLayer (period : ℝ × ℝ) (base : ℂ) (objs : List VObj) :
    Res (List ℝ × List ℝ × (ℕ → ℕ → ℂ)) := do
  let g := gridLayer objs
  let rows := finishEdges g.rows period.2
  let cols := finishEdges g.cols period.1
  let m ← paintAll rows cols g.objs (fun _ _ => base)
  .ok (rows, cols, m)

/-- The `[ucell_layer, x_list, y_list]` entry as a compressed cell.  Empty edge lists (period 0 and
no objects) fail in `np.concatenate` with `ValueError`.
on_numpy/modeler/modeling.py:634-645 -/
noncomputable def toVCell (rows cols : List ℝ) (m : ℕ → ℕ → ℂ) : Res VCell :=
  if h : rows.length ≠ 0 ∧ cols.length ≠ 0 then
    .ok { ny := rows.length, nx := cols.length, hy := ⟨h.1⟩, hx := ⟨h.2⟩,
          val := fun i j => m i j, x := fun j => cols.get j, y := fun i => rows.get i }
  else .error .valueError

/-- A vector instruction `['rectangle', cx, cy, lx, ly, n, angle, n_split_triangle,
n_split_parallelogram]` or `['ellipse', cx, cy, lx, ly, n, angle, n_split_w, n_split_h]`.  Any other method name is outside the
model, except that an unknown one raises `AttributeError` (`getattr`).
on_numpy/modeler/modeling.py:668-679 -/
inductive VInstr
  | rectangle (cx cy lx ly : ℝ) (n : ℂ) (angle : ℝ) (nt np : ℕ)
  | ellipse (cx cy lx ly : ℝ) (n : ℂ) (angle : ℝ) (nw nh : ℕ)
  | unknown

/-- `func(*vector_object[1:])` (modeling.py:675-676). -/
noncomputable def VInstr.run : VInstr → Res (List VObj)
  | .rectangle cx cy lx ly n angle nt np => Meent.rectangle cx cy lx ly n angle nt np
  | .ellipse cx cy lx ly n angle nw nh => Meent.ellipse cx cy lx ly n angle nw nh
  | .unknown => .error .attributeError

/-- A vector layer `[base, [instructions]]`.
on_numpy/modeler/modeling.py:668-679 -/
structure VLayer where
  base : ℂ
  instrs : List VInstr

/-- First loop of `modeling_vector_instruction` for one layer (modeling.py:671-679). -/
noncomputable def VLayer.objs (l : VLayer) : Res (List VObj) := do
  let os ← l.instrs.mapM VInstr.run
  .ok os.flatten

/-- `draw` for one layer (modeling.py:639-649). -/
noncomputable def drawLayer (period : ℝ × ℝ) (base : ℂ) (objs : List VObj) : Res VCell := do
  let r ← vectorPerLayer period base objs
  toVCell r.1 r.2.1 r.2.2

/-- The caller's objects after `vector_per_layer_numeric`, which writes moved coordinates back into them.  It does so before it can
raise.
on_numpy/modeler/modeling.py:524-526, 546, 565-569, 594 -/
noncomputable def objsAfter (objs : List VObj) : List VObj := (gridLayer objs).objs

/-- `draw` (modeling.py:639-649) for layers with the given base indices whose objects are one and the same list.  Each layer finds
the objects as the one before it left them. -/
noncomputable def drawShared (period : ℝ × ℝ) : List ℂ → List VObj → Res (List VCell)
  | [], _ => .ok []
  | b :: bs, objs => do
    let c ← drawLayer period b objs
    let cs ← drawShared period bs (objsAfter objs)
    .ok (c :: cs)

/-- `modeling_vector_instruction` (modeling.py:668-683).  All instructions of all layers are
evaluated before any layer is drawn. -/
noncomputable def modeling_vector_instruction (period : ℝ × ℝ) (ls : List VLayer) :
    Res (List VCell) := do
  let os ← ls.mapM fun l => do
    let o ← l.objs
    .ok (l.base, o)
  os.mapM fun bo => drawLayer period bo.1 bo.2

end Meent
