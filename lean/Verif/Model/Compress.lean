import Verif.Model.Fourier

/-!
# Cell compression and the continuous raster path

/repo/meent/on_numpy/emsolver/convolution_matrix.py:6-44 and 70-90.
-/

open Matrix

namespace Meent

/-- `np.flipud(cell)`
on_numpy/emsolver/convolution_matrix.py:8 -/
def Raster.flipud (c : Raster) : Raster where
  ny := c.ny
  nx := c.nx
  val := fun i j => c.val i.rev j

/-- Cyclic successor of an index: `np.roll(cell, -1, axis)` puts entry `i + 1` (cyclically) at
`i`.
on_numpy/emsolver/convolution_matrix.py:25, 33 -/
def cycNext {N : ℕ} (i : Fin N) : Fin N :=
  ⟨(i.val + 1) % N, Nat.mod_lt _ (Nat.lt_of_le_of_lt (Nat.zero_le _) i.isLt)⟩

open Classical in
/-- Columns kept by the first loop (convolution_matrix.py:26-29): column `col` differs from its
cyclic successor, or is the last. -/
noncomputable def keptCols (c : Raster) : List (Fin c.nx) :=
  (List.finRange c.nx).filter fun j =>
    decide (¬ (∀ i, c.val i j = c.val i (cycNext j)) ∨ j.val = c.nx - 1)

open Classical in
/-- Rows kept by the second loop (convolution_matrix.py:34-37), which compares the rows of the
column-compressed cell. -/
noncomputable def keptRows (c : Raster) (cols : List (Fin c.nx)) : List (Fin c.ny) :=
  (List.finRange c.ny).filter fun i =>
    decide (¬ (∀ j ∈ cols, c.val i j = c.val (cycNext i) j) ∨ i.val = c.ny - 1)

/-- Second half of `cell_compression`: build `cell_comp, x, y` from the kept rows and columns.
A cell with no rows or no columns fails later in `_cfs` when indexing an empty array
(`IndexError`).
on_numpy/emsolver/convolution_matrix.py:27-44 -/
noncomputable def assembleCell (c : Raster) (rows : List (Fin c.ny)) (cols : List (Fin c.nx)) :
    Res VCell :=
  if h : rows.length ≠ 0 ∧ cols.length ≠ 0 then
    .ok { ny := rows.length, nx := cols.length, hy := ⟨h.1⟩, hx := ⟨h.2⟩,
          val := fun i j => c.val (rows.get i) (cols.get j),
          x := fun j => 1 / (c.nx : ℝ) * ((cols.get j).val + 1 : ℕ),
          y := fun i => 1 / (c.ny : ℝ) * ((rows.get i).val + 1 : ℕ) }
  else .error .indexError

/-- `cell_compression` (convolution_matrix.py:6-44). -/
noncomputable def cell_compression (cell : Raster) : Res VCell :=
  let c := cell.flipud
  let cols := keptCols c
  let rows := keptRows c cols
  assembleCell c rows cols

/-- Loop body of `to_conv_mat_raster_continuous` (convolution_matrix.py:78-88). -/
noncomputable def convRasterContinuous (la : LinAlg) (l : Raster) (fto_x fto_y : ℕ)
    (use_pinv : Bool) : Res (Conv (FlatIdx fto_x fto_y)) := do
  let c ← cell_compression l
  convContinuous la c fto_x fto_y use_pinv

/-- `to_conv_mat_raster_continuous` (convolution_matrix.py:70-90). -/
noncomputable def to_conv_mat_raster_continuous (la : LinAlg) (u : Ucell) (fto_x fto_y : ℕ)
    (use_pinv : Bool) : Res (List (Conv (FlatIdx fto_x fto_y))) :=
  u.rasters.mapM fun l => convRasterContinuous la l fto_x fto_y use_pinv

end Meent
