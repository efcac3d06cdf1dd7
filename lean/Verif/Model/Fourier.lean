import Verif.Model.Transfer1D

/-!
# Fourier analysis and convolution matrices

/repo/meent/on_numpy/emsolver/fourier_analysis.py and
/repo/meent/on_numpy/emsolver/convolution_matrix.py.
-/

open Matrix

namespace Meent

/-- `np.fft.fft` along an axis of length `N`.
on_numpy/emsolver/fourier_analysis.py:74, 86 -/
noncomputable def npfft {N : ℕ} (a : Fin N → ℂ) (k : Fin N) : ℂ :=
  ∑ y : Fin N, a y * Complex.exp (-(2 * Real.pi * Complex.I * (k.val : ℂ) * (y.val : ℂ) / (N : ℂ)))

/-- Python indexing of an axis of length `N` by the integer `j`: negative indices count from the
end, anything outside `-N … N-1` is an `IndexError`.
on_numpy/emsolver/fourier_analysis.py:43, 52, 79, 88 -/
def pyIdx (N : ℕ) (j : ℤ) : Option (Fin N) :=
  if h : 0 ≤ j ∧ j < N then some ⟨j.toNat, by omega⟩
  else if h : -(N : ℤ) ≤ j ∧ j < 0 then some ⟨(j + N).toNat, by omega⟩
  else none

/-- `circulant(fto)[r][c]` (fourier_analysis.py:514-533): row `r` is `arange(-r, -r + ff)`. -/
def circulant (r c : ℕ) : ℤ := (c : ℤ) - (r : ℤ)

/-- Fancy indexing `a[idx]` of an axis of length `N` by a table of integers: `IndexError` if any
entry is out of range.
on_numpy/emsolver/fourier_analysis.py:43, 52, 79, 88 -/
def fancy {N : ℕ} {ι κ : Type} [Fintype ι] [Fintype κ] [DecidableEq ι] [DecidableEq κ] (a : Fin N → ℂ) (idx : ι → κ → ℤ) :
    Res (Matrix ι κ ℂ) :=
  if h : ∀ r c, (pyIdx N (idx r c)).isSome then
    .ok (Matrix.of fun r c => a ((pyIdx N (idx r c)).get (h r c)))
  else .error .indexError

/-- A raster image with its shape.
on_numpy/emsolver/convolution_matrix.py:110-119 -/
structure Raster where
  ny : ℕ
  nx : ℕ
  val : Fin ny → Fin nx → ℂ

/-- `np.repeat(layer, k, axis=0)`
on_numpy/emsolver/convolution_matrix.py:113 -/
def Raster.repeatRows (l : Raster) (k : ℕ) : Raster where
  ny := l.ny * k
  nx := l.nx
  val := fun i j => l.val i.divNat j

/-- `np.repeat(layer, k, axis=1)`
on_numpy/emsolver/convolution_matrix.py:117 -/
def Raster.repeatCols (l : Raster) (k : ℕ) : Raster where
  ny := l.ny
  nx := l.nx * k
  val := fun i j => l.val i j.divNat

/-- `layer ** 2` (elementwise)
on_numpy/emsolver/convolution_matrix.py:80, 119 -/
def Raster.sq (l : Raster) : Raster where
  ny := l.ny
  nx := l.nx
  val := fun i j => l.val i j ^ 2

open Classical in
/-- `np.linalg.inv` on a stack of matrices.
on_numpy/emsolver/fourier_analysis.py:46, 82 -/
noncomputable def npInvStack {ι n : Type} [Fintype n] [DecidableEq n]
    (a : ι → Matrix n n ℂ) : Res (ι → Matrix n n ℂ) :=
  if ∀ i, IsUnit (a i).det then .ok (fun i => (a i)⁻¹) else .error .linAlgError

/-- `if conti_x ^ conti_y: conv1d = np.linalg.inv(conv1d)` (fourier_analysis.py:45-46, 81-82). -/
noncomputable def invIf {ι n : Type} [Fintype n] [DecidableEq n] (b : Bool)
    (a : ι → Matrix n n ℂ) : Res (ι → Matrix n n ℂ) :=
  if b then npInvStack a else .ok a

open Classical in
/-- `cell = 1 / cell` when `conti_y == 0` (fourier_analysis.py:35-36, 71-72).  numpy turns a zero
entry into `inf` and everything after into NaN: modelled as the error `nan`. -/
noncomputable def invRuleY {nx ny : ℕ} (conti_y : Bool) (cell : Fin nx → Fin ny → ℂ) :
    Res (Fin nx → Fin ny → ℂ) :=
  if conti_y then .ok cell
  else if ∀ x y, cell x y ≠ 0 then .ok (fun x y => 1 / cell x y)
  else .error .nan

/-- Run a fallible function on every index; the first error wins (vectorised numpy operations raise
as a whole).
on_numpy/emsolver/fourier_analysis.py:46, 82 -/
def forAllFin {α : Type} : {N : ℕ} → (Fin N → Res α) → Res (Fin N → α)
  | 0, _ => .ok (fun i => i.elim0)
  | _ + 1, f => do
    let a ← f 0
    let r ← forAllFin (fun i => f i.succ)
    .ok (Fin.cons a r)

/-- Flattened index pairs: `(iy, ix) ↦ iy * ff_x + ix` (C-order `reshape`).
on_numpy/emsolver/fourier_analysis.py:53-55, 89-91 -/
abbrev FlatIdx (fto_x fto_y : ℕ) := Fin ((2 * fto_y + 1) * (2 * fto_x + 1))

/-- The four-index array `[ry, rx, cy, cx]` reshaped to a square matrix
(`reshape((ff_y*ff_x, ff_y*ff_x))`, fourier_analysis.py:56, 92). -/
def flatten4 {fto_x fto_y : ℕ}
    (m : Matrix (Fin (2 * fto_y + 1) × Fin (2 * fto_x + 1))
      (Fin (2 * fto_y + 1) × Fin (2 * fto_x + 1)) ℂ) :
    Matrix (FlatIdx fto_x fto_y) (FlatIdx fto_x fto_y) ℂ :=
  m.submatrix finProdFinEquiv.symm finProdFinEquiv.symm

/-- `dfs2d(cell, conti_x, conti_y, fto_x, fto_y)` (fourier_analysis.py:63-96). -/
noncomputable def dfs2d (cell : Raster) (conti_x conti_y : Bool) (fto_x fto_y : ℕ) :
    Res (Matrix (FlatIdx fto_x fto_y) (FlatIdx fto_x fto_y) ℂ) := do
  let cellT ← invRuleY conti_y (fun x y => cell.val y x)
  let dfs1d := fun (x : Fin cell.nx) => npfft (fun y => cellT x y / (cell.ny : ℂ))
  let conv1d ← forAllFin (fun x => fancy (dfs1d x)
    (fun (r c : Fin (2 * fto_y + 1)) => circulant r.val c.val))
  let conv1d ← invIf (conti_x ^^ conti_y) conv1d
  let dfs2d := fun (ry cy : Fin (2 * fto_y + 1)) =>
    npfft (fun x : Fin cell.nx => conv1d x ry cy / (cell.nx : ℂ))
  let conv2d ← forAllFin (fun ry => forAllFin (fun cy => fancy (dfs2d ry cy)
    (fun (r c : Fin (2 * fto_x + 1)) => circulant r.val c.val)))
  let m := flatten4 (Matrix.of fun r c => conv2d r.1 c.1 r.2 c.2)
  if conti_x then .ok m else npInv m

/-- Pixel repetition before the discrete transform (convolution_matrix.py:101-116). -/
def enlarge (l : Raster) (fto_x fto_y : ℕ) (enhanced : Bool) : Raster :=
  let minY := if enhanced then (4 * fto_y + 1) * l.ny else 4 * fto_y + 1
  let minX := if enhanced then (4 * fto_x + 1) * l.nx else 4 * fto_x + 1
  let l1 := if l.ny < minY then l.repeatRows (minY / l.ny + 1) else l
  if l1.nx < minX then l1.repeatCols (minX / l1.nx + 1) else l1

/-- Loop body of `to_conv_mat_raster_discrete` for one layer (convolution_matrix.py:109-127). -/
noncomputable def convDiscrete (la : LinAlg) (l : Raster) (fto_x fto_y : ℕ)
    (enhanced use_pinv : Bool) : Res (Conv (FlatIdx fto_x fto_y)) := do
  let eps := (enlarge l fto_x fto_y enhanced).sq
  let epz ← dfs2d eps true true fto_x fto_y
  let epy ← dfs2d eps true false fto_x fto_y
  let epx ← dfs2d eps false true fto_x fto_y
  let epzi ← meeinv la epz use_pinv
  .ok { epx := epx, epy := epy, epzi := epzi }

/-- A raster `ucell` of shape `(layers, ny, nx)`.
on_numpy/emsolver/rcwa.py:91-100, on_numpy/emsolver/convolution_matrix.py:93-110 -/
structure Ucell where
  ny : ℕ
  nx : ℕ
  layers : List (Fin ny → Fin nx → ℂ)

/-- `ucell[i]` as a raster.
on_numpy/emsolver/convolution_matrix.py:78, 110 -/
def Ucell.rasters (u : Ucell) : List Raster := u.layers.map fun l => ⟨u.ny, u.nx, l⟩

/-- `to_conv_mat_raster_discrete` (convolution_matrix.py:93-129). -/
noncomputable def to_conv_mat_raster_discrete (la : LinAlg) (u : Ucell) (fto_x fto_y : ℕ)
    (enhanced use_pinv : Bool) : Res (List (Conv (FlatIdx fto_x fto_y))) :=
  u.rasters.mapM fun l => convDiscrete la l fto_x fto_y enhanced use_pinv

/-! ### Continuous Fourier series -/

/-- `_cfs(x, cell, fto, period)` (fourier_analysis.py:4-22): `cell` has rows `ι` and `k` columns,
column `j` occupies `(x[j-1], x[j])` with `x[-1] := 0`.  The result has columns for the modes
`-2 fto … 2 fto`. -/
noncomputable def cfs1 {ι : Type} {k : ℕ} [NeZero k] (x : Fin k → ℝ) (cell : ι → Fin k → ℂ)
    (fto : ℕ) (period : ℝ) (r : ι) (mode : Fin (4 * fto + 1)) : ℂ :=
  let m : ℤ := (mode : ℤ) - 2 * (fto : ℤ)
  if mode.val = 2 * fto then
    -- centre: cell @ vstack((x[0], x_next[:-1])) / period
    (∑ j : Fin k, cell r j * ((if j = 0 then x 0 else x j - x (j - 1) : ℝ) : ℂ)) / (period : ℂ)
  else
    (∑ j : Fin k, (cell r (j + 1) - cell r j) *
      Complex.exp (-(Complex.I * 2 * Real.pi * (x j : ℂ) * (m : ℂ) / (period : ℂ))))
      / (Complex.I * 2 * Real.pi * (m : ℂ))

/-- A compressed cell: values and right edges of the columns and rows
(`cell_comp, x, y` of `cell_compression`, or an entry of `ucell_info_list`).
on_numpy/emsolver/convolution_matrix.py:44, 56 -/
structure VCell where
  ny : ℕ
  nx : ℕ
  hy : NeZero ny
  hx : NeZero nx
  val : Fin ny → Fin nx → ℂ
  x : Fin nx → ℝ
  y : Fin ny → ℝ

attribute [instance] VCell.hy VCell.hx

/-- `cfs2d(cell, x, y, conti_x, conti_y, fto_x, fto_y)` (fourier_analysis.py:25-60). -/
noncomputable def cfs2d (cell : VCell) (conti_x conti_y : Bool) (fto_x fto_y : ℕ) :
    Res (Matrix (FlatIdx fto_x fto_y) (FlatIdx fto_x fto_y) ℂ) := do
  let period_x := cell.x (-1)
  let period_y := cell.y (-1)
  let cellT ← invRuleY conti_y (fun x y => cell.val y x)
  let cfs1d := cfs1 cell.y cellT fto_y period_y
  let conv1d ← forAllFin (fun x => fancy (cfs1d x)
    (fun (r c : Fin (2 * fto_y + 1)) => circulant r.val c.val + 2 * (fto_y : ℤ)))
  let conv1d ← invIf (conti_x ^^ conti_y) conv1d
  let cfs2d := cfs1 cell.x
    (fun (rc : Fin (2 * fto_y + 1) × Fin (2 * fto_y + 1)) x => conv1d x rc.1 rc.2) fto_x period_x
  let conv2d ← forAllFin (fun ry => forAllFin (fun cy => fancy (cfs2d (ry, cy))
    (fun (r c : Fin (2 * fto_x + 1)) => circulant r.val c.val + 2 * (fto_x : ℤ))))
  let m := flatten4 (Matrix.of fun r c => conv2d r.1 c.1 r.2 c.2)
  if conti_x then .ok m else npInv m

/-- `eps_matrix = ucell_layer ** 2` for a compressed cell (convolution_matrix.py:57, 80). -/
def VCell.sq (c : VCell) : VCell := { c with val := fun i j => c.val i j ^ 2 }

/-- Loop body of `to_conv_mat_vector` / `to_conv_mat_raster_continuous` after compression
(convolution_matrix.py:55-65, 78-88). -/
noncomputable def convContinuous (la : LinAlg) (c : VCell) (fto_x fto_y : ℕ) (use_pinv : Bool) :
    Res (Conv (FlatIdx fto_x fto_y)) := do
  let eps := c.sq
  let epz ← cfs2d eps true true fto_x fto_y
  let epy ← cfs2d eps true false fto_x fto_y
  let epx ← cfs2d eps false true fto_x fto_y
  let epzi ← meeinv la epz use_pinv
  .ok { epx := epx, epy := epy, epzi := epzi }

/-- `to_conv_mat_vector` (convolution_matrix.py:47-67). -/
noncomputable def to_conv_mat_vector (la : LinAlg) (cells : List VCell) (fto_x fto_y : ℕ)
    (use_pinv : Bool) : Res (List (Conv (FlatIdx fto_x fto_y))) :=
  cells.mapM fun c => convContinuous la c fto_x fto_y use_pinv

end Meent
