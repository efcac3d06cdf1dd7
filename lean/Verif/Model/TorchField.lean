import Verif.Model.Field
import Verif.Model.Torch

/-!
# The PyTorch backend: `calculate_field` and `conv_solve_field`

/repo/meent/on_torch/emsolver/field_distribution.py and /repo/meent/on_torch/emsolver/rcwa.py:226-274.

The layer loops of `field_dist_1d`, `field_dist_1d_conical` and `field_dist_2d` have the same statements as in NumPy
(`torch.flip` for `[::-1]`) and are shared with that model; they get the wavenumbers of this backend.  New here is the
common tail of `calculate_field`: three components are expanded to six, then everything is conjugated and signed.
-/

namespace Meent

/-- The expansion of `[Ey, Hx, Hz]` (TE) or `[Hy, Ex, Ez]` (TM) to six components
(on_torch/emsolver/rcwa.py:247-254). -/
noncomputable def tExpand (pol : ℝ) (f : Field3) : Field6 :=
  if pol = 0 then { Ex := 0, Ey := f.Fy, Ez := 0, Hx := f.Fx, Hy := 0, Hz := f.Fz }
  else { Ex := f.Fx, Ey := 0, Ez := f.Fz, Hx := 0, Hy := f.Fy, Hz := 0 }

/-- `field_cell.conj() * signs` with `signs = (-1, 1, -1, 1, -1, 1)` (on_torch/emsolver/rcwa.py:258-259). -/
noncomputable def tSigns (f : Field6) : Field6 :=
  { Ex := star f.Ex * -1, Ey := star f.Ey * 1, Ez := star f.Ez * -1,
    Hx := star f.Hx * 1, Hy := star f.Hy * -1, Hz := star f.Hz * 1 }

/-- `-field_cell`.
on_torch/emsolver/rcwa.py:264 -/
noncomputable def Field6.neg (f : Field6) : Field6 :=
  { Ex := -f.Ex, Ey := -f.Ey, Ez := -f.Ez, Hx := -f.Hx, Hy := -f.Hy, Hz := -f.Hz }

/-- A pointwise operation on an array of samples.
on_torch/emsolver/rcwa.py:247-264 -/
def Block.map {rx ry rz : ℕ} {α β : Type} (g : α → β) (b : Block rx ry rz α) : Block rx ry rz β :=
  fun iz iy ix => g (b iz iy ix)

/-- `field_dist_1d` with the wavenumbers of this backend (on_torch/emsolver/field_distribution.py:4-60). -/
noncomputable def tField_dist_1d (p : Params) (o : Out1D (2 * p.fto.1 + 1)) (res_x res_z : ℕ) :
    List (Block res_x 1 res_z Field3) :=
  fieldLoop1d (2 * Real.pi / p.wavelength) p.pol p.period.1 (tKxVec p p.wavelength) res_x res_z
    o.infos.reverse o.T1

/-- `field_dist_1d_conical` (on_torch/emsolver/field_distribution.py:63-169). -/
noncomputable def tField_dist_1d_conical (p : Params) (o : OutCon p.fto.1 p.fto.2)
    (res_x res_y res_z : ℕ) (sel : Bool × Bool × Bool) : List (List (Block res_x res_y res_z Field6)) :=
  (selectT1 o.out sel).map
    (fieldLoopCon (2 * Real.pi / p.wavelength) p.period (tileX (tKxVec p p.wavelength))
      (tileY (tKyVec p p.wavelength)) res_x res_y res_z o.infos.reverse)

/-- `field_dist_2d` (on_torch/emsolver/field_distribution.py:172-365). -/
noncomputable def tField_dist_2d (p : Params) (o : Out2D p.fto.1 p.fto.2)
    (res_x res_y res_z : ℕ) (sel : Bool × Bool × Bool) : List (List (Block res_x res_y res_z Field6)) :=
  (selectT1 o.out sel).map
    (fieldLoop2d (2 * Real.pi / p.wavelength) p.period (tileX (tKxVec p p.wavelength))
      (tileY (tKyVec p p.wavelength)) res_x res_y res_z o.infos.reverse)

/-- The array returned by `calculate_field`, always with six components: for the TE/TM solver without, otherwise
with a leading axis for the selected inputs (on_torch/emsolver/rcwa.py:226-266). -/
inductive TFieldCell (res_x res_y res_z : ℕ)
  | tetm (cell : List (Block res_x 1 res_z Field6))
  | vector (cells : List (List (Block res_x res_y res_z Field6)))

/-- `calculate_field` (on_torch/emsolver/rcwa.py:226-266) for settings `p` and the stored outcome `r` of the most
recent solve.  After an SMM solve `T1` is `None`, so `T1[...]` raises `TypeError`. -/
noncomputable def tCalculate_field (p : Params) (r : Solved p.fto.1 p.fto.2) (res_x res_y res_z : ℕ)
    (sel : Bool × Bool × Bool) : Res (TFieldCell res_x res_y res_z) :=
  match r with
  | .tetm o =>
    let cell := (tField_dist_1d p o res_x res_z).map (Block.map fun f => tSigns (tExpand p.pol f))
    .ok (.tetm (if p.pol = 1 then cell.map (Block.map Field6.neg) else cell))
  | .conical o =>
    .ok (.vector ((tField_dist_1d_conical p o res_x res_y res_z sel).map (List.map (Block.map tSigns))))
  | .conicalSmm => .error .typeError
  | .twoD o =>
    .ok (.vector ((tField_dist_2d p o res_x res_y res_z sel).map (List.map (Block.map tSigns))))

/-- `conv_solve_field` (on_torch/emsolver/rcwa.py:268-274) without keyword arguments. -/
noncomputable def tConv_solve_field (la : LinAlg) (s : TSettings) (res_x res_y res_z : ℕ) (sel : Bool × Bool × Bool) :
    Res (Solved s.p.fto.1 s.p.fto.2 × TFieldCell res_x res_y res_z) := do
  let r ← tConv_solve la s
  let f ← tCalculate_field s.p r res_x res_y res_z sel
  .ok (r, f)

end Meent
