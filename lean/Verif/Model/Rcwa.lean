import Verif.Model.Transfer2D
import Verif.Model.Vector

/-!
# One solve: `conv_solve` as a function of the current settings

/repo/meent/on_numpy/emsolver/rcwa.py:8-199 and the `connecting_algo` branches of
/repo/meent/on_numpy/emsolver/_base.py:224-418.
-/

open Matrix

namespace Meent

/-- The value of `ucell`: a raster array or a list of vector layers (rcwa.py:88-108). -/
inductive Structure
  | raster (u : Ucell)
  | vector (ls : List VLayer)

/-- `connecting_algo`: `'TMM'`, `'SMM'` or anything else.
on_numpy/emsolver/_base.py:233-242, 296-304 -/
inductive Algo
  | tmm
  | smm
  | other
  deriving DecidableEq

/-- Everything one `conv_solve` reads.
on_numpy/emsolver/rcwa.py:45-82 -/
structure Settings where
  p : Params
  ucell : Structure
  fourier_type : ℤ
  enhanced_dfs : Bool
  algo : Algo

/-- x truncation order.
on_numpy/emsolver/rcwa.py:180 -/
abbrev Settings.fx (s : Settings) : ℕ := s.p.fto.1
/-- y truncation order.
on_numpy/emsolver/rcwa.py:180 -/
abbrev Settings.fy (s : Settings) : ℕ := s.p.fto.2

/-- `ResultNumpy` (rcwa.py:8-26). -/
structure Result (fx fy : ℕ) where
  res : Option (SubRes (2 * fy + 1) (2 * fx + 1))
  res_te_inc : Option (SubRes (2 * fy + 1) (2 * fx + 1))
  res_tm_inc : Option (SubRes (2 * fy + 1) (2 * fx + 1))

/-- The `de_ri` property (rcwa.py:14-19). -/
def Result.de_ri {fx fy : ℕ} (r : Result fx fy) :
    Option (Fin (2 * fy + 1) → Fin (2 * fx + 1) → ℝ) := r.res.map (·.de_ri)

/-- The `de_ti` property (rcwa.py:21-26). -/
def Result.de_ti {fx fy : ℕ} (r : Result fx fy) :
    Option (Fin (2 * fy + 1) → Fin (2 * fx + 1) → ℝ) := r.res.map (·.de_ti)

/-- What a successful solve leaves behind (result, `T1`, `layer_info_list`), by formulation.
on_numpy/emsolver/rcwa.py:165-171, on_numpy/emsolver/_base.py:224-226, 261-262, 274 -/
inductive Solved (fx fy : ℕ)
  | tetm (o : Out1D (2 * fx + 1))
  | conical (o : OutCon fx fy)
  | conicalSmm
  | twoD (o : Out2D fx fy)

/-- A one-row result seen at the shape `(ff_y, ff_x)`; only used when `fto[1] = 0`, where
`ff_y = 1`.
on_numpy/emsolver/rcwa.py:29-41, on_numpy/emsolver/transfer_method.py:128-131 -/
def SubRes.row1 {ffx : ℕ} (fy : ℕ) (s : SubRes 1 ffx) : SubRes (2 * fy + 1) ffx where
  R_s := fun _ => s.R_s 0
  R_p := fun _ => s.R_p 0
  T_s := fun _ => s.T_s 0
  T_p := fun _ => s.T_p 0
  de_ri_s := fun _ => s.de_ri_s 0
  de_ri_p := fun _ => s.de_ri_p 0
  de_ri := fun _ => s.de_ri 0
  de_ti_s := fun _ => s.de_ti_s 0
  de_ti_p := fun _ => s.de_ti_p 0
  de_ti := fun _ => s.de_ti 0

/-- The result object built in `solve_for_conv` (rcwa.py:165-169).  `solve_1d` returns only the key
`res`; the SMM branch of `solve_1d_conical` returns a pair of NaN, in which no key is found. -/
def Solved.result {fx fy : ℕ} : Solved fx fy → Result fx fy
  | .tetm o => { res := some (o.res.row1 fy), res_te_inc := none, res_tm_inc := none }
  | .conical o => { res := some o.out.res, res_te_inc := some o.out.res_te,
                    res_tm_inc := some o.out.res_tm }
  | .conicalSmm => { res := none, res_te_inc := none, res_tm_inc := none }
  | .twoD o => { res := some o.out.res, res_te_inc := some o.out.res_te,
                 res_tm_inc := some o.out.res_tm }

open Classical in
/-- `_assign_grating_type` (rcwa.py:118-145): 0 = 1D TE/TM, 1 = 1D conical, 2 = 2D. -/
noncomputable def gratingType (s : Settings) : ℕ :=
  match s.ucell with
  | .raster u =>
    if u.ny = 1 then
      if (s.p.pol = 0 ∨ s.p.pol = 1) ∧ s.p.phi = none ∧ s.p.fto.2 = 0 then 0 else 1
    else 2
  | .vector _ => 2

/-- Index of order `(0, i)` among the flat indices.
on_numpy/emsolver/_base.py:224-250 -/
def rowIdx {fx fy : ℕ} (i : Fin (2 * fx + 1)) : FlatIdx fx fy := finProdFinEquiv (0, i)

/-- The matrices handed to `solve_1d`: with `fto[1] = 0` the flat index is the x order.
on_numpy/emsolver/_base.py:248-250 -/
def Conv.row {fx fy : ℕ} (c : Conv (FlatIdx fx fy)) : Conv (Fin (2 * fx + 1)) where
  epx := c.epx.submatrix rowIdx rowIdx
  epy := c.epy.submatrix rowIdx rowIdx
  epzi := c.epzi.submatrix rowIdx rowIdx

/-- `solve_for_conv` (rcwa.py:155-171) with the `connecting_algo` checks of the three solvers
(_base.py:233-243, 296-305, 353-364). -/
noncomputable def solve_for_conv (la : LinAlg) (s : Settings) (wavelength : ℝ)
    (convs : List (Conv (FlatIdx s.p.fto.1 s.p.fto.2))) : Res (Solved s.p.fto.1 s.p.fto.2) :=
  match gratingType s, s.algo with
  | 0, .tmm => do
    let o ← solve_1d la s.p wavelength (convs.map Conv.row)
    .ok (.tetm o)
  | 0, _ => .error .valueError
  | 1, .tmm => do
    let o ← solve_1d_conical la s.p wavelength convs
    .ok (.conical o)
  | 1, .smm => .ok .conicalSmm
  | 1, .other => .error .valueError
  | _, .tmm => do
    let o ← solve_2d la s.p wavelength convs
    .ok (.twoD o)
  | _, _ => .error .valueError

/-- The convolution matrices of the current structure (rcwa.py:176-195). -/
noncomputable def convMats (la : LinAlg) (s : Settings) :
    Res (List (Conv (FlatIdx s.p.fto.1 s.p.fto.2))) :=
  match s.ucell with
  | .raster u =>
    if s.fourier_type = 0 then
      to_conv_mat_raster_discrete la u s.p.fto.1 s.p.fto.2 s.enhanced_dfs s.p.use_pinv
    else if s.fourier_type = 1 then
      to_conv_mat_raster_continuous la u s.p.fto.1 s.p.fto.2 s.p.use_pinv
    else .error .valueError
  | .vector ls => do
    let cells ← modeling_vector_instruction s.p.period ls
    to_conv_mat_vector la cells s.p.fto.1 s.p.fto.2 s.p.use_pinv

/-- `conv_solve` (rcwa.py:173-199) for given settings. -/
noncomputable def conv_solve (la : LinAlg) (s : Settings) : Res (Solved s.p.fto.1 s.p.fto.2) := do
  let convs ← convMats la s
  solve_for_conv la s s.p.wavelength convs

end Meent
