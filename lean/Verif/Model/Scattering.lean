import Verif.Model.Transfer1D

/-!
# The scattering-matrix functions

/repo/meent/on_numpy/emsolver/smm_util.py and /repo/meent/on_numpy/emsolver/scattering_method.py.  The solver does not call them
(_base.py:239-242, 266-267, 277-280 are comments), but they can be imported.  The functions of the 2D branch are modelled where they
share their text with the 1D branch: `scattering_2d_2` is `scattering_1d_2`.

Simplifications: printing is left out; `diag` matrices are kept as functions of the order where the code only uses their diagonals;
numpy's warnings for a division by zero are not modelled (Lean's `x / 0 = 0`).
-/

open Matrix

namespace Meent

/-- The dictionary `{'S11': …, 'S22': …, 'S12': …, 'S21': …}`.
on_numpy/emsolver/smm_util.py:66, 81, 84, 312 -/
structure SDict (n : Type) where
  S11 : Matrix n n ℂ
  S12 : Matrix n n ℂ
  S21 : Matrix n n ℂ
  S22 : Matrix n n ℂ

section
variable {n : Type} [Fintype n] [DecidableEq n]

/-- `A_B_matrices_half_space` (smm_util.py:15-21). -/
noncomputable def A_B_matrices_half_space (V_layer Vg : Matrix n n ℂ) : Res (Matrix n n ℂ × Matrix n n ℂ) := do
  let Vg_i ← npInv Vg
  .ok (1 + Vg_i * V_layer, 1 - Vg_i * V_layer)

/-- `A_B_matrices` (smm_util.py:24-39). -/
noncomputable def A_B_matrices (W_layer Wg V_layer Vg : Matrix n n ℂ) : Res (Matrix n n ℂ × Matrix n n ℂ) := do
  let W_i ← npInv W_layer
  let V_i ← npInv V_layer
  .ok (W_i * Wg + V_i * Vg, W_i * Wg - V_i * Vg)

/-- `S_layer` (smm_util.py:42-68), the dictionary of the pair it returns. -/
noncomputable def S_layer (A B : Matrix n n ℂ) (d k0 : ℝ) (modes : n → ℂ) : Res (SDict n) := do
  let X : Matrix n n ℂ := diagonal (fun i => Complex.exp (-modes i * (d : ℂ) * (k0 : ℂ)))
  let A_i ← npInv A
  let term_i ← npInv (A - X * B * A_i * X * B)
  let S11 := term_i * (X * B * A_i * X * A - B)
  let S12 := term_i * X * (A - B * A_i * B)
  .ok { S11 := S11, S12 := S12, S21 := S12, S22 := S11 }

/-- `S_RT` (smm_util.py:71-86), the dictionary of the pair it returns. -/
noncomputable def S_RT (A B : Matrix n n ℂ) (ref_mode : Bool) : Res (SDict n) := do
  let A_i ← npInv A
  let S11 := -A_i * B
  let S12 := (2 : ℂ) • A_i
  let S21 := (1 / 2 : ℂ) • (A - B * A_i * B)
  let S22 := B * A_i
  if ref_mode then .ok { S11 := S11, S12 := S12, S21 := S21, S22 := S22 }
  else .ok { S11 := S22, S12 := S21, S21 := S12, S22 := S11 }

/-- `RedhefferStar` (smm_util.py:285-314), the dictionary of the pair it returns. -/
noncomputable def RedhefferStar (SA SB : SDict n) : Res (SDict n) := do
  let D_i ← npInv (1 - SB.S11 * SA.S22)
  let F_i ← npInv (1 - SA.S22 * SB.S11)
  .ok { S11 := SA.S11 + SA.S12 * D_i * SB.S11 * SA.S21
        S12 := SA.S12 * D_i * SB.S12
        S21 := SB.S21 * F_i * SA.S21
        S22 := SB.S22 + SB.S21 * F_i * SA.S22 * SB.S12 }

/-- What `Sg` can be in `construct_global_scatter`: a dictionary, or the pair of a matrix and a dictionary that `RedhefferStar` returns.
on_numpy/emsolver/smm_util.py:314, 325-327 -/
inductive Scatter (n : Type)
  | dict (S : SDict n)
  | pair (S : SDict n)

/-- How `construct_global_scatter` can fail: the `assert` statements of `RedhefferStar` (smm_util.py:294-295), or another exception. -/
inductive ScatterErr
  | assertion
  | other (e : Err)

/-- The loop of `construct_global_scatter` (smm_util.py:326-327): the whole value returned by `RedhefferStar` becomes `Sg`. -/
noncomputable def scatterLoop : Scatter n → List (SDict n) → Except ScatterErr (Scatter n)
  | Sg, [] => .ok Sg
  | .pair _, _ :: _ => .error .assertion
  | .dict SA, SB :: rest =>
    match RedhefferStar SA SB with
    | .error e => .error (.other e)
    | .ok S => scatterLoop (.pair S) rest

/-- `construct_global_scatter` (smm_util.py:317-328). -/
noncomputable def construct_global_scatter : List (SDict n) → Except ScatterErr (Scatter n)
  | [] => .error (.other .indexError)
  | Sr :: rest => scatterLoop (.dict Sr) rest

open Classical in
/-- `homogeneous_1D` with `m_r = 1` (smm_util.py:136-178): `V` and the diagonal of `Kz`; `W` is the identity.  `if pol:` holds for any
number but zero. -/
noncomputable def homogeneous_1D (kx : n → ℂ) (n_index : ℂ) (pol : Option ℝ) : Res (Matrix n n ℂ × (n → ℂ)) := do
  let Q := fun i => if n_index ^ 2 - kx i ^ 2 = 0 then (1 / 10 ^ 10 : ℂ) else n_index ^ 2 - kx i ^ 2
  let Kz := fun i => if star (csqrt (n_index ^ 2 - kx i ^ 2)) = 0 then (1 / 10 ^ 10 : ℂ) else star (csqrt (n_index ^ 2 - kx i ^ 2))
  let Kz := if pol.getD 0 = 0 then Kz else fun i => Kz i * n_index ^ 2
  let ev_i ← npInv (diagonal fun i => -Complex.I * Kz i)
  .ok (diagonal Q * ev_i, Kz)

/-- What `scattering_1d_1` returns, apart from the identity matrices `Wg, Wr, Wt` and the matrices `Ar, Br, Kzg`.
on_numpy/emsolver/scattering_method.py:31 -/
structure Scatter1 (n : Type) where
  kx : n → ℂ
  Vg : Matrix n n ℂ
  Kzr : n → ℂ
  Vt : Matrix n n ℂ
  Kzt : n → ℂ
  Sg : SDict n

/-- `scattering_1d_1` (scattering_method.py:12-31). -/
noncomputable def scattering_1d_1 (k0 : ℝ) (n_I n_II theta phi : ℂ) (fourier_indices : n → ℤ) (period : ℝ × ℝ) (pol : ℝ) :
    Res (Scatter1 n) := do
  let kx := fun i => n_I * Complex.sin theta * Complex.cos phi - (fourier_indices i : ℂ) * ((2 * Real.pi / k0 / period.1 : ℝ) : ℂ)
  let g ← homogeneous_1D kx 1 none
  let r ← homogeneous_1D kx n_I (some pol)
  let t ← homogeneous_1D kx n_II (some pol)
  let AB ← A_B_matrices_half_space r.1 g.1
  let Sg ← S_RT AB.1 AB.2 true
  .ok { kx := kx, Vg := g.1, Kzr := r.2, Vt := t.1, Kzt := t.2, Sg := Sg }

/-- `scattering_1d_2` (scattering_method.py:34-41) and `scattering_2d_2` (122-128): the new `Sg`.  `LAMBDA` is the diagonal matrix of
`q`. -/
noncomputable def scattering_1d_2 (W Wg V Vg : Matrix n n ℂ) (d k0 : ℝ) (q : n → ℂ) (Sg : SDict n) : Res (SDict n) := do
  let AB ← A_B_matrices W Wg V Vg
  let S ← S_layer AB.1 AB.2 d k0 q
  RedhefferStar Sg S

/-- `scattering_1d_3` (scattering_method.py:44-73) with `Wr = Wt = Wg = 1`: `de_ri, de_ti`.  `fourier_order` is the index of the incident
order. -/
noncomputable def scattering_1d_3 (Vt Vg : Matrix n n ℂ) (Sg : SDict n) (fourier_order : n) (Kzr Kzt : n → ℂ) (n_I n_II theta : ℂ)
    (pol : ℝ) : Res ((n → ℂ) × (n → ℂ)) := do
  let AB ← A_B_matrices_half_space Vt Vg
  let St ← S_RT AB.1 AB.2 false
  let Sg ← RedhefferStar Sg St
  let kz_inc := n_I * Complex.cos theta
  let c_inc : n → ℂ := Pi.single fourier_order 1
  let reflected := Sg.S11 *ᵥ c_inc
  let transmitted := Sg.S21 *ᵥ c_inc
  let de_r := fun i => (((Kzr i).re * ‖reflected i‖ ^ 2 / kz_inc.re : ℝ) : ℂ)
  let de_t := fun i => (((Kzt i).re * ‖transmitted i‖ ^ 2 / kz_inc.re : ℝ) : ℂ)
  if pol = 0 then .ok (de_r, de_t)
  else if pol = 1 then .ok (fun i => de_r i / n_I ^ 2, fun i => de_t i * n_I ^ 2 / n_II ^ 4)
  else .error .valueError

end

end Meent
