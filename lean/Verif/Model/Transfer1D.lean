import Verif.Model.Basic

/-!
# The 1D TE/TM transfer-matrix solver

/repo/meent/on_numpy/emsolver/transfer_method.py:6-135 and
/repo/meent/on_numpy/emsolver/_base.py:203-284.
The JAX versions (/repo/meent/on_jax/emsolver/transfer_method.py) are the same formulas.
-/

open Matrix

namespace Meent

/-- Convolution matrices of one layer: `epx_conv`, `epy_conv`, `epz_conv_i`
(entries `[layer_index]` of the three arrays given to the solvers, _base.py:250-252). -/
structure Conv (n : Type) where
  epx : Matrix n n ℂ
  epy : Matrix n n ℂ
  epzi : Matrix n n ℂ

/-- `W, V, q` of a layer.
on_numpy/emsolver/transfer_method.py:56 -/
structure Modes (n : Type) where
  W : Matrix n n ℂ
  V : Matrix n n ℂ
  q : n → ℂ

/-- Running matrices `F, G, T` of the layer loop.
on_numpy/emsolver/transfer_method.py:28, 78 -/
structure TState (n : Type) where
  F : Matrix n n ℂ
  G : Matrix n n ℂ
  T : Matrix n n ℂ

/-- `layer_info = [epz_conv_i, W, V, q, d, A_i, B]` (_base.py:262). -/
structure LayerInfo (m n : Type) where
  epzi : Matrix m m ℂ
  modes : Modes n
  d : ℝ
  A_i : Matrix n n ℂ
  B : Matrix n n ℂ

/-- A result dictionary (`res`): arrays of shape `(ff_y, ff_x)` (rcwa.py:29-41). -/
structure SubRes (ffy ffx : ℕ) where
  R_s : Fin ffy → Fin ffx → ℂ
  R_p : Fin ffy → Fin ffx → ℂ
  T_s : Fin ffy → Fin ffx → ℂ
  T_p : Fin ffy → Fin ffx → ℂ
  de_ri_s : Fin ffy → Fin ffx → ℝ
  de_ri_p : Fin ffy → Fin ffx → ℝ
  de_ri : Fin ffy → Fin ffx → ℝ
  de_ti_s : Fin ffy → Fin ffx → ℝ
  de_ti_p : Fin ffy → Fin ffx → ℝ
  de_ti : Fin ffy → Fin ffx → ℝ

/-- The parameters a solve reads from the solver object (`self.…`, _base.py:33-46), after the
setters have normalised them.  `fto` is a pair of naturals: a negative truncation order makes
`np.arange` empty and is outside the model. -/
structure Params where
  n_top : ℂ
  n_bot : ℂ
  theta : ℂ
  phi : Option ℂ
  psi : ℂ
  pol : ℝ
  fto : ℕ × ℕ
  period : ℝ × ℝ
  wavelength : ℝ
  thickness : List ℝ
  use_pinv : Bool

/-- `np.float32(np.pi / 2)` = 13176795 / 2^23 (_base.py:208). -/
noncomputable def f32HalfPi : ℝ := 13176795 / 2 ^ 23

/-- `np.nextafter(np.float32(np.pi/2), np.float32(0))` = 13176794 / 2^23 (_base.py:210). -/
noncomputable def f32HalfPiPrev : ℝ := 13176794 / 2 ^ 23

/-- `sin_theta` (_base.py:208-212). -/
noncomputable def sinTheta (theta : ℂ) : ℂ :=
  if theta.re ≥ f32HalfPi then Complex.sin ((f32HalfPiPrev : ℂ) + (theta.im : ℂ) * Complex.I)
  else Complex.sin theta

/-- `get_kx_ky_vector`, the `kx` component (_base.py:203-218): orders `-fto[0] … fto[0]`. -/
noncomputable def kxVec (p : Params) (wavelength : ℝ) (i : Fin (2 * p.fto.1 + 1)) : ℂ :=
  star (p.n_top * sinTheta p.theta * Complex.cos (p.phi.getD 0)
    + (((i : ℤ) - (p.fto.1 : ℤ) : ℤ) : ℂ) * ((wavelength / p.period.1 : ℝ) : ℂ))

/-- `get_kx_ky_vector`, the `ky` component (_base.py:203-222). -/
noncomputable def kyVec (p : Params) (wavelength : ℝ) (i : Fin (2 * p.fto.2 + 1)) : ℂ :=
  star (p.n_top * sinTheta p.theta * Complex.sin (p.phi.getD 0)
    + (((i : ℤ) - (p.fto.2 : ℤ) : ℤ) : ℂ) * ((wavelength / p.period.2 : ℝ) : ℂ))

/-- `kz = ((n ** 2 - kx ** 2) ** 0.5).conj()` (transfer_method.py:9-13). -/
noncomputable def kz1d {n : Type} (nn : ℂ) (kx : n → ℂ) (i : n) : ℂ :=
  star (csqrt (nn ^ 2 - kx i ^ 2))

/-- `transfer_1d_1` (transfer_method.py:6-28): `kz_top, kz_bot, F, G, T`. -/
noncomputable def transfer_1d_1 {n : Type} [Fintype n] [DecidableEq n]
    (pol : ℝ) (kx : n → ℂ) (n_top n_bot : ℂ) : Res ((n → ℂ) × (n → ℂ) × TState n) :=
  let kz_top := kz1d n_top kx
  let kz_bot := kz1d n_bot kx
  if pol = 0 then
    .ok (kz_top, kz_bot, { F := 1, G := Complex.I • diagonal kz_bot, T := 1 })
  else if pol = 1 then
    .ok (kz_top, kz_bot,
      { F := 1, G := Complex.I • diagonal (fun i => kz_bot i / n_bot ^ 2), T := 1 })
  else .error .valueError

/-- `transfer_1d_2` (transfer_method.py:31-56): eigenmodes of one layer.
`Kx ** 2` is the elementwise square of the diagonal matrix `Kx`. -/
noncomputable def transfer_1d_2 {n : Type} [Fintype n] [DecidableEq n] (la : LinAlg)
    (pol : ℝ) (kx : n → ℂ) (c : Conv n) (use_pinv : Bool) : Res (Modes n) :=
  let Kx := diagonal kx
  if pol = 0 then
    let A := diagonal (fun i => kx i ^ 2) - c.epy
    let ew := la.eig A
    let q := fun i => csqrt (ew.1 i)
    .ok { W := ew.2, V := ew.2 * diagonal q, q := q }
  else if pol = 1 then do
    let B := Kx * c.epzi * Kx - 1
    let ew := la.eig (c.epx * B)
    let q := fun i => csqrt (ew.1 i)
    let epxi ← meeinv la c.epx use_pinv
    .ok { W := ew.2, V := epxi * ew.2 * diagonal q, q := q }
  else .error .valueError

/-- `X = np.diag(np.exp(-k0 * q * d))` (transfer_method.py:64). -/
noncomputable def phaseX {n : Type} [DecidableEq n] (k0 : ℝ) (q : n → ℂ) (d : ℝ) :
    Matrix n n ℂ :=
  diagonal (fun i => Complex.exp (-(k0 : ℂ) * q i * (d : ℂ)))

/-- `transfer_1d_3` (transfer_method.py:59-78): one step of the recursion; also the common tail of
`transfer_1d_conical_3` (239-255) and `transfer_2d_3` (483-499), which repeat the same text for the
block matrices.  Returns the new `F, G, T` and `A_i, B`. -/
noncomputable def tmmStep {n : Type} [Fintype n] [DecidableEq n] (la : LinAlg) (use_pinv : Bool)
    (X : Matrix n n ℂ) (W V : Matrix n n ℂ) (s : TState n) :
    Res (TState n × Matrix n n ℂ × Matrix n n ℂ) := do
  let W_i ← meeinv la W use_pinv
  let V_i ← meeinv la V use_pinv
  let A := (1 / 2 : ℂ) • (W_i * s.F + V_i * s.G)
  let B := (1 / 2 : ℂ) • (W_i * s.F - V_i * s.G)
  let A_i ← meeinv la A use_pinv
  .ok ({ F := W * (1 + X * B * A_i * X), G := V * (1 - X * B * A_i * X), T := s.T * A_i * X },
    A_i, B)

/-- `transfer_1d_3` (transfer_method.py:59-78). -/
noncomputable def transfer_1d_3 {n : Type} [Fintype n] [DecidableEq n] (la : LinAlg)
    (k0 : ℝ) (m : Modes n) (d : ℝ) (s : TState n) (use_pinv : Bool) :
    Res (TState n × Matrix n n ℂ × Matrix n n ℂ) :=
  tmmStep la use_pinv (phaseX k0 m.q d) m.W m.V s

/-- `delta_i0`: one at index `ff // 2`, zero elsewhere (transfer_method.py:86-87). -/
def deltaI0 {ff : ℕ} (i : Fin ff) : ℂ := if i.val = ff / 2 then 1 else 0

/-- `(R * R.conj() * w.real).real` as used for all efficiencies (transfer_method.py:103). -/
noncomputable def effOf (r w : ℂ) : ℝ := (r * star r * ((w.re : ℝ) : ℂ)).re

/-- `transfer_1d_4` (transfer_method.py:81-135): amplitudes and efficiencies, and `T1`. -/
noncomputable def transfer_1d_4 {ff : ℕ} (la : LinAlg) (pol : ℝ) (s : TState (Fin ff))
    (kz_top kz_bot : Fin ff → ℂ) (theta n_top n_bot : ℂ) (use_pinv : Bool) :
    Res (SubRes 1 ff × (Fin ff → ℂ)) := do
  let Kz_top := diagonal kz_top
  let delta : Fin ff → ℂ := deltaI0
  let T1 ←
    if pol = 0 then do
      let inc_term := (Complex.I * n_top * Complex.cos theta) • delta
      let inv ← meeinv la (s.G + (Complex.I • Kz_top) * s.F) use_pinv
      .ok (inv *ᵥ ((Complex.I • Kz_top) *ᵥ delta + inc_term))
    else if pol = 1 then do
      let inc_term := (Complex.I * Complex.cos theta / n_top) • delta
      let KzN := ((1 : ℂ) / n_top ^ 2) • (Complex.I • Kz_top)
      let inv ← meeinv la (s.G + KzN * s.F) use_pinv
      .ok (inv *ᵥ (KzN *ᵥ delta + inc_term))
    else .error .valueError
  let R := s.F *ᵥ T1 - delta
  let T := s.T *ᵥ T1
  let de_ri := fun i => effOf (R i) (kz_top i / (n_top * Complex.cos theta))
  if pol = 0 then
    let de_ti := fun i => effOf (T i) (kz_bot i / (n_top * Complex.cos theta))
    .ok ({ R_s := fun _ => R, R_p := fun _ _ => 0, T_s := fun _ => T, T_p := fun _ _ => 0,
           de_ri_s := fun _ => de_ri, de_ri_p := fun _ _ => 0, de_ri := fun _ => de_ri,
           de_ti_s := fun _ => de_ti, de_ti_p := fun _ _ => 0, de_ti := fun _ => de_ti }, T1)
  else if pol = 1 then
    let de_ti := fun i =>
      effOf (T i) (kz_bot i / n_bot ^ 2 / (Complex.cos theta / n_top))
    .ok ({ R_s := fun _ _ => 0, R_p := fun _ => R, T_s := fun _ _ => 0, T_p := fun _ => T,
           de_ri_s := fun _ _ => 0, de_ri_p := fun _ => de_ri, de_ri := fun _ => de_ri,
           de_ti_s := fun _ _ => 0, de_ti_p := fun _ => de_ti, de_ti := fun _ => de_ti }, T1)
  else .error .valueError

/-- The layer loop `for layer_index in range(len(self.thickness))[::-1]` of the three solvers
(_base.py:248-270, 308-326, 368-396).  The first argument counts the layers still to do, i.e.
layer `i` is handled when it is `i + 1`.  `step` is the loop body after the three matrices and the
thickness were fetched; `layer_info_list` grows at the end. -/
def layerLoop {S C L : Type} (step : C → ℝ → S → Res (S × L)) (convs : List C)
    (th : List ℝ) : ℕ → S × List L → Res (S × List L)
  | 0, s => .ok s
  | i + 1, s => do
    let c ← getIdx convs i
    let d ← getIdx th i
    let r ← step c d s.1
    layerLoop step convs th i (r.1, s.2 ++ [r.2])

/-- Loop body of `solve_1d` (_base.py:250-263). -/
noncomputable def step1d {n : Type} [Fintype n] [DecidableEq n] (la : LinAlg) (p : Params)
    (k0 : ℝ) (kx : n → ℂ) (c : Conv n) (d : ℝ) (s : TState n) :
    Res (TState n × LayerInfo n n) := do
  let m ← transfer_1d_2 la p.pol kx c p.use_pinv
  let r ← transfer_1d_3 la k0 m d s p.use_pinv
  .ok (r.1, { epzi := c.epzi, modes := m, d := d, A_i := r.2.1, B := r.2.2 })

/-- What `solve_1d` leaves behind: the result, `self.T1` and `self.layer_info_list`.
on_numpy/emsolver/_base.py:271-284 -/
structure Out1D (ff : ℕ) where
  res : SubRes 1 ff
  T1 : Fin ff → ℂ
  infos : List (LayerInfo (Fin ff) (Fin ff))

/-- `solve_1d` with `connecting_algo == 'TMM'` (_base.py:224-284).  The other values of
`connecting_algo` raise `ValueError` before anything is computed (see `Model/Rcwa`). -/
noncomputable def solve_1d (la : LinAlg) (p : Params) (wavelength : ℝ)
    (convs : List (Conv (Fin (2 * p.fto.1 + 1)))) : Res (Out1D (2 * p.fto.1 + 1)) := do
  let k0 := 2 * Real.pi / wavelength
  let kx := kxVec p wavelength
  let init ← transfer_1d_1 p.pol kx p.n_top p.n_bot
  let r ← layerLoop (step1d la p k0 kx) convs p.thickness p.thickness.length (init.2.2, [])
  let o ← transfer_1d_4 la p.pol r.1 init.1 init.2.1 p.theta p.n_top p.n_bot p.use_pinv
  .ok { res := o.1, T1 := o.2, infos := r.2 }

end Meent
