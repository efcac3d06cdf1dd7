import Verif.Model.Rcwa
import Verif.Model.Compress
import Verif.Model.Field

/-!
# The JAX backend: convolution matrices, the three solvers and `conv_solve`

/repo/meent/on_jax/emsolver: primitives.py, fourier_analysis.py, convolution_matrix.py,
transfer_method.py, _base.py, rcwa.py.

What differs from NumPy, and is therefore written out here:
* `jnp.linalg.inv` never raises: on a singular matrix it returns infinities and NaN, which poison
  every later number.  The model reports this as the error `nan`.
* reading a `jnp` array past its end never raises either.  What it returns is not specified by the
  model (`Env.oob`, `Env.oobC`).
* the branch on the polarization is `jax.lax.cond(pol.real, …)`: everything but zero is TM.
* the discrete raster builder does not hand `use_pinv` on.

Tables of formulas that read the same in both backends (`kz1d`, `kz2d`, `finalA`, `omega2LR`, …) are
shared with the NumPy model; the comments name the JAX lines.
-/

open Matrix

namespace Meent.Jax

/-- What the JAX backend takes from its libraries: `jnp.linalg.eig` and `jnp.linalg.pinv`, and the
unspecified outcome of an out-of-range read.
on_jax/emsolver/primitives.py:15, 74; on_jax/emsolver/_base.py:303-305; on_jax/emsolver/fourier_analysis.py:50, 86 -/
structure Env where
  la : LinAlg
  /-- `arr[i]` with `i` past the end -/
  oob : ∀ {α : Type}, List α → ℕ → Res α
  /-- an entry of `arr[idx]` whose index is out of range -/
  oobC : ∀ {N : ℕ}, (Fin N → ℂ) → ℤ → ℂ

open Classical in
/-- `jnp.linalg.inv`: infinities and NaN for a singular matrix.
on_jax/emsolver/primitives.py:76, on_jax/emsolver/fourier_analysis.py:53, 65, 89, 101 -/
noncomputable def inv {n : Type} [Fintype n] [DecidableEq n] (A : Matrix n n ℂ) : Res (Matrix n n ℂ) :=
  if IsUnit A.det then .ok A⁻¹ else .error .nan

/-- `meeinv`.
on_jax/emsolver/primitives.py:72-78 -/
noncomputable def meeinv {n : Type} [Fintype n] [DecidableEq n] (env : Env) (A : Matrix n n ℂ)
    (use_pinv : Bool) : Res (Matrix n n ℂ) :=
  if use_pinv then .ok (env.la.pinv A) else inv A

/-! ### Convolution matrices -/

/-- `a[idx]` for a table of integers: out-of-range entries do not raise.
on_jax/emsolver/fourier_analysis.py:50, 59, 86, 95 -/
def fancy {N : ℕ} {ι κ : Type} (env : Env) (a : Fin N → ℂ) (idx : ι → κ → ℤ) : Matrix ι κ ℂ :=
  Matrix.of fun r c => match pyIdx N (idx r c) with
    | some i => a i
    | none => env.oobC a (idx r c)

open Classical in
/-- `if conti_x ^ conti_y: conv1d = jnp.linalg.inv(conv1d)`.
on_jax/emsolver/fourier_analysis.py:52-53, 88-89 -/
noncomputable def invIf {ι n : Type} [Fintype n] [DecidableEq n] (b : Bool)
    (a : ι → Matrix n n ℂ) : Res (ι → Matrix n n ℂ) :=
  if b then (if ∀ i, IsUnit (a i).det then .ok (fun i => (a i)⁻¹) else .error .nan) else .ok a

/-- `dfs2d`.
on_jax/emsolver/fourier_analysis.py:70-103 -/
noncomputable def dfs2d (env : Env) (cell : Raster) (conti_x conti_y : Bool) (fto_x fto_y : ℕ) :
    Res (Matrix (FlatIdx fto_x fto_y) (FlatIdx fto_x fto_y) ℂ) := do
  let cellT ← invRuleY conti_y (fun x y => cell.val y x)
  let dfs1d := fun (x : Fin cell.nx) => npfft (fun y => cellT x y / (cell.ny : ℂ))
  let conv1d ← invIf (conti_x ^^ conti_y) (fun x => fancy env (dfs1d x)
    (fun (r c : Fin (2 * fto_y + 1)) => circulant r.val c.val))
  let dfs2d := fun (ry cy : Fin (2 * fto_y + 1)) =>
    npfft (fun x : Fin cell.nx => conv1d x ry cy / (cell.nx : ℂ))
  let conv2d := fun ry cy => fancy env (dfs2d ry cy)
    (fun (r c : Fin (2 * fto_x + 1)) => circulant r.val c.val)
  let m := flatten4 (Matrix.of fun r c => conv2d r.1 c.1 r.2 c.2)
  if conti_x then .ok m else inv m

/-- `cfs2d`.
on_jax/emsolver/fourier_analysis.py:4-67 -/
noncomputable def cfs2d (env : Env) (cell : VCell) (conti_x conti_y : Bool) (fto_x fto_y : ℕ) :
    Res (Matrix (FlatIdx fto_x fto_y) (FlatIdx fto_x fto_y) ℂ) := do
  let period_x := cell.x (-1)
  let period_y := cell.y (-1)
  let cellT ← invRuleY conti_y (fun x y => cell.val y x)
  let cfs1d := cfs1 cell.y cellT fto_y period_y
  let conv1d ← invIf (conti_x ^^ conti_y) (fun x => fancy env (cfs1d x)
    (fun (r c : Fin (2 * fto_y + 1)) => circulant r.val c.val + 2 * (fto_y : ℤ)))
  let cfs2d := cfs1 cell.x
    (fun (rc : Fin (2 * fto_y + 1) × Fin (2 * fto_y + 1)) x => conv1d x rc.1 rc.2) fto_x period_x
  let conv2d := fun ry cy => fancy env (cfs2d (ry, cy))
    (fun (r c : Fin (2 * fto_x + 1)) => circulant r.val c.val + 2 * (fto_x : ℤ))
  let m := flatten4 (Matrix.of fun r c => conv2d r.1 c.1 r.2 c.2)
  if conti_x then .ok m else inv m

/-- Loop body of `to_conv_mat_raster_discrete`: the last inverse is `meeinv(epz_conv, use_pinv=False)`
whatever the setting.
on_jax/emsolver/convolution_matrix.py:115-131 -/
noncomputable def convDiscrete (env : Env) (l : Raster) (fto_x fto_y : ℕ)
    (enhanced : Bool) : Res (Conv (FlatIdx fto_x fto_y)) := do
  let eps := (enlarge l fto_x fto_y enhanced).sq
  let epz ← dfs2d env eps true true fto_x fto_y
  let epy ← dfs2d env eps true false fto_x fto_y
  let epx ← dfs2d env eps false true fto_x fto_y
  let epzi ← meeinv env epz false
  .ok { epx := epx, epy := epy, epzi := epzi }

/-- `to_conv_mat_raster_discrete`; its argument `use_pinv` is not used.
on_jax/emsolver/convolution_matrix.py:98-133 -/
noncomputable def to_conv_mat_raster_discrete (env : Env) (u : Ucell) (fto_x fto_y : ℕ)
    (enhanced : Bool) (_use_pinv : Bool) : Res (List (Conv (FlatIdx fto_x fto_y))) :=
  u.rasters.mapM fun l => convDiscrete env l fto_x fto_y enhanced

/-- Loop body of `to_conv_mat_vector` and `to_conv_mat_raster_continuous`.
on_jax/emsolver/convolution_matrix.py:59-69, 84-92 -/
noncomputable def convContinuous (env : Env) (c : VCell) (fto_x fto_y : ℕ) (use_pinv : Bool) :
    Res (Conv (FlatIdx fto_x fto_y)) := do
  let eps := c.sq
  let epz ← cfs2d env eps true true fto_x fto_y
  let epy ← cfs2d env eps true false fto_x fto_y
  let epx ← cfs2d env eps false true fto_x fto_y
  let epzi ← meeinv env epz use_pinv
  .ok { epx := epx, epy := epy, epzi := epzi }

/-- `to_conv_mat_vector`.
on_jax/emsolver/convolution_matrix.py:51-71 -/
noncomputable def to_conv_mat_vector (env : Env) (cells : List VCell) (fto_x fto_y : ℕ)
    (use_pinv : Bool) : Res (List (Conv (FlatIdx fto_x fto_y))) :=
  cells.mapM fun c => convContinuous env c fto_x fto_y use_pinv

/-- `to_conv_mat_raster_continuous`; `cell_compression` (lines 10-48) reads as in NumPy.
on_jax/emsolver/convolution_matrix.py:74-94 -/
noncomputable def to_conv_mat_raster_continuous (env : Env) (u : Ucell) (fto_x fto_y : ℕ)
    (use_pinv : Bool) : Res (List (Conv (FlatIdx fto_x fto_y))) :=
  u.rasters.mapM fun l => do
    let c ← cell_compression l
    convContinuous env c fto_x fto_y use_pinv

/-! ### The TE/TM solver -/

open Classical in
/-- `jax.lax.cond(pol.real, true_fun, false_fun)`.
on_jax/emsolver/transfer_method.py:28, 78, 194 -/
noncomputable def cond {α : Type} (pol : ℝ) (tm te : α) : α := if pol ≠ 0 then tm else te

/-- `transfer_1d_1`.
on_jax/emsolver/transfer_method.py:7-32 -/
noncomputable def transfer_1d_1 {n : Type} [Fintype n] [DecidableEq n]
    (pol : ℝ) (kx : n → ℂ) (n_top n_bot : ℂ) : (n → ℂ) × (n → ℂ) × TState n :=
  let kz_top := kz1d n_top kx
  let kz_bot := kz1d n_bot kx
  let G := cond pol (Complex.I • diagonal (fun i => kz_bot i / n_bot ^ 2)) (Complex.I • diagonal kz_bot)
  (kz_top, kz_bot, { F := 1, G := G, T := 1 })

/-- `transfer_1d_2`.
on_jax/emsolver/transfer_method.py:52-80 -/
noncomputable def transfer_1d_2 {n : Type} [Fintype n] [DecidableEq n] (env : Env)
    (pol : ℝ) (kx : n → ℂ) (c : Conv n) (use_pinv : Bool) : Res (Modes n) :=
  let Kx := diagonal kx
  cond pol
    (do
      let B := Kx * c.epzi * Kx - 1
      let ew := env.la.eig (c.epx * B)
      let q := fun i => csqrt (ew.1 i)
      let epxi ← meeinv env c.epx use_pinv
      .ok { W := ew.2, V := epxi * ew.2 * diagonal q, q := q })
    (let A := diagonal (fun i => kx i ^ 2) - c.epy
     let ew := env.la.eig A
     let q := fun i => csqrt (ew.1 i)
     .ok { W := ew.2, V := ew.2 * diagonal q, q := q })

/-- `transfer_1d_3`, and the common tail of `transfer_1d_conical_3` and `transfer_2d_3`.
on_jax/emsolver/transfer_method.py:106-128, 337-350, 584-597 -/
noncomputable def tmmStep {n : Type} [Fintype n] [DecidableEq n] (env : Env) (use_pinv : Bool)
    (X : Matrix n n ℂ) (W V : Matrix n n ℂ) (s : TState n) :
    Res (TState n × Matrix n n ℂ × Matrix n n ℂ) := do
  let W_i ← meeinv env W use_pinv
  let V_i ← meeinv env V use_pinv
  let A := (1 / 2 : ℂ) • (W_i * s.F + V_i * s.G)
  let B := (1 / 2 : ℂ) • (W_i * s.F - V_i * s.G)
  let A_i ← meeinv env A use_pinv
  .ok ({ F := W * (1 + X * B * A_i * X), G := V * (1 - X * B * A_i * X), T := s.T * A_i * X },
    A_i, B)

/-- `transfer_1d_4`: the two branches of the `cond` are complete.
on_jax/emsolver/transfer_method.py:131-196 -/
noncomputable def transfer_1d_4 {ff : ℕ} (env : Env) (pol : ℝ) (s : TState (Fin ff))
    (kz_top kz_bot : Fin ff → ℂ) (theta n_top n_bot : ℂ) (use_pinv : Bool) :
    Res (SubRes 1 ff × (Fin ff → ℂ)) :=
  let Kz_top := diagonal kz_top
  let delta : Fin ff → ℂ := deltaI0
  cond pol
    (do
      let inc_term := (Complex.I * Complex.cos theta / n_top) • delta
      let KzN := ((1 : ℂ) / n_top ^ 2) • (Complex.I • Kz_top)
      let inv ← meeinv env (s.G + KzN * s.F) use_pinv
      let T1 := inv *ᵥ (KzN *ᵥ delta + inc_term)
      let R := s.F *ᵥ T1 - delta
      let T := s.T *ᵥ T1
      let de_ri := fun i => effOf (R i) (kz_top i / (n_top * Complex.cos theta))
      let de_ti := fun i =>
        effOf (T i) (kz_bot i / n_bot ^ 2 / (Complex.cos theta / n_top))
      .ok ({ R_s := fun _ _ => 0, R_p := fun _ => R, T_s := fun _ _ => 0, T_p := fun _ => T,
             de_ri_s := fun _ _ => 0, de_ri_p := fun _ => de_ri, de_ri := fun _ => de_ri,
             de_ti_s := fun _ _ => 0, de_ti_p := fun _ => de_ti, de_ti := fun _ => de_ti }, T1))
    (do
      let inc_term := (Complex.I * n_top * Complex.cos theta) • delta
      let inv ← meeinv env (s.G + (Complex.I • Kz_top) * s.F) use_pinv
      let T1 := inv *ᵥ ((Complex.I • Kz_top) *ᵥ delta + inc_term)
      let R := s.F *ᵥ T1 - delta
      let T := s.T *ᵥ T1
      let de_ri := fun i => effOf (R i) (kz_top i / (n_top * Complex.cos theta))
      let de_ti := fun i => effOf (T i) (kz_bot i / (n_top * Complex.cos theta))
      .ok ({ R_s := fun _ => R, R_p := fun _ _ => 0, T_s := fun _ => T, T_p := fun _ _ => 0,
             de_ri_s := fun _ => de_ri, de_ri_p := fun _ _ => 0, de_ri := fun _ => de_ri,
             de_ti_s := fun _ => de_ti, de_ti_p := fun _ _ => 0, de_ti := fun _ => de_ti }, T1))

/-- `l[i]` on a `jnp` array.
on_jax/emsolver/_base.py:303-307, 367-371, 437-441 -/
def getIdx {α : Type} (env : Env) (l : List α) (i : ℕ) : Res α :=
  match l[i]? with
  | some a => .ok a
  | none => env.oob l i

/-- The layer loop of the three solvers.
on_jax/emsolver/_base.py:301-317, 365-387, 435-452 -/
def layerLoop {S C L : Type} (env : Env) (step : C → ℝ → S → Res (S × L)) (convs : List C)
    (th : List ℝ) : ℕ → S × List L → Res (S × List L)
  | 0, s => .ok s
  | i + 1, s => do
    let c ← getIdx env convs i
    let d ← getIdx env th i
    let r ← step c d s.1
    layerLoop env step convs th i (r.1, s.2 ++ [r.2])

/-- Loop body of `solve_1d`.
on_jax/emsolver/_base.py:303-317 -/
noncomputable def step1d {n : Type} [Fintype n] [DecidableEq n] (env : Env) (p : Params)
    (k0 : ℝ) (kx : n → ℂ) (c : Conv n) (d : ℝ) (s : TState n) :
    Res (TState n × LayerInfo n n) := do
  let m ← transfer_1d_2 env p.pol kx c p.use_pinv
  let r ← tmmStep env p.use_pinv (phaseX k0 m.q d) m.W m.V s
  .ok (r.1, { epzi := c.epzi, modes := m, d := d, A_i := r.2.1, B := r.2.2 })

/-- `sin_theta`: `jnp.where` between the two cases.
on_jax/emsolver/_base.py:257-265 -/
noncomputable def sinTheta (theta : ℂ) : ℂ :=
  let true_case := Complex.sin ((f32HalfPiPrev : ℂ) + (theta.im : ℂ) * Complex.I)
  let false_case := Complex.sin theta
  if f32HalfPi ≤ theta.re then true_case else false_case

/-- `get_kx_ky_vector`, the `kx` component.
on_jax/emsolver/_base.py:252-270 -/
noncomputable def kxVec (p : Params) (wavelength : ℝ) (i : Fin (2 * p.fto.1 + 1)) : ℂ :=
  star (p.n_top * sinTheta p.theta * Complex.cos (p.phi.getD 0)
    + (((i : ℤ) - (p.fto.1 : ℤ) : ℤ) : ℂ) * ((wavelength / p.period.1 : ℝ) : ℂ))

/-- `get_kx_ky_vector`, the `ky` component.
on_jax/emsolver/_base.py:252-275 -/
noncomputable def kyVec (p : Params) (wavelength : ℝ) (i : Fin (2 * p.fto.2 + 1)) : ℂ :=
  star (p.n_top * sinTheta p.theta * Complex.sin (p.phi.getD 0)
    + (((i : ℤ) - (p.fto.2 : ℤ) : ℤ) : ℂ) * ((wavelength / p.period.2 : ℝ) : ℂ))

/-- `solve_1d` with `connecting_algo == 'TMM'`.
on_jax/emsolver/_base.py:279-338 -/
noncomputable def solve_1d (env : Env) (p : Params) (wavelength : ℝ)
    (convs : List (Conv (Fin (2 * p.fto.1 + 1)))) : Res (Out1D (2 * p.fto.1 + 1)) := do
  let k0 := 2 * Real.pi / wavelength
  let kx := kxVec p wavelength
  let init := transfer_1d_1 p.pol kx p.n_top p.n_bot
  let r ← layerLoop env (step1d env p k0 kx) convs p.thickness p.thickness.length (init.2.2, [])
  let o ← transfer_1d_4 env p.pol r.1 init.1 init.2.1 p.theta p.n_top p.n_bot p.use_pinv
  .ok { res := o.1, T1 := o.2, infos := r.2 }

/-! ### The conical and 2D solvers -/

/-- `transfer_1d_conical_2`.
on_jax/emsolver/transfer_method.py:255-298 -/
noncomputable def transfer_1d_conical_2 {m : Type} [Fintype m] [DecidableEq m] (env : Env)
    (kx ky : m → ℂ) (c : Conv m) (use_pinv : Bool) : Res (ConModes m) := do
  let Kx := diagonal kx
  let Ky := diagonal ky
  let A := diagonal (fun i => kx i ^ 2) - c.epy
  let B := Kx * c.epzi * Kx - 1
  let Omega2_RL := diagonal (fun i => ky i ^ 2) + A
  let Omega2_LR := diagonal (fun i => ky i ^ 2) + B * c.epx
  let ew1 := env.la.eig Omega2_RL
  let ew2 := env.la.eig Omega2_LR
  let q1 := fun i => csqrt (ew1.1 i)
  let q2 := fun i => csqrt (ew2.1 i)
  let A_i ← meeinv env A use_pinv
  let B_i ← meeinv env B use_pinv
  .ok { W1 := ew1.2, W2 := ew2.2,
        V11 := A_i * ew1.2 * diagonal q1,
        V12 := Ky * A_i * Kx * ew2.2,
        V21 := Ky * B_i * Kx * c.epzi * ew1.2,
        V22 := B_i * ew2.2 * diagonal q2,
        q1 := q1, q2 := q2 }

/-- `transfer_1d_conical_3`.
on_jax/emsolver/transfer_method.py:301-350 -/
noncomputable def transfer_1d_conical_3 {m : Type} [Fintype m] [DecidableEq m] (env : Env)
    (k0 : ℝ) (M : ConModes m) (d : ℝ) (varphi : m → ℂ) (s : TState (m ⊕ m)) (use_pinv : Bool) :
    Res (TState (m ⊕ m) × Matrix (m ⊕ m) (m ⊕ m) ℂ × Matrix (m ⊕ m) (m ⊕ m) ℂ) :=
  let F_c := diagonal (fun i => Complex.cos (varphi i))
  let F_s := diagonal (fun i => Complex.sin (varphi i))
  let V_ss := F_c * M.V11
  let V_sp := F_c * M.V12 - F_s * M.W2
  let W_ss := F_c * M.W1 + F_s * M.V21
  let W_sp := F_s * M.V22
  let W_ps := F_s * M.V11
  let W_pp := F_c * M.W2 + F_s * M.V12
  let V_ps := F_c * M.V21 - F_s * M.W1
  let V_pp := F_c * M.V22
  let big_W := fromBlocks V_ss V_sp W_ps W_pp
  let big_V := fromBlocks W_ss W_sp V_ps V_pp
  tmmStep env use_pinv (bigX k0 M.q1 M.q2 d) big_W big_V s

/-- `transfer_2d_2`.
on_jax/emsolver/transfer_method.py:505-541 -/
noncomputable def transfer_2d_2 {m : Type} [Fintype m] [DecidableEq m] (env : Env)
    (kx ky : m → ℂ) (c : Conv m) (use_pinv : Bool) : Res (Modes (m ⊕ m)) := do
  let ew := env.la.eig (omega2LR kx ky c)
  let q := fun i => csqrt (ew.1 i)
  let Q_i ← meeinv env (diagonal q) use_pinv
  .ok { W := ew.2, V := omegaR kx ky c * ew.2 * Q_i, q := q }

/-- `transfer_2d_3`.
on_jax/emsolver/transfer_method.py:544-597 -/
noncomputable def transfer_2d_3 {m : Type} [Fintype m] [DecidableEq m] (env : Env)
    (k0 : ℝ) (M : Modes (m ⊕ m)) (d : ℝ) (varphi : m → ℂ) (s : TState (m ⊕ m)) (use_pinv : Bool) :
    Res (TState (m ⊕ m) × Matrix (m ⊕ m) (m ⊕ m) ℂ × Matrix (m ⊕ m) (m ⊕ m) ℂ) :=
  tmmStep env use_pinv (bigX k0 (fun i => M.q (.inl i)) (fun i => M.q (.inr i)) d)
    (bigW2d varphi M.W) (bigV2d varphi M.V) s

/-- `transfer_1d_conical_4` and `transfer_2d_4`.
on_jax/emsolver/transfer_method.py:355-478, 600-725 -/
noncomputable def transfer_2d_4 {fx fy : ℕ} (env : Env)
    (s : TState (FlatIdx fx fy ⊕ FlatIdx fx fy)) (kz_top kz_bot : FlatIdx fx fy → ℂ)
    (psi theta n_top n_bot : ℂ) (use_pinv : Bool) : Res (Out4 fx fy) := do
  let delta : FlatIdx fx fy → ℂ := deltaI0
  let A_inv ← meeinv env (finalA n_top kz_top s) use_pinv
  let rt := A_inv *ᵥ finalB delta psi theta n_top
  let rt_te := A_inv *ᵥ finalB delta ((Real.pi / 2 : ℝ) : ℂ) theta n_top
  let rt_tm := A_inv *ᵥ finalB delta 0 theta n_top
  let mk := subResOf s kz_top kz_bot theta n_top n_bot
  .ok { res := mk rt, res_te := mk rt_te, res_tm := mk rt_tm,
        T1 := fun i => rt (.inr i), T1_te := fun i => rt_te (.inr i),
        T1_tm := fun i => rt_tm (.inr i) }

/-- Loop body of `solve_1d_conical`.
on_jax/emsolver/_base.py:367-387 -/
noncomputable def stepCon {m : Type} [Fintype m] [DecidableEq m] (env : Env) (use_pinv : Bool)
    (k0 : ℝ) (kx ky varphi : m → ℂ) (c : Conv m) (d : ℝ) (s : TState (m ⊕ m)) :
    Res (TState (m ⊕ m) × LayerInfoCon m) := do
  let M ← transfer_1d_conical_2 env kx ky c use_pinv
  let r ← transfer_1d_conical_3 env k0 M d varphi s use_pinv
  .ok (r.1, { epzi := c.epzi, modes := M, d := d, A_i := r.2.1, B := r.2.2 })

/-- Loop body of `solve_2d`.
on_jax/emsolver/_base.py:437-452 -/
noncomputable def step2d {m : Type} [Fintype m] [DecidableEq m] (env : Env) (use_pinv : Bool)
    (k0 : ℝ) (kx ky varphi : m → ℂ) (c : Conv m) (d : ℝ) (s : TState (m ⊕ m)) :
    Res (TState (m ⊕ m) × LayerInfo m (m ⊕ m)) := do
  let M ← transfer_2d_2 env kx ky c use_pinv
  let r ← transfer_2d_3 env k0 M d varphi s use_pinv
  .ok (r.1, { epzi := c.epzi, modes := M, d := d, A_i := r.2.1, B := r.2.2 })

/-- `solve_1d_conical` with `connecting_algo == 'TMM'`; `transfer_1d_conical_1` (199-220) reads as in
NumPy (division by zero gives NaN in both) and so does the failing `reshape` for `fto[1] > 0`.
on_jax/emsolver/_base.py:341-408 -/
noncomputable def solve_1d_conical (env : Env) (p : Params) (wavelength : ℝ)
    (convs : List (Conv (FlatIdx p.fto.1 p.fto.2))) : Res (OutCon p.fto.1 p.fto.2) := do
  let k0 := 2 * Real.pi / wavelength
  let kx := tileX (fy := p.fto.2) (kxVec p wavelength)
  let ky := tileY (fx := p.fto.1) (kyVec p wavelength)
  let init ← transfer_2d_1 kx ky p.n_top p.n_bot
  let r ← layerLoop env (stepCon env p.use_pinv k0 kx ky init.2.2.1) convs p.thickness
    p.thickness.length (init.2.2.2, [])
  if p.fto.2 ≠ 0 then .error .valueError
  else do
    let o ← transfer_2d_4 env r.1 init.1 init.2.1 p.psi p.theta p.n_top p.n_bot p.use_pinv
    .ok { out := o, infos := r.2 }

/-- `solve_2d` with `connecting_algo == 'TMM'`; `transfer_2d_1` (481-502) reads as in NumPy.
on_jax/emsolver/_base.py:412-477 -/
noncomputable def solve_2d (env : Env) (p : Params) (wavelength : ℝ)
    (convs : List (Conv (FlatIdx p.fto.1 p.fto.2))) : Res (Out2D p.fto.1 p.fto.2) := do
  let k0 := 2 * Real.pi / wavelength
  let kx := tileX (fy := p.fto.2) (kxVec p wavelength)
  let ky := tileY (fx := p.fto.1) (kyVec p wavelength)
  let init ← transfer_2d_1 kx ky p.n_top p.n_bot
  let r ← layerLoop env (step2d env p.use_pinv k0 kx ky init.2.2.1) convs p.thickness
    p.thickness.length (init.2.2.2, [])
  let o ← transfer_2d_4 env r.1 init.1 init.2.1 p.psi p.theta p.n_top p.n_bot p.use_pinv
  .ok { out := o, infos := r.2 }

/-! ### `conv_solve` -/

/-- `solve_for_conv`; `_assign_grating_type` (131-165) reads as in NumPy.
on_jax/emsolver/rcwa.py:176-206, on_jax/emsolver/_base.py:288-298, 352-363, 424-433 -/
noncomputable def solve_for_conv (env : Env) (s : Settings) (wavelength : ℝ)
    (convs : List (Conv (FlatIdx s.p.fto.1 s.p.fto.2))) : Res (Solved s.p.fto.1 s.p.fto.2) :=
  match gratingType s, s.algo with
  | 0, .tmm => do
    let o ← solve_1d env s.p wavelength (convs.map Conv.row)
    .ok (.tetm o)
  | 0, _ => .error .valueError
  | 1, .tmm => do
    let o ← solve_1d_conical env s.p wavelength convs
    .ok (.conical o)
  | 1, .smm => .ok .conicalSmm
  | 1, .other => .error .valueError
  | _, .tmm => do
    let o ← solve_2d env s.p wavelength convs
    .ok (.twoD o)
  | _, _ => .error .valueError

/-! ### Vector structures

Rectangles, the grid and the painting read as in NumPy (on_jax/modeler/modeling.py:23-337, 476-639). -/

/-- `ellipse` without `debug`: as in NumPy, but reading the point after the last one does not raise (425), and arrays of
different lengths are a `TypeError` (374).
on_jax/modeler/modeling.py:339-474 -/
noncomputable def ellipse (env : Env) (cx cy lx ly : ℝ) (n : ℂ) (angle : ℝ) (nw nh : ℕ) : Res (List VObj) :=
  if nw - 1 ≠ nh - 1 then .error .typeError
  else
    let N := nw - 1
    let p := ellipsePt cx cy lx ly angle nw
    match argmaxY N p with
    | none => .error .valueError
    | some h0 =>
      let q := rollTo N h0 p
      match argmaxY N q with
      | none => .error .valueError
      | some h => do
        let left ← if h + 1 < N then .ok (q (h + 1)) else env.oob ((List.range N).map q) (h + 1)
        .ok (pairBoxes n (ellipseArr N q h left))

/-- One instruction (on_jax/modeler/modeling.py:662-663). -/
noncomputable def runInstr (env : Env) : VInstr → Res (List VObj)
  | .ellipse cx cy lx ly n angle nw nh => ellipse env cx cy lx ly n angle nw nh
  | v => v.run

/-- The instructions of one layer (on_jax/modeler/modeling.py:659-665). -/
noncomputable def layerObjs (env : Env) (l : VLayer) : Res (List VObj) := do
  let os ← l.instrs.mapM (runInstr env)
  .ok os.flatten

/-- `modeling_vector_instruction` (on_jax/modeler/modeling.py:641-669). -/
noncomputable def modeling_vector_instruction (env : Env) (period : ℝ × ℝ) (ls : List VLayer) : Res (List VCell) := do
  let os ← ls.mapM fun l => do
    let o ← layerObjs env l
    .ok (l.base, o)
  os.mapM fun bo => drawLayer period bo.1 bo.2

/-- The convolution matrices of the current structure.
on_jax/emsolver/rcwa.py:220-239 -/
noncomputable def convMats (env : Env) (s : Settings) :
    Res (List (Conv (FlatIdx s.p.fto.1 s.p.fto.2))) :=
  match s.ucell with
  | .raster u =>
    if s.fourier_type = 0 then
      to_conv_mat_raster_discrete env u s.p.fto.1 s.p.fto.2 s.enhanced_dfs s.p.use_pinv
    else if s.fourier_type = 1 then
      to_conv_mat_raster_continuous env u s.p.fto.1 s.p.fto.2 s.p.use_pinv
    else .error .valueError
  | .vector ls => do
    let cells ← modeling_vector_instruction env s.p.period ls
    to_conv_mat_vector env cells s.p.fto.1 s.p.fto.2 s.p.use_pinv

/-- `conv_solve` for given settings.
on_jax/emsolver/rcwa.py:217-243 -/
noncomputable def conv_solve (env : Env) (s : Settings) : Res (Solved s.p.fto.1 s.p.fto.2) := do
  let convs ← convMats env s
  solve_for_conv env s s.p.wavelength convs

/-! ### Fields -/

/-- `calculate_field`; `field_dist_1d`, `field_dist_1d_conical` and `field_dist_2d` of this backend compute the formulas of
the NumPy ones, so their model is shared.
on_jax/emsolver/rcwa.py:259-280, on_jax/emsolver/field_distribution.py:7-262 -/
noncomputable def calculate_field (p : Params) (r : Solved p.fto.1 p.fto.2) (res_x res_y res_z : ℕ)
    (sel : Bool × Bool × Bool) : Res (FieldCell res_x res_y res_z) :=
  Meent.calculate_field p r res_x res_y res_z sel

/-- `conv_solve_field_no_jit`: the method `_conv_solve` it calls first does not exist.
on_jax/emsolver/rcwa.py:297-301 -/
def conv_solve_field_no_jit (_env : Env) (s : Settings) (res_x res_y res_z : ℕ) (_sel : Bool × Bool × Bool) :
    Res (Solved s.p.fto.1 s.p.fto.2 × FieldCell res_x res_y res_z) :=
  .error .attributeError

end Meent.Jax
