import Verif.Model.Rcwa

/-!
# The PyTorch backend: transfer-matrix solvers and `conv_solve`

/repo/meent/on_torch/emsolver/transfer_method.py, /repo/meent/on_torch/emsolver/_base.py:244-473,
/repo/meent/on_torch/emsolver/rcwa.py, /repo/meent/on_torch/emsolver/convolution_matrix.py and
/repo/meent/on_torch/emsolver/primitives.py.  Names carry a leading `t`.

The Fourier analysis (`dfs2d`, `cfs2d`, `cell_compression`) and the isotropic vector modeling are the
same formulas as in NumPy and are shared with that model.  Devices, dtypes and the autograd graph are
not modelled; the field calculation is in `Model/TorchField.lean`.
-/

open Matrix

namespace Meent

variable {n : Type} [Fintype n] [DecidableEq n]

open Classical in
/-- `meeinv(x, use_pinv)` (on_torch/emsolver/primitives.py:89-104).  `torch.linalg.inv` raises on a
singular matrix and then the pseudo-inverse is used, so this never fails. -/
noncomputable def tMeeinv (la : LinAlg) (A : Matrix n n ℂ) (use_pinv : Bool) : Matrix n n ℂ :=
  if use_pinv then la.pinv A
  else if IsUnit A.det then A⁻¹ else la.pinv A

/-- `branch_sign(value)`: −1 if the real part is negative, else +1
(transfer_method.py:6-20). -/
noncomputable def branchSign (z : ℂ) : ℂ := if z.re < 0 then -1 else 1

/-- `kz` in `transfer_1d_1` (transfer_method.py:26-38): the principal root, replaced by
`-1j * (kx**2 - n**2) ** 0.5` when `|kx| > |Re n|`. -/
noncomputable def tKz1d (nn : ℂ) (kx : n → ℂ) (i : n) : ℂ :=
  if |nn.re| < ‖kx i‖ then -Complex.I * csqrt (kx i ^ 2 - nn ^ 2) else csqrt (nn ^ 2 - kx i ^ 2)

/-- `transfer_1d_1` (transfer_method.py:23-54). -/
noncomputable def tTransfer_1d_1 (pol : ℝ) (kx : n → ℂ) (n_top n_bot : ℂ) :
    Res ((n → ℂ) × (n → ℂ) × TState n) :=
  let kz_top := tKz1d n_top kx
  let kz_bot := tKz1d n_bot kx
  if pol = 0 then
    .ok (kz_top, kz_bot, { F := 1, G := Complex.I • diagonal kz_bot, T := 1 })
  else if pol = 1 then
    .ok (kz_top, kz_bot,
      { F := 1, G := Complex.I • diagonal (fun i => kz_bot i / n_bot ^ 2), T := 1 })
  else .error .valueError

/-- `transfer_1d_2` (transfer_method.py:55-87). -/
noncomputable def tTransfer_1d_2 (la : LinAlg) (pol : ℝ) (kx : n → ℂ) (c : Conv n)
    (use_pinv : Bool) : Res (Modes n) :=
  let Kx := diagonal kx
  if pol = 0 then
    let A := diagonal (fun i => kx i ^ 2) - c.epy
    let ew := la.eig A
    let q := fun i => csqrt (ew.1 i)
    .ok { W := ew.2, V := ew.2 * diagonal q, q := q }
  else if pol = 1 then
    let B := Kx * c.epzi * Kx - 1
    let ew := la.eig (c.epx * B)
    let q := fun i => csqrt (ew.1 i)
    .ok { W := ew.2, V := tMeeinv la c.epx use_pinv * ew.2 * diagonal q, q := q }
  else .error .valueError

/-- `transfer_1d_3` (transfer_method.py:89-108) and the common tail of `transfer_1d_conical_3`
(354-369) and `transfer_2d_3` (640-656). -/
noncomputable def tTmmStep (la : LinAlg) (use_pinv : Bool) (X W V : Matrix n n ℂ) (s : TState n) :
    TState n × Matrix n n ℂ × Matrix n n ℂ :=
  let W_i := tMeeinv la W use_pinv
  let V_i := tMeeinv la V use_pinv
  let A := (1 / 2 : ℂ) • (W_i * s.F + V_i * s.G)
  let B := (1 / 2 : ℂ) • (W_i * s.F - V_i * s.G)
  let A_i := tMeeinv la A use_pinv
  ({ F := W * (1 + X * B * A_i * X), G := V * (1 - X * B * A_i * X), T := s.T * A_i * X }, A_i, B)

/-- `phase_conv = branch_sign(kx) * branch_sign(kx[ff_x // 2])` (transfer_method.py:147, 430, 715). -/
noncomputable def phaseConv {fx : ℕ} (kx : Fin (2 * fx + 1) → ℂ) (i : Fin (2 * fx + 1)) : ℂ :=
  branchSign (kx i) * branchSign (kx ⟨(2 * fx + 1) / 2, Nat.div_lt_self (by omega) (by omega)⟩)

/-- `transfer_1d_4` (transfer_method.py:111-187). -/
noncomputable def tTransfer_1d_4 {fx : ℕ} (la : LinAlg) (pol : ℝ) (s : TState (Fin (2 * fx + 1)))
    (kx kz_top kz_bot : Fin (2 * fx + 1) → ℂ) (theta n_top n_bot : ℂ) (use_pinv : Bool) :
    Res (SubRes 1 (2 * fx + 1) × (Fin (2 * fx + 1) → ℂ)) := do
  let Kz_top := diagonal kz_top
  let delta : Fin (2 * fx + 1) → ℂ := deltaI0
  let T1 ←
    if pol = 0 then
      let inc_term := (Complex.I * n_top * Complex.cos theta) • delta
      .ok (tMeeinv la (s.G + (Complex.I • Kz_top) * s.F) use_pinv *ᵥ
        ((Complex.I • Kz_top) *ᵥ delta + inc_term))
    else if pol = 1 then
      let inc_term := (Complex.I * Complex.cos theta / n_top) • delta
      let KzN := ((1 : ℂ) / n_top ^ 2) • (Complex.I • Kz_top)
      .ok (tMeeinv la (s.G + KzN * s.F) use_pinv *ᵥ (KzN *ᵥ delta + inc_term))
    else .error .valueError
  let R := fun i => star ((s.F *ᵥ T1 - delta) i) * phaseConv kx i
  let T := fun i => star ((s.T *ᵥ T1) i) * phaseConv kx i
  let de_ri := fun i => effOf (R i) (kz_top i / (n_top * Complex.cos theta))
  if pol = 0 then
    let de_ti := fun i => effOf (T i) (kz_bot i / (n_top * Complex.cos theta))
    .ok ({ R_s := fun _ => R, R_p := fun _ _ => 0, T_s := fun _ => T, T_p := fun _ _ => 0,
           de_ri_s := fun _ => de_ri, de_ri_p := fun _ _ => 0, de_ri := fun _ => de_ri,
           de_ti_s := fun _ => de_ti, de_ti_p := fun _ _ => 0, de_ti := fun _ => de_ti }, T1)
  else if pol = 1 then
    let de_ti := fun i =>
      effOf (T i) (kz_bot i / n_bot ^ 2 / (Complex.cos theta / n_top))
    .ok ({ R_s := fun _ _ => 0, R_p := fun _ => R, T_s := fun _ _ => 0, T_p := fun _ => T,
           de_ri_s := fun _ _ => 0, de_ri_p := fun _ => de_ri, de_ri := fun _ => de_ri,
           de_ti_s := fun _ _ => 0, de_ti_p := fun _ => de_ti, de_ti := fun _ => de_ti }, T1)
  else .error .valueError

/-- `kx` of `get_kx_ky_vector` (on_torch/emsolver/_base.py:244-270): as in NumPy but without the special
case for `theta ≥ π/2`. -/
noncomputable def tKxVec (p : Params) (wavelength : ℝ) (i : Fin (2 * p.fto.1 + 1)) : ℂ :=
  star (p.n_top * Complex.sin p.theta * Complex.cos (p.phi.getD 0)
    + (((i : ℤ) - (p.fto.1 : ℤ) : ℤ) : ℂ) * ((wavelength / p.period.1 : ℝ) : ℂ))

/-- `ky` of `get_kx_ky_vector` (on_torch/emsolver/_base.py:244-270). -/
noncomputable def tKyVec (p : Params) (wavelength : ℝ) (i : Fin (2 * p.fto.2 + 1)) : ℂ :=
  star (p.n_top * Complex.sin p.theta * Complex.sin (p.phi.getD 0)
    + (((i : ℤ) - (p.fto.2 : ℤ) : ℤ) : ℂ) * ((wavelength / p.period.2 : ℝ) : ℂ))

/-- Loop body of `solve_1d` (on_torch/emsolver/_base.py:293-313). -/
noncomputable def tStep1d (la : LinAlg) (p : Params) (k0 : ℝ) (kx : n → ℂ) (c : Conv n) (d : ℝ)
    (s : TState n) : Res (TState n × LayerInfo n n) := do
  let m ← tTransfer_1d_2 la p.pol kx c p.use_pinv
  let r := tTmmStep la p.use_pinv (phaseX k0 m.q d) m.W m.V s
  .ok (r.1, { epzi := c.epzi, modes := m, d := d, A_i := r.2.1, B := r.2.2 })

/-- `solve_1d` with `connecting_algo == 'TMM'` (on_torch/emsolver/_base.py:272-331). -/
noncomputable def tSolve_1d (la : LinAlg) (p : Params) (wavelength : ℝ)
    (convs : List (Conv (Fin (2 * p.fto.1 + 1)))) : Res (Out1D (2 * p.fto.1 + 1)) := do
  let k0 := 2 * Real.pi / wavelength
  let kx := tKxVec p wavelength
  let init ← tTransfer_1d_1 p.pol kx p.n_top p.n_bot
  let r ← layerLoop (tStep1d la p k0 kx) convs p.thickness p.thickness.length (init.2.2, [])
  let o ← tTransfer_1d_4 la p.pol r.1 kx init.1 init.2.1 p.theta p.n_top p.n_bot p.use_pinv
  .ok { res := o.1, T1 := o.2, infos := r.2 }

/-- `kz` in `transfer_1d_conical_1` (transfer_method.py:201-222) and `transfer_2d_1` (510-528); `kx`,
`ky` per flat index. -/
noncomputable def tKz2d {m : Type} (nn : ℂ) (kx ky : m → ℂ) (i : m) : ℂ :=
  if |nn.re ^ 2| < ‖kx i ^ 2 + ky i ^ 2‖ then -Complex.I * csqrt (kx i ^ 2 + ky i ^ 2 - nn ^ 2)
  else csqrt (nn ^ 2 - kx i ^ 2 - ky i ^ 2)

/-- `transfer_1d_conical_1` (transfer_method.py:190-251) and `transfer_2d_1` (509-548).  For an order with
`kx = 0` the division `ky / kx` is taken to behave as in NumPy (`varphi1`); the vectorised torch kernels
may return NaN there. -/
noncomputable def tTransfer_2d_1 {m : Type} [Fintype m] [DecidableEq m] (kx ky : m → ℂ)
    (n_top n_bot : ℂ) : Res ((m → ℂ) × (m → ℂ) × (m → ℂ) × TState (m ⊕ m)) := do
  let kz_top := tKz2d n_top kx ky
  let kz_bot := tKz2d n_bot kx ky
  let varphi ← varphiAll kx ky
  let Kz_bot := diagonal kz_bot
  .ok (kz_top, kz_bot, varphi,
    { F := fromBlocks 1 0 0 (((1 : ℂ) / n_bot ^ 2) • (Complex.I • Kz_bot)),
      G := fromBlocks (Complex.I • Kz_bot) 0 0 1,
      T := 1 })

/-- `transfer_1d_conical_2` (transfer_method.py:258-301). -/
noncomputable def tTransfer_1d_conical_2 {m : Type} [Fintype m] [DecidableEq m] (la : LinAlg)
    (kx ky : m → ℂ) (c : Conv m) (use_pinv : Bool) : ConModes m :=
  let Kx := diagonal kx
  let Ky := diagonal ky
  let A := diagonal (fun i => kx i ^ 2) - c.epy
  let B := Kx * c.epzi * Kx - 1
  let Omega2_RL := diagonal (fun i => ky i ^ 2) + A
  let Omega2_LR := diagonal (fun i => ky i ^ 2) + B * c.epx
  let ew1 := la.eig Omega2_RL
  let ew2 := la.eig Omega2_LR
  let q1 := fun i => csqrt (ew1.1 i)
  let q2 := fun i => csqrt (ew2.1 i)
  let A_i := tMeeinv la A use_pinv
  let B_i := tMeeinv la B use_pinv
  { W1 := ew1.2, W2 := ew2.2,
    V11 := A_i * ew1.2 * diagonal q1,
    V12 := Ky * A_i * Kx * ew2.2,
    V21 := Ky * B_i * Kx * c.epzi * ew1.2,
    V22 := B_i * ew2.2 * diagonal q2,
    q1 := q1, q2 := q2 }

/-- `transfer_1d_conical_3` (transfer_method.py:308-369); the code calls `V_ps, V_pp` what is `W_ps, W_pp`
here and conversely, and puts them at the same places. -/
noncomputable def tTransfer_1d_conical_3 {m : Type} [Fintype m] [DecidableEq m] (la : LinAlg)
    (k0 : ℝ) (M : ConModes m) (d : ℝ) (varphi : m → ℂ) (s : TState (m ⊕ m)) (use_pinv : Bool) :
    TState (m ⊕ m) × Matrix (m ⊕ m) (m ⊕ m) ℂ × Matrix (m ⊕ m) (m ⊕ m) ℂ :=
  let F_c := diagonal (fun i => Complex.cos (varphi i))
  let F_s := diagonal (fun i => Complex.sin (varphi i))
  let V_ss := F_c * M.V11
  let V_sp := F_c * M.V12 - F_s * M.W2
  let W_ss := F_c * M.W1 + F_s * M.V21
  let W_sp := F_s * M.V22
  let W_ps := F_s * M.V11
  let W_pp := F_c * M.W2 + F_s * M.V12
  let V_ps := F_c * M.V21 - F_s * M.W1
  let V_pp := F_c * M.V22
  let big_W := fromBlocks V_ss V_sp W_ps W_pp
  let big_V := fromBlocks W_ss W_sp V_ps V_pp
  tTmmStep la use_pinv (bigX k0 M.q1 M.q2 d) big_W big_V s

/-- `q = torch.where(q.abs() < 1E-10, 1E-10, q)` (transfer_method.py:578). -/
noncomputable def clampQ (q : ℂ) : ℂ := if ‖q‖ < 1 / 10 ^ 10 then ((1 / 10 ^ 10 : ℝ) : ℂ) else q

/-- `transfer_2d_2` (transfer_method.py:553-591): `Q_i = diag(1 / q)` after the clamp. -/
noncomputable def tTransfer_2d_2 {m : Type} [Fintype m] [DecidableEq m] (la : LinAlg)
    (kx ky : m → ℂ) (c : Conv m) : Modes (m ⊕ m) :=
  let ew := la.eig (omega2LR kx ky c)
  let q := fun i => clampQ (csqrt (ew.1 i))
  { W := ew.2, V := omegaR kx ky c * ew.2 * diagonal (fun i => 1 / q i), q := q }

/-- `transfer_2d_3` (transfer_method.py:593-656). -/
noncomputable def tTransfer_2d_3 {m : Type} [Fintype m] [DecidableEq m] (la : LinAlg)
    (k0 : ℝ) (M : Modes (m ⊕ m)) (d : ℝ) (varphi : m → ℂ) (s : TState (m ⊕ m)) (use_pinv : Bool) :
    TState (m ⊕ m) × Matrix (m ⊕ m) (m ⊕ m) ℂ × Matrix (m ⊕ m) (m ⊕ m) ℂ :=
  tTmmStep la use_pinv (bigX k0 (fun i => M.q (.inl i)) (fun i => M.q (.inr i)) d)
    (bigW2d varphi M.W) (bigV2d varphi M.V) s

/-- `final_B` (transfer_method.py:408-415, 694-701); the second and fourth block have the opposite sign
of NumPy's. -/
noncomputable def tFinalB {m : Type} (delta : m → ℂ) (psi theta n_top : ℂ) :
    (m ⊕ m) ⊕ (m ⊕ m) → ℂ
  | .inl (.inl i) => -Complex.sin psi * delta i
  | .inl (.inr i) => -Complex.cos psi * Complex.cos theta * delta i
  | .inr (.inl i) => -Complex.I * Complex.sin psi * n_top * Complex.cos theta * delta i
  | .inr (.inr i) => Complex.I * n_top * Complex.cos psi * delta i

/-- A dictionary from the four amplitudes: the efficiencies (transfer_method.py:731-738, 777-784). -/
noncomputable def tSubRes {fx fy : ℕ} (R_s R_p T_s T_p : FlatIdx fx fy → ℂ)
    (kz_top kz_bot : FlatIdx fx fy → ℂ) (theta n_top : ℂ) : SubRes (2 * fy + 1) (2 * fx + 1) :=
  let kinc := n_top * Complex.cos theta
  let de_ri_s := fun i => effOf (R_s i) (kz_top i / kinc)
  let de_ri_p := fun i => effOf (R_p i) (kz_top i / kinc)
  let de_ti_s := fun i => effOf (T_s i) (kz_bot i / kinc)
  let de_ti_p := fun i => effOf (T_p i) (kz_bot i / kinc)
  let grid : {α : Type} → (FlatIdx fx fy → α) → Fin (2 * fy + 1) → Fin (2 * fx + 1) → α :=
    fun f y x => f (finProdFinEquiv (y, x))
  { R_s := grid R_s, R_p := grid R_p, T_s := grid T_s, T_p := grid T_p,
    de_ri_s := grid de_ri_s, de_ri_p := grid de_ri_p,
    de_ri := grid (fun i => de_ri_s i + de_ri_p i),
    de_ti_s := grid de_ti_s, de_ti_p := grid de_ti_p,
    de_ti := grid (fun i => de_ti_s i + de_ti_p i) }

/-- `res` (transfer_method.py:717-742 and 432-457). -/
noncomputable def tSubResPsi {fx fy : ℕ} (s : TState (FlatIdx fx fy ⊕ FlatIdx fx fy))
    (kx : Fin (2 * fx + 1) → ℂ) (kz_top kz_bot : FlatIdx fx fy → ℂ) (theta n_top n_bot : ℂ)
    (rt : (FlatIdx fx fy ⊕ FlatIdx fx fy) ⊕ (FlatIdx fx fy ⊕ FlatIdx fx fy) → ℂ) :
    SubRes (2 * fy + 1) (2 * fx + 1) :=
  let ph : FlatIdx fx fy → ℂ := fun i => phaseConv kx i.modNat
  let T := s.T *ᵥ fun i => rt (.inr i)
  tSubRes (fun i => star (rt (.inl (.inl i))) * ph i)
    (fun i => star ((Complex.I / n_top) * rt (.inl (.inr i))) * ph i)
    (fun i => star (T (.inl i)) * ph i)
    (fun i => star ((Complex.I / n_bot) * T (.inr i)) * ph i)
    kz_top kz_bot theta n_top

/-- `res_te_inc` / `res_tm_inc` (transfer_method.py:777-787 and 496-506): here `R_p` and `T_p` carry
`-1j` and the transmitted amplitudes are neither conjugated nor multiplied by `phase_conv`. -/
noncomputable def tSubResTetm {fx fy : ℕ} (s : TState (FlatIdx fx fy ⊕ FlatIdx fx fy))
    (kx : Fin (2 * fx + 1) → ℂ) (kz_top kz_bot : FlatIdx fx fy → ℂ) (theta n_top n_bot : ℂ)
    (rt : (FlatIdx fx fy ⊕ FlatIdx fx fy) ⊕ (FlatIdx fx fy ⊕ FlatIdx fx fy) → ℂ) :
    SubRes (2 * fy + 1) (2 * fx + 1) :=
  let ph : FlatIdx fx fy → ℂ := fun i => phaseConv kx i.modNat
  let T := s.T *ᵥ fun i => rt (.inr i)
  tSubRes (fun i => star (rt (.inl (.inl i))) * ph i)
    (fun i => star ((-Complex.I / n_top) * rt (.inl (.inr i))) * ph i)
    (fun i => T (.inl i))
    (fun i => (-Complex.I / n_bot) * T (.inr i))
    kz_top kz_bot theta n_top

/-- `transfer_1d_conical_4` (transfer_method.py:372-506) and `transfer_2d_4` (659-798), which have the
same statements. -/
noncomputable def tTransfer_2d_4 {fx fy : ℕ} (la : LinAlg)
    (s : TState (FlatIdx fx fy ⊕ FlatIdx fx fy)) (kx : Fin (2 * fx + 1) → ℂ)
    (kz_top kz_bot : FlatIdx fx fy → ℂ) (psi theta n_top n_bot : ℂ) (use_pinv : Bool) : Out4 fx fy :=
  let delta : FlatIdx fx fy → ℂ := deltaI0
  let A_inv := tMeeinv la (finalA n_top kz_top s) use_pinv
  let rt := A_inv *ᵥ tFinalB delta psi theta n_top
  let rt_te := A_inv *ᵥ tFinalB delta ((Real.pi / 2 : ℝ) : ℂ) theta n_top
  let rt_tm := A_inv *ᵥ tFinalB delta 0 theta n_top
  { res := tSubResPsi s kx kz_top kz_bot theta n_top n_bot rt,
    res_te := tSubResTetm s kx kz_top kz_bot theta n_top n_bot rt_te,
    res_tm := tSubResTetm s kx kz_top kz_bot theta n_top n_bot rt_tm,
    T1 := fun i => rt (.inr i), T1_te := fun i => rt_te (.inr i),
    T1_tm := fun i => rt_tm (.inr i) }

/-- Loop body of `solve_1d_conical` (on_torch/emsolver/_base.py:354-374). -/
noncomputable def tStepCon {m : Type} [Fintype m] [DecidableEq m] (la : LinAlg) (use_pinv : Bool)
    (k0 : ℝ) (kx ky varphi : m → ℂ) (c : Conv m) (d : ℝ) (s : TState (m ⊕ m)) :
    Res (TState (m ⊕ m) × LayerInfoCon m) :=
  let M := tTransfer_1d_conical_2 la kx ky c use_pinv
  let r := tTransfer_1d_conical_3 la k0 M d varphi s use_pinv
  .ok (r.1, { epzi := c.epzi, modes := M, d := d, A_i := r.2.1, B := r.2.2 })

/-- Loop body of `solve_2d` (on_torch/emsolver/_base.py:416-440). -/
noncomputable def tStep2d {m : Type} [Fintype m] [DecidableEq m] (la : LinAlg) (use_pinv : Bool)
    (k0 : ℝ) (kx ky varphi : m → ℂ) (c : Conv m) (d : ℝ) (s : TState (m ⊕ m)) :
    Res (TState (m ⊕ m) × LayerInfo m (m ⊕ m)) :=
  let M := tTransfer_2d_2 la kx ky c
  let r := tTransfer_2d_3 la k0 M d varphi s use_pinv
  .ok (r.1, { epzi := c.epzi, modes := M, d := d, A_i := r.2.1, B := r.2.2 })

/-- `solve_1d_conical` with `connecting_algo == 'TMM'` (on_torch/emsolver/_base.py:333-390).  With
`fto[1] > 0` the `reshape((1, ff_x))` fails (torch raises `RuntimeError`, recorded as `valueError`). -/
noncomputable def tSolve_1d_conical (la : LinAlg) (p : Params) (wavelength : ℝ)
    (convs : List (Conv (FlatIdx p.fto.1 p.fto.2))) : Res (OutCon p.fto.1 p.fto.2) := do
  let k0 := 2 * Real.pi / wavelength
  let kx := tileX (fy := p.fto.2) (tKxVec p wavelength)
  let ky := tileY (fx := p.fto.1) (tKyVec p wavelength)
  let init ← tTransfer_2d_1 kx ky p.n_top p.n_bot
  let r ← layerLoop (tStepCon la p.use_pinv k0 kx ky init.2.2.1) convs p.thickness
    p.thickness.length (init.2.2.2, [])
  if p.fto.2 ≠ 0 then .error .valueError
  else
    .ok { out := tTransfer_2d_4 la r.1 (tKxVec p wavelength) init.1 init.2.1 p.psi p.theta p.n_top
            p.n_bot p.use_pinv,
          infos := r.2 }

/-- `solve_2d` with `connecting_algo == 'TMM'` (on_torch/emsolver/_base.py:394-473). -/
noncomputable def tSolve_2d (la : LinAlg) (p : Params) (wavelength : ℝ)
    (convs : List (Conv (FlatIdx p.fto.1 p.fto.2))) : Res (Out2D p.fto.1 p.fto.2) := do
  let k0 := 2 * Real.pi / wavelength
  let kx := tileX (fy := p.fto.2) (tKxVec p wavelength)
  let ky := tileY (fx := p.fto.1) (tKyVec p wavelength)
  let init ← tTransfer_2d_1 kx ky p.n_top p.n_bot
  let r ← layerLoop (tStep2d la p.use_pinv k0 kx ky init.2.2.1) convs p.thickness
    p.thickness.length (init.2.2.2, [])
  .ok { out := tTransfer_2d_4 la r.1 (tKxVec p wavelength) init.1 init.2.1 p.psi p.theta p.n_top
          p.n_bot p.use_pinv,
        infos := r.2 }

/-! ### Structures, convolution matrices and `conv_solve` -/

/-- An anisotropic raster `ucell` of shape `(layers, ny, nx, 3)`.
on_torch/emsolver/rcwa.py:93-125 -/
structure Ucell3 where
  ny : ℕ
  nx : ℕ
  layers : List (Fin 3 → Fin ny → Fin nx → ℂ)

/-- The refractive index of a vector layer or instruction: a number, or `(nx, ny, nz)` given as a list, tuple or tensor of three.  Lists
of another length are outside the model.
on_torch/modeler/modeling.py:13-20 -/
inductive AIndex
  | scalar (n : ℂ)
  | vector (n : Fin 3 → ℂ)

/-- `_is_vector_index` (on_torch/modeler/modeling.py:13-19). -/
def AIndex.isVector : AIndex → Bool
  | .scalar _ => false
  | .vector _ => true

/-- `_to_index_vector` (on_torch/modeler/modeling.py:22-36). -/
def AIndex.toVector : AIndex → Fin 3 → ℂ
  | .scalar n => fun _ => n
  | .vector v => v

/-- A vector instruction whose index may have three components.
on_torch/modeler/modeling.py:88, 287, 600-605 -/
inductive AInstr
  | rectangle (cx cy lx ly : ℝ) (n : AIndex) (angle : ℝ) (nt np : ℕ)
  | ellipse (cx cy lx ly : ℝ) (n : AIndex) (angle : ℝ) (nw nh : ℕ)
  | unknown

/-- `func(*vector_object[1:])` (on_torch/modeler/modeling.py:602-603).  The drawing functions put `n_index` into every box without
reading it (lines 115-121, 240, 282, 389), so a box is modelled as the box of the scalar model, whose own index is not used, with
the index beside it. -/
noncomputable def AInstr.run : AInstr → Res (List (VObj × AIndex))
  | .rectangle cx cy lx ly n angle nt np => do
    let os ← Meent.rectangle cx cy lx ly 0 angle nt np
    .ok (os.map fun o => (o, n))
  | .ellipse cx cy lx ly n angle nw nh => do
    let os ← Meent.ellipse cx cy lx ly 0 angle nw nh
    .ok (os.map fun o => (o, n))
  | .unknown => .error .attributeError

/-- A vector layer `[base, [instructions]]`.
on_torch/modeler/modeling.py:597-607 -/
structure AVLayer where
  base : AIndex
  instrs : List AInstr

/-- First loop of `modeling_vector_instruction` for one layer (on_torch/modeler/modeling.py:598-605). -/
noncomputable def AVLayer.objs (l : AVLayer) : Res (List (VObj × AIndex)) := do
  let os ← l.instrs.mapM AInstr.run
  .ok os.flatten

/-- The painting loop (on_torch/modeler/modeling.py:516-535), for cells holding numbers or triples. -/
noncomputable def paintAllWith {α : Type} (rows cols : List ℝ) : List (VObj × α) → (ℕ → ℕ → α) → Res (ℕ → ℕ → α)
  | [], m => .ok m
  | o :: os, m => do
    let r0 ← beginIdx rows o.1.r0
    let r1 ← endIdx rows o.1.r1
    let c0 ← beginIdx cols o.1.c0
    let c1 ← endIdx cols o.1.c1
    paintAllWith rows cols os (fun i j => if r0 ≤ i ∧ i < r1 ∧ c0 ≤ j ∧ j < c1 then o.2 else m i j)

/-- `ucell_layer` as returned by `vector_per_layer_numeric`: two-dimensional, or with a third axis of length three.
on_torch/modeler/modeling.py:505-514 -/
inductive ALayer
  | iso (c : VCell)
  | aniso (c : Fin 3 → VCell)

/-- `vector_per_layer_numeric` (on_torch/modeler/modeling.py:396-551) and `draw` (553-563) for one layer.  The grid is made from the
boxes alone.  In an isotropic layer every index is a number, so that `toVector n 0` is that number. -/
noncomputable def aDrawLayer (period : ℝ × ℝ) (base : AIndex) (objs : List (VObj × AIndex)) : Res ALayer := do
  let g := gridLayer (objs.map Prod.fst)
  let rows := finishEdges g.rows period.2
  let cols := finishEdges g.cols period.1
  if base.isVector || objs.any (fun o => o.2.isVector) then
    let m ← paintAllWith rows cols (g.objs.zip (objs.map fun o => o.2.toVector)) (fun _ _ => base.toVector)
    let c0 ← toVCell rows cols (fun i j => m i j 0)
    let c1 ← toVCell rows cols (fun i j => m i j 1)
    let c2 ← toVCell rows cols (fun i j => m i j 2)
    .ok (.aniso ![c0, c1, c2])
  else
    let m ← paintAllWith rows cols (g.objs.zip (objs.map fun o => o.2.toVector 0)) (fun _ _ => base.toVector 0)
    let c ← toVCell rows cols m
    .ok (.iso c)

/-- `modeling_vector_instruction` (on_torch/modeler/modeling.py:583-609). -/
noncomputable def aModeling_vector_instruction (period : ℝ × ℝ) (ls : List AVLayer) : Res (List ALayer) := do
  let os ← ls.mapM fun l => do
    let o ← l.objs
    .ok (l.base, o)
  os.mapM fun bo => aDrawLayer period bo.1 bo.2

/-- `ucell` of the PyTorch backend (rcwa.py:93-126): an isotropic structure, an anisotropic raster, or vector instructions whose
indices may have three components.  Instructions with scalar indices are also represented as `iso (.vector _)`; C71 proves that both
representations behave alike. -/
inductive TStructure
  | iso (u : Structure)
  | aniso (u : Ucell3)
  | avector (ls : List AVLayer)

/-- Everything one `conv_solve` of the PyTorch backend reads.
on_torch/emsolver/rcwa.py:48-87 -/
structure TSettings where
  p : Params
  ucell : TStructure
  fourier_type : ℤ
  enhanced_dfs : Bool
  algo : Algo

/-- The PyTorch settings with the same inputs as given NumPy settings.
on_torch/emsolver/rcwa.py:48-87 -/
def Settings.torch (s : Settings) : TSettings :=
  { p := s.p, ucell := .iso s.ucell, fourier_type := s.fourier_type, enhanced_dfs := s.enhanced_dfs,
    algo := s.algo }

/-- One comparison of `torch.allclose`: `|a - b| ≤ 1e-8 + 1e-5 |b|`.
on_torch/emsolver/rcwa.py:140 -/
def closeTo (a b : ℂ) : Prop := ‖a - b‖ ≤ 1 / 10 ^ 8 + 1 / 10 ^ 5 * ‖b‖

/-- `is_aniso` (rcwa.py:137-142): `not (allclose(nx, ny) and allclose(ny, nz))`. -/
def TStructure.isAniso : TStructure → Prop
  | .iso _ => False
  | .aniso u => ¬((∀ l ∈ u.layers, ∀ i j, closeTo (l 0 i j) (l 1 i j)) ∧
      ∀ l ∈ u.layers, ∀ i j, closeTo (l 1 i j) (l 2 i j))
  | .avector _ => False

/-- `ucell.shape[1]` of a raster.
on_torch/emsolver/rcwa.py:144 -/
def TStructure.rows : TStructure → Option ℕ
  | .iso (.raster u) => some u.ny
  | .iso (.vector _) => none
  | .aniso u => some u.ny
  | .avector _ => none

open Classical in
/-- `_assign_grating_type` (rcwa.py:136-158): 0 = 1D TE/TM, 1 = 1D conical, 2 = 2D. -/
noncomputable def tGratingType (s : TSettings) : ℕ :=
  match s.ucell.rows with
  | some ny =>
    if ny = 1 then
      if (s.p.pol = 0 ∨ s.p.pol = 1) ∧ (s.p.phi = none ∨ s.p.phi = some 0) ∧ s.p.fto.2 = 0 then 0
      else if s.ucell.isAniso then 2
      else 1
    else 2
  | none => 2

/-- `solve_for_conv` (rcwa.py:168-194) with the `connecting_algo` checks of the three solvers; the SMM
branch of `solve_1d_conical` returns a pair of NaN. -/
noncomputable def tSolve_for_conv (la : LinAlg) (s : TSettings) (wavelength : ℝ)
    (convs : List (Conv (FlatIdx s.p.fto.1 s.p.fto.2))) : Res (Solved s.p.fto.1 s.p.fto.2) :=
  match tGratingType s, s.algo with
  | 0, .tmm => do
    let o ← tSolve_1d la s.p wavelength (convs.map Conv.row)
    .ok (.tetm o)
  | 0, _ => .error .valueError
  | 1, .tmm => do
    let o ← tSolve_1d_conical la s.p wavelength convs
    .ok (.conical o)
  | 1, .smm => .ok .conicalSmm
  | 1, .other => .error .valueError
  | _, .tmm => do
    let o ← tSolve_2d la s.p wavelength convs
    .ok (.twoD o)
  | _, _ => .error .valueError

/-- Loop body of `to_conv_mat_raster_discrete` (on_torch/emsolver/convolution_matrix.py:174-221): the three diagonal
components are enlarged and squared separately. -/
noncomputable def tConvDiscrete (la : LinAlg) (lx ly lz : Raster) (fto_x fto_y : ℕ)
    (enhanced use_pinv : Bool) : Res (Conv (FlatIdx fto_x fto_y)) := do
  let epz ← dfs2d (enlarge lz fto_x fto_y enhanced).sq true true fto_x fto_y
  let epy ← dfs2d (enlarge ly fto_x fto_y enhanced).sq true false fto_x fto_y
  let epx ← dfs2d (enlarge lx fto_x fto_y enhanced).sq false true fto_x fto_y
  .ok { epx := epx, epy := epy, epzi := tMeeinv la epz use_pinv }

/-- Loop body of `to_conv_mat_raster_continuous` / `to_conv_mat_vector`
(on_torch/emsolver/convolution_matrix.py:93-171)
after compression. -/
noncomputable def tConvContinuous (la : LinAlg) (cx cy cz : VCell) (fto_x fto_y : ℕ)
    (use_pinv : Bool) : Res (Conv (FlatIdx fto_x fto_y)) := do
  let epz ← cfs2d cz.sq true true fto_x fto_y
  let epy ← cfs2d cy.sq true false fto_x fto_y
  let epx ← cfs2d cx.sq false true fto_x fto_y
  .ok { epx := epx, epy := epy, epzi := tMeeinv la epz use_pinv }

/-- One anisotropic layer of `to_conv_mat_raster_continuous`
(on_torch/emsolver/convolution_matrix.py:125-171): each component is compressed on its own. -/
noncomputable def tConvRasterContinuous (la : LinAlg) (lx ly lz : Raster) (fto_x fto_y : ℕ)
    (use_pinv : Bool) : Res (Conv (FlatIdx fto_x fto_y)) := do
  let cx ← cell_compression lx
  let cy ← cell_compression ly
  let cz ← cell_compression lz
  tConvContinuous la cx cy cz fto_x fto_y use_pinv

/-- The component rasters `layer[..., 0], layer[..., 1], layer[..., 2]` of every layer
(on_torch/emsolver/convolution_matrix.py:138-145, 206-216); an isotropic
layer is its own three components. -/
def TStructure.components : TStructure → Option (List (Raster × Raster × Raster))
  | .iso (.raster u) => some (u.rasters.map fun l => (l, l, l))
  | .iso (.vector _) => none
  | .aniso u => some (u.layers.map fun l => (⟨u.ny, u.nx, l 0⟩, ⟨u.ny, u.nx, l 1⟩, ⟨u.ny, u.nx, l 2⟩))
  | .avector _ => none

/-- One layer of `to_conv_mat_vector` (on_torch/emsolver/convolution_matrix.py:102-121). -/
noncomputable def tConvVector (la : LinAlg) (fto_x fto_y : ℕ) (use_pinv : Bool) : ALayer → Res (Conv (FlatIdx fto_x fto_y))
  | .iso c => tConvContinuous la c c c fto_x fto_y use_pinv
  | .aniso c => tConvContinuous la (c 0) (c 1) (c 2) fto_x fto_y use_pinv

/-- The convolution matrices of the current structure (rcwa.py:199-220). -/
noncomputable def tConvMats (la : LinAlg) (s : TSettings) :
    Res (List (Conv (FlatIdx s.p.fto.1 s.p.fto.2))) :=
  match s.ucell, s.ucell.components with
  | _, some ls =>
    if s.fourier_type = 0 then
      ls.mapM fun l =>
        tConvDiscrete la l.1 l.2.1 l.2.2 s.p.fto.1 s.p.fto.2 s.enhanced_dfs s.p.use_pinv
    else if s.fourier_type = 1 then
      ls.mapM fun l => tConvRasterContinuous la l.1 l.2.1 l.2.2 s.p.fto.1 s.p.fto.2 s.p.use_pinv
    else .error .valueError
  | .iso (.vector ls), none => do
    let cells ← modeling_vector_instruction s.p.period ls
    cells.mapM fun c => tConvContinuous la c c c s.p.fto.1 s.p.fto.2 s.p.use_pinv
  | .avector ls, none => do
    let layers ← aModeling_vector_instruction s.p.period ls
    layers.mapM (tConvVector la s.p.fto.1 s.p.fto.2 s.p.use_pinv)
  | _, none => .error .valueError

/-- `conv_solve` (rcwa.py:196-224) without keyword arguments. -/
noncomputable def tConv_solve (la : LinAlg) (s : TSettings) : Res (Solved s.p.fto.1 s.p.fto.2) := do
  let convs ← tConvMats la s
  tSolve_for_conv la s s.p.wavelength convs

end Meent
