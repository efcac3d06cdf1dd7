import Verif.Model.Fourier

/-!
# The 1D-conical and 2D transfer-matrix solvers

/repo/meent/on_numpy/emsolver/transfer_method.py:138-625 and
/repo/meent/on_numpy/emsolver/_base.py:286-418.  The JAX versions are the same formulas.

Arrays of length `ff_x * ff_y` are indexed by `FlatIdx`, in C order (`iy * ff_x + ix`); a doubled
axis (`2 * ff_xy`) is the sum type `m ⊕ m` (first half / second half).
-/

open Matrix

namespace Meent

/-- `np.tile(kx, ff_y).flatten()`: the x wavenumber at a flat index (transfer_method.py:169, 414). -/
def tileX {fx fy : ℕ} (kx : Fin (2 * fx + 1) → ℂ) (i : FlatIdx fx fy) : ℂ := kx i.modNat

/-- `np.tile(ky.reshape((-1, 1)), ff_x).flatten()` (transfer_method.py:170, 415). -/
def tileY {fx fy : ℕ} (ky : Fin (2 * fy + 1) → ℂ) (i : FlatIdx fx fy) : ℂ := ky i.divNat

/-- `kz = ((n**2 - kx**2 - ky.reshape((-1,1))**2) ** 0.5).flatten().conj()`
(transfer_method.py:146-150, 391-395).  `kx`, `ky` are given per flat index. -/
noncomputable def kz2d {m : Type} (nn : ℂ) (kx ky : m → ℂ) (i : m) : ℂ :=
  star (csqrt (nn ^ 2 - kx i ^ 2 - ky i ^ 2))

/-- `np.arctan(ky / kx)` for one order (transfer_method.py:152, 397).  `0/0` is NaN (`none`), and
`ky/0` is an infinity whose arctangent is ±π/2 (sign of the real part of `ky`). -/
noncomputable def varphi1 (kx ky : ℂ) : Option ℂ :=
  if kx = 0 then
    if ky = 0 then none
    else some (if ky.re < 0 then -((Real.pi / 2 : ℝ) : ℂ) else ((Real.pi / 2 : ℝ) : ℂ))
  else some (Complex.arctan (ky / kx))

open Classical in
/-- `varphi` for all orders; NaN anywhere poisons every later matrix.
on_numpy/emsolver/transfer_method.py:152, 397 -/
noncomputable def varphiAll {m : Type} (kx ky : m → ℂ) : Res (m → ℂ) :=
  if h : ∀ i, (varphi1 (kx i) (ky i)).isSome then .ok (fun i => (varphi1 (kx i) (ky i)).get (h i))
  else .error .nan

/-- `transfer_1d_conical_1` (transfer_method.py:138-159) and `transfer_2d_1` (383-404), which have
identical bodies: `kz_top, kz_bot, varphi, big_F, big_G, big_T`. -/
noncomputable def transfer_2d_1 {m : Type} [Fintype m] [DecidableEq m] (kx ky : m → ℂ)
    (n_top n_bot : ℂ) : Res ((m → ℂ) × (m → ℂ) × (m → ℂ) × TState (m ⊕ m)) := do
  let kz_top := kz2d n_top kx ky
  let kz_bot := kz2d n_bot kx ky
  let varphi ← varphiAll kx ky
  let Kz_bot := diagonal kz_bot
  .ok (kz_top, kz_bot, varphi,
    { F := fromBlocks 1 0 0 (((1 : ℂ) / n_bot ^ 2) • (Complex.I • Kz_bot)),
      G := fromBlocks (Complex.I • Kz_bot) 0 0 1,
      T := 1 })

/-- Modes of the conical solver: `W = [W_1, W_2]` is not square, so its two halves are kept apart
(transfer_method.py:162-203). -/
structure ConModes (m : Type) where
  W1 : Matrix m m ℂ
  W2 : Matrix m m ℂ
  V11 : Matrix m m ℂ
  V12 : Matrix m m ℂ
  V21 : Matrix m m ℂ
  V22 : Matrix m m ℂ
  q1 : m → ℂ
  q2 : m → ℂ

/-- `transfer_1d_conical_2` (transfer_method.py:162-203). -/
noncomputable def transfer_1d_conical_2 {m : Type} [Fintype m] [DecidableEq m] (la : LinAlg)
    (kx ky : m → ℂ) (c : Conv m) (use_pinv : Bool) : Res (ConModes m) := do
  let Kx := diagonal kx
  let Ky := diagonal ky
  let A := diagonal (fun i => kx i ^ 2) - c.epy
  let B := Kx * c.epzi * Kx - 1
  let Omega2_RL := diagonal (fun i => ky i ^ 2) + A
  let Omega2_LR := diagonal (fun i => ky i ^ 2) + B * c.epx
  let ew1 := la.eig Omega2_RL
  let ew2 := la.eig Omega2_LR
  let q1 := fun i => csqrt (ew1.1 i)
  let q2 := fun i => csqrt (ew2.1 i)
  let A_i ← meeinv la A use_pinv
  let B_i ← meeinv la B use_pinv
  .ok { W1 := ew1.2, W2 := ew2.2,
        V11 := A_i * ew1.2 * diagonal q1,
        V12 := Ky * A_i * Kx * ew2.2,
        V21 := Ky * B_i * Kx * c.epzi * ew1.2,
        V22 := B_i * ew2.2 * diagonal q2,
        q1 := q1, q2 := q2 }

/-- `big_X = np.block([[X_1, O], [O, X_2]])` (transfer_method.py:235, 478). -/
noncomputable def bigX {m : Type} [DecidableEq m] (k0 : ℝ) (q1 q2 : m → ℂ) (d : ℝ) :
    Matrix (m ⊕ m) (m ⊕ m) ℂ :=
  fromBlocks (phaseX k0 q1 d) 0 0 (phaseX k0 q2 d)

/-- `transfer_1d_conical_3` (transfer_method.py:206-255). -/
noncomputable def transfer_1d_conical_3 {m : Type} [Fintype m] [DecidableEq m] (la : LinAlg)
    (k0 : ℝ) (M : ConModes m) (d : ℝ) (varphi : m → ℂ) (s : TState (m ⊕ m)) (use_pinv : Bool) :
    Res (TState (m ⊕ m) × Matrix (m ⊕ m) (m ⊕ m) ℂ × Matrix (m ⊕ m) (m ⊕ m) ℂ) :=
  let F_c := diagonal (fun i => Complex.cos (varphi i))
  let F_s := diagonal (fun i => Complex.sin (varphi i))
  let V_ss := F_c * M.V11
  let V_sp := F_c * M.V12 - F_s * M.W2
  let W_ss := F_c * M.W1 + F_s * M.V21
  let W_sp := F_s * M.V22
  let W_ps := F_s * M.V11
  let W_pp := F_c * M.W2 + F_s * M.V12
  let V_ps := F_c * M.V21 - F_s * M.W1
  let V_pp := F_c * M.V22
  let big_W := fromBlocks V_ss V_sp W_ps W_pp
  let big_V := fromBlocks W_ss W_sp V_ps V_pp
  tmmStep la use_pinv (bigX k0 M.q1 M.q2 d) big_W big_V s

/-- `Omega2_LR` of the 2D solver (transfer_method.py:420-424). -/
noncomputable def omega2LR {m : Type} [Fintype m] [DecidableEq m] (kx ky : m → ℂ) (c : Conv m) :
    Matrix (m ⊕ m) (m ⊕ m) ℂ :=
  let Kx := diagonal kx
  let Ky := diagonal ky
  let B := Kx * c.epzi * Kx - 1
  let D := Ky * c.epzi * Ky - 1
  fromBlocks (diagonal (fun i => ky i ^ 2) + B * c.epx) (Kx * (c.epzi * Ky * c.epy - Ky))
    (Ky * (c.epzi * Kx * c.epx - Kx)) (diagonal (fun i => kx i ^ 2) + D * c.epy)

/-- `Omega_R` (transfer_method.py:434-439). -/
noncomputable def omegaR {m : Type} [Fintype m] [DecidableEq m] (kx ky : m → ℂ) (c : Conv m) :
    Matrix (m ⊕ m) (m ⊕ m) ℂ :=
  let Kx := diagonal kx
  let Ky := diagonal ky
  fromBlocks (-Kx * Ky) (diagonal (fun i => kx i ^ 2) - c.epy)
    (c.epx - diagonal (fun i => ky i ^ 2)) (Ky * Kx)

/-- `transfer_2d_2` (transfer_method.py:407-443). -/
noncomputable def transfer_2d_2 {m : Type} [Fintype m] [DecidableEq m] (la : LinAlg)
    (kx ky : m → ℂ) (c : Conv m) (use_pinv : Bool) : Res (Modes (m ⊕ m)) := do
  let ew := la.eig (omega2LR kx ky c)
  let q := fun i => csqrt (ew.1 i)
  let Q_i ← meeinv la (diagonal q) use_pinv
  .ok { W := ew.2, V := omegaR kx ky c * ew.2 * Q_i, q := q }

/-- The s/p rotated `big_W` of the 2D solver (transfer_method.py:468-471, 479). -/
noncomputable def bigW2d {m : Type} [Fintype m] [DecidableEq m] (varphi : m → ℂ)
    (W : Matrix (m ⊕ m) (m ⊕ m) ℂ) : Matrix (m ⊕ m) (m ⊕ m) ℂ :=
  let F_c := diagonal (fun i => Complex.cos (varphi i))
  let F_s := diagonal (fun i => Complex.sin (varphi i))
  fromBlocks (F_c * W.toBlocks₂₁ - F_s * W.toBlocks₁₁) (F_c * W.toBlocks₂₂ - F_s * W.toBlocks₁₂)
    (F_c * W.toBlocks₁₁ + F_s * W.toBlocks₂₁) (F_c * W.toBlocks₁₂ + F_s * W.toBlocks₂₂)

/-- The s/p rotated `big_V` of the 2D solver (transfer_method.py:473-476, 480). -/
noncomputable def bigV2d {m : Type} [Fintype m] [DecidableEq m] (varphi : m → ℂ)
    (V : Matrix (m ⊕ m) (m ⊕ m) ℂ) : Matrix (m ⊕ m) (m ⊕ m) ℂ :=
  let F_c := diagonal (fun i => Complex.cos (varphi i))
  let F_s := diagonal (fun i => Complex.sin (varphi i))
  fromBlocks (F_c * V.toBlocks₁₁ + F_s * V.toBlocks₂₁) (F_c * V.toBlocks₁₂ + F_s * V.toBlocks₂₂)
    (F_c * V.toBlocks₂₁ - F_s * V.toBlocks₁₁) (F_c * V.toBlocks₂₂ - F_s * V.toBlocks₁₂)

/-- `transfer_2d_3` (transfer_method.py:446-499). -/
noncomputable def transfer_2d_3 {m : Type} [Fintype m] [DecidableEq m] (la : LinAlg)
    (k0 : ℝ) (M : Modes (m ⊕ m)) (d : ℝ) (varphi : m → ℂ) (s : TState (m ⊕ m)) (use_pinv : Bool) :
    Res (TState (m ⊕ m) × Matrix (m ⊕ m) (m ⊕ m) ℂ × Matrix (m ⊕ m) (m ⊕ m) ℂ) :=
  tmmStep la use_pinv (bigX k0 (fun i => M.q (.inl i)) (fun i => M.q (.inr i)) d)
    (bigW2d varphi M.W) (bigV2d varphi M.V) s

/-- `final_A` (transfer_method.py:284-291, 528-535), rows and columns in halves of halves. -/
noncomputable def finalA {m : Type} [Fintype m] [DecidableEq m] (n_top : ℂ) (kz_top : m → ℂ)
    (s : TState (m ⊕ m)) : Matrix ((m ⊕ m) ⊕ (m ⊕ m)) ((m ⊕ m) ⊕ (m ⊕ m)) ℂ :=
  let Kz_top := diagonal kz_top
  fromBlocks
    (fromBlocks 1 0 0 (-(((1 : ℂ) / n_top ^ 2) • (Complex.I • Kz_top)))) (-s.F)
    (fromBlocks (-(Complex.I • Kz_top)) 0 0 1) (-s.G)

/-- `final_B` for polarization angle `psi` (transfer_method.py:292-299). -/
noncomputable def finalB {m : Type} (delta : m → ℂ) (psi theta n_top : ℂ) :
    (m ⊕ m) ⊕ (m ⊕ m) → ℂ
  | .inl (.inl i) => -Complex.sin psi * delta i
  | .inl (.inr i) => Complex.cos psi * Complex.cos theta * delta i
  | .inr (.inl i) => -Complex.I * Complex.sin psi * n_top * Complex.cos theta * delta i
  | .inr (.inr i) => -Complex.I * n_top * Complex.cos psi * delta i

/-- One result dictionary from the solution vector `final_RT` (transfer_method.py:304-327 and, with
the same formulas, 352-376).  `de = de_s + de_p`. -/
noncomputable def subResOf {fx fy : ℕ} (s : TState (FlatIdx fx fy ⊕ FlatIdx fx fy))
    (kz_top kz_bot : FlatIdx fx fy → ℂ) (theta n_top n_bot : ℂ)
    (rt : (FlatIdx fx fy ⊕ FlatIdx fx fy) ⊕ (FlatIdx fx fy ⊕ FlatIdx fx fy) → ℂ) :
    SubRes (2 * fy + 1) (2 * fx + 1) :=
  let R_s := fun i => rt (.inl (.inl i))
  let R_p := fun i => rt (.inl (.inr i))
  let T1 := fun i => rt (.inr i)
  let T := s.T *ᵥ T1
  let T_s := fun i => T (.inl i)
  let T_p := fun i => T (.inr i)
  let kinc := n_top * Complex.cos theta
  let de_ri_s := fun i => effOf (R_s i) (kz_top i / kinc)
  let de_ri_p := fun i => effOf (R_p i) (kz_top i / n_top ^ 2 / kinc)
  let de_ti_s := fun i => effOf (T_s i) (kz_bot i / kinc)
  let de_ti_p := fun i => effOf (T_p i) (kz_bot i / n_bot ^ 2 / kinc)
  let grid : {α : Type} → (FlatIdx fx fy → α) → Fin (2 * fy + 1) → Fin (2 * fx + 1) → α :=
    fun f y x => f (finProdFinEquiv (y, x))
  { R_s := grid R_s, R_p := grid R_p, T_s := grid T_s, T_p := grid T_p,
    de_ri_s := grid de_ri_s, de_ri_p := grid de_ri_p,
    de_ri := grid (fun i => de_ri_s i + de_ri_p i),
    de_ti_s := grid de_ti_s, de_ti_p := grid de_ti_p,
    de_ti := grid (fun i => de_ti_s i + de_ti_p i) }

/-- Results of the conical / 2D solvers: `res`, `res_te_inc`, `res_tm_inc` and the three `big_T1`
vectors (psi, te, tm).
on_numpy/emsolver/transfer_method.py:258-380, 502-624 -/
structure Out4 (fx fy : ℕ) where
  res : SubRes (2 * fy + 1) (2 * fx + 1)
  res_te : SubRes (2 * fy + 1) (2 * fx + 1)
  res_tm : SubRes (2 * fy + 1) (2 * fx + 1)
  T1 : FlatIdx fx fy ⊕ FlatIdx fx fy → ℂ
  T1_te : FlatIdx fx fy ⊕ FlatIdx fx fy → ℂ
  T1_tm : FlatIdx fx fy ⊕ FlatIdx fx fy → ℂ

/-- `transfer_1d_conical_4` (transfer_method.py:258-380) and `transfer_2d_4` (502-625), which have
identical bodies. -/
noncomputable def transfer_2d_4 {fx fy : ℕ} (la : LinAlg)
    (s : TState (FlatIdx fx fy ⊕ FlatIdx fx fy)) (kz_top kz_bot : FlatIdx fx fy → ℂ)
    (psi theta n_top n_bot : ℂ) (use_pinv : Bool) : Res (Out4 fx fy) := do
  let delta : FlatIdx fx fy → ℂ := deltaI0
  let A_inv ← meeinv la (finalA n_top kz_top s) use_pinv
  let rt := A_inv *ᵥ finalB delta psi theta n_top
  let rt_te := A_inv *ᵥ finalB delta ((Real.pi / 2 : ℝ) : ℂ) theta n_top
  let rt_tm := A_inv *ᵥ finalB delta 0 theta n_top
  let mk := subResOf s kz_top kz_bot theta n_top n_bot
  .ok { res := mk rt, res_te := mk rt_te, res_tm := mk rt_tm,
        T1 := fun i => rt (.inr i), T1_te := fun i => rt_te (.inr i),
        T1_tm := fun i => rt_tm (.inr i) }

/-- Saved information of one layer of the conical solver (`layer_info`, _base.py:326). -/
structure LayerInfoCon (m : Type) where
  epzi : Matrix m m ℂ
  modes : ConModes m
  d : ℝ
  A_i : Matrix (m ⊕ m) (m ⊕ m) ℂ
  B : Matrix (m ⊕ m) (m ⊕ m) ℂ

/-- Loop body of `solve_1d_conical` (_base.py:310-327). -/
noncomputable def stepCon {m : Type} [Fintype m] [DecidableEq m] (la : LinAlg) (use_pinv : Bool)
    (k0 : ℝ) (kx ky varphi : m → ℂ) (c : Conv m) (d : ℝ) (s : TState (m ⊕ m)) :
    Res (TState (m ⊕ m) × LayerInfoCon m) := do
  let M ← transfer_1d_conical_2 la kx ky c use_pinv
  let r ← transfer_1d_conical_3 la k0 M d varphi s use_pinv
  .ok (r.1, { epzi := c.epzi, modes := M, d := d, A_i := r.2.1, B := r.2.2 })

/-- Loop body of `solve_2d` (_base.py:370-386). -/
noncomputable def step2d {m : Type} [Fintype m] [DecidableEq m] (la : LinAlg) (use_pinv : Bool)
    (k0 : ℝ) (kx ky varphi : m → ℂ) (c : Conv m) (d : ℝ) (s : TState (m ⊕ m)) :
    Res (TState (m ⊕ m) × LayerInfo m (m ⊕ m)) := do
  let M ← transfer_2d_2 la kx ky c use_pinv
  let r ← transfer_2d_3 la k0 M d varphi s use_pinv
  .ok (r.1, { epzi := c.epzi, modes := M, d := d, A_i := r.2.1, B := r.2.2 })

/-- What `solve_1d_conical` leaves behind.
on_numpy/emsolver/_base.py:330-341 -/
structure OutCon (fx fy : ℕ) where
  out : Out4 fx fy
  infos : List (LayerInfoCon (FlatIdx fx fy))

/-- What `solve_2d` leaves behind.
on_numpy/emsolver/_base.py:397-418 -/
structure Out2D (fx fy : ℕ) where
  out : Out4 fx fy
  infos : List (LayerInfo (FlatIdx fx fy) (FlatIdx fx fy ⊕ FlatIdx fx fy))

/-- `solve_1d_conical` with `connecting_algo == 'TMM'` (_base.py:286-341).  `ff_y = 1` is
hard-coded there, so with `fto[1] > 0` the `reshape((ff_y, ff_x))` at the start of
`transfer_1d_conical_4` raises `ValueError`. -/
noncomputable def solve_1d_conical (la : LinAlg) (p : Params) (wavelength : ℝ)
    (convs : List (Conv (FlatIdx p.fto.1 p.fto.2))) : Res (OutCon p.fto.1 p.fto.2) := do
  let k0 := 2 * Real.pi / wavelength
  let kx := tileX (fy := p.fto.2) (kxVec p wavelength)
  let ky := tileY (fx := p.fto.1) (kyVec p wavelength)
  let init ← transfer_2d_1 kx ky p.n_top p.n_bot
  let r ← layerLoop (stepCon la p.use_pinv k0 kx ky init.2.2.1) convs p.thickness
    p.thickness.length (init.2.2.2, [])
  if p.fto.2 ≠ 0 then .error .valueError
  else do
    let o ← transfer_2d_4 la r.1 init.1 init.2.1 p.psi p.theta p.n_top p.n_bot p.use_pinv
    .ok { out := o, infos := r.2 }

/-- `solve_2d` with `connecting_algo == 'TMM'` (_base.py:343-418). -/
noncomputable def solve_2d (la : LinAlg) (p : Params) (wavelength : ℝ)
    (convs : List (Conv (FlatIdx p.fto.1 p.fto.2))) : Res (Out2D p.fto.1 p.fto.2) := do
  let k0 := 2 * Real.pi / wavelength
  let kx := tileX (fy := p.fto.2) (kxVec p wavelength)
  let ky := tileY (fx := p.fto.1) (kyVec p wavelength)
  let init ← transfer_2d_1 kx ky p.n_top p.n_bot
  let r ← layerLoop (step2d la p.use_pinv k0 kx ky init.2.2.1) convs p.thickness
    p.thickness.length (init.2.2.2, [])
  let o ← transfer_2d_4 la r.1 init.1 init.2.1 p.psi p.theta p.n_top p.n_bot p.use_pinv
  .ok { out := o, infos := r.2 }

end Meent
