import Verif.Model.Rcwa

/-!
# `calculate_field`: sampled fields inside the stack

/repo/meent/on_numpy/emsolver/field_distribution.py and rcwa.py:201-224.

The first axis of the returned array has `res_z` entries per layer, the topmost layer first; the model
keeps the blocks `field_cell[res_z * k : res_z * (k + 1)]` apart as the entries of a list.
-/

open Matrix

namespace Meent

/-- `np.linspace(a, b, n)[i]`.
on_numpy/emsolver/field_distribution.py:21, 34, 102, 123, 128 -/
noncomputable def linspace (a b : ℝ) (n : ℕ) (i : Fin n) : ℝ :=
  if n = 1 then a else a + (i : ℝ) * ((b - a) / ((n : ℝ) - 1))

/-- Depth of sample `i` in a layer of thickness `d`: `np.linspace(0, res_z, res_z) / res_z * d`
(field_distribution.py:22, 104, 201). -/
noncomputable def zSample (res_z : ℕ) (d : ℝ) (i : Fin res_z) : ℝ :=
  linspace 0 res_z res_z i / res_z * d

/-- `d_exp(-k0 * Q * z)` (field_distribution.py:306-310): wave travelling down. -/
noncomputable def expDown {n : Type} [DecidableEq n] (k0 : ℝ) (q : n → ℂ) (z : ℝ) : Matrix n n ℂ :=
  diagonal (fun i => Complex.exp (-(k0 : ℂ) * q i * (z : ℂ)))

/-- `d_exp(k0 * Q * (z - d))`: wave travelling up.
on_numpy/emsolver/field_distribution.py:23-24, 112-117, 214-229, 306-310 -/
noncomputable def expUp {n : Type} [DecidableEq n] (k0 : ℝ) (q : n → ℂ) (d z : ℝ) : Matrix n n ℂ :=
  diagonal (fun i => Complex.exp ((k0 : ℂ) * q i * ((z - d : ℝ) : ℂ)))

/-- The three components returned for TE/TM (field_distribution.py:53). -/
structure Field3 where
  Fy : ℂ
  Fx : ℂ
  Fz : ℂ

/-- The six components returned otherwise (field_distribution.py:156-157, 257-258). -/
structure Field6 where
  Ex : ℂ
  Ey : ℂ
  Ez : ℂ
  Hx : ℂ
  Hy : ℂ
  Hz : ℂ

/-- One layer of the returned array, indexed `[z, y, x]`.
on_numpy/emsolver/field_distribution.py:53-54, 154-158 -/
abbrev Block (res_x res_y res_z : ℕ) (α : Type) : Type := Fin res_z → Fin res_y → Fin res_x → α

/-- Amplitudes `My, Mx, Mz` of the orders at depth `z` (field_distribution.py:17-30). -/
noncomputable def amps1d {n : Type} [Fintype n] [DecidableEq n] (k0 : ℝ) (pol : ℝ) (kx : n → ℂ)
    (L : LayerInfo n n) (T : n → ℂ) (z : ℝ) : (n → ℂ) × (n → ℂ) × (n → ℂ) :=
  let X := phaseX k0 L.modes.q L.d
  let c1 := T
  let c2 := L.B *ᵥ L.A_i *ᵥ X *ᵥ T
  let Eu := expUp k0 L.modes.q L.d z
  let Ed := expDown k0 L.modes.q z
  let My := L.modes.W *ᵥ (Ed *ᵥ c1 + Eu *ᵥ c2)
  let Mx := L.modes.V *ᵥ (-Ed *ᵥ c1 + Eu *ᵥ c2)
  let Mz := if pol = 0 then (-Complex.I) • (diagonal kx *ᵥ My)
    else (-Complex.I) • (L.epzi *ᵥ diagonal kx *ᵥ My)
  (My, Mx, Mz)

/-- `inv_fourier[y, x, :]` of `field_dist_1d` (field_distribution.py:35-42). -/
noncomputable def invFourier1d {n : Type} (k0 : ℝ) (kx : n → ℂ) (x : ℝ) : n → ℂ :=
  fun i => Complex.exp (-Complex.I * ((x : ℂ) * kx i * (k0 : ℂ)))

/-- One pass of the layer loop of `field_dist_1d` (field_distribution.py:15-54). -/
noncomputable def block1d {n : Type} [Fintype n] [DecidableEq n] (k0 pol period_x : ℝ) (kx : n → ℂ)
    (res_x res_z : ℕ) (L : LayerInfo n n) (T : n → ℂ) : Block res_x 1 res_z Field3 :=
  fun iz _ ix =>
    let a := amps1d k0 pol kx L T (zSample res_z L.d iz)
    let e := invFourier1d k0 kx (linspace 0 period_x res_x ix)
    if pol = 0 then
      { Fy := e ⬝ᵥ a.1, Fx := Complex.I * (e ⬝ᵥ a.2.1), Fz := Complex.I * (e ⬝ᵥ a.2.2) }
    else
      { Fy := e ⬝ᵥ a.1, Fx := -Complex.I * (e ⬝ᵥ a.2.1), Fz := -Complex.I * (e ⬝ᵥ a.2.2) }

/-- The layer loop of `field_dist_1d`; the list is `layer_info_list[::-1]`
(field_distribution.py:15-56). -/
noncomputable def fieldLoop1d {n : Type} [Fintype n] [DecidableEq n] (k0 pol period_x : ℝ)
    (kx : n → ℂ) (res_x res_z : ℕ) :
    List (LayerInfo n n) → (n → ℂ) → List (Block res_x 1 res_z Field3)
  | [], _ => []
  | L :: Ls, T => block1d k0 pol period_x kx res_x res_z L T ::
      fieldLoop1d k0 pol period_x kx res_x res_z Ls (L.A_i *ᵥ phaseX k0 L.modes.q L.d *ᵥ T)

/-- `field_dist_1d` (field_distribution.py:4-58); `calculate_field` passes `res_y = 1`
(rcwa.py:206). -/
noncomputable def field_dist_1d (p : Params) (o : Out1D (2 * p.fto.1 + 1)) (res_x res_z : ℕ) :
    List (Block res_x 1 res_z Field3) :=
  fieldLoop1d (2 * Real.pi / p.wavelength) p.pol p.period.1 (kxVec p p.wavelength) res_x res_z
    o.infos.reverse o.T1

/-- The six amplitude vectors `Sx, Sy, Sz, Ux, Uy, Uz`.
on_numpy/emsolver/field_distribution.py:112-119, 214-232 -/
structure Amps6 (m : Type) where
  Sx : m → ℂ
  Sy : m → ℂ
  Sz : m → ℂ
  Ux : m → ℂ
  Uy : m → ℂ
  Uz : m → ℂ

/-- `Sz`, `Uz` from the transverse amplitudes (field_distribution.py:122-123, 231-232). -/
noncomputable def withZ {m : Type} [Fintype m] [DecidableEq m] (kx ky : m → ℂ)
    (epzi : Matrix m m ℂ) (Sx Sy Ux Uy : m → ℂ) : Amps6 m where
  Sx := Sx
  Sy := Sy
  Sz := (-Complex.I) • (epzi *ᵥ (diagonal kx *ᵥ Uy - diagonal ky *ᵥ Ux))
  Ux := Ux
  Uy := Uy
  Uz := (-Complex.I) • (diagonal kx *ᵥ Sy - diagonal ky *ᵥ Sx)

/-- Amplitudes at depth `z` in the conical solver (field_distribution.py:84-123).  `T` is one of the
selected vectors; `c1_plus, c2_plus` are its halves and `c1_minus, c2_minus` those of
`big_B @ big_A_i @ big_X @ T`. -/
noncomputable def ampsCon {m : Type} [Fintype m] [DecidableEq m] (k0 : ℝ) (kx ky : m → ℂ)
    (L : LayerInfoCon m) (T : m ⊕ m → ℂ) (z : ℝ) : Amps6 m :=
  let M := L.modes
  let c := L.B *ᵥ L.A_i *ᵥ bigX k0 M.q1 M.q2 L.d *ᵥ T
  let c1p := fun i => T (.inl i)
  let c2p := fun i => T (.inr i)
  let c1m := fun i => c (.inl i)
  let c2m := fun i => c (.inr i)
  let D1 := expDown k0 M.q1 z
  let D2 := expDown k0 M.q2 z
  let U1 := expUp k0 M.q1 L.d z
  let U2 := expUp k0 M.q2 L.d z
  let Sx := M.W2 *ᵥ (D2 *ᵥ c2p + U2 *ᵥ c2m)
  let Sy := M.V11 *ᵥ (D1 *ᵥ c1p + U1 *ᵥ c1m) + M.V12 *ᵥ (D2 *ᵥ c2p + U2 *ᵥ c2m)
  let Ux := M.W1 *ᵥ (-D1 *ᵥ c1p + U1 *ᵥ c1m)
  let Uy := M.V21 *ᵥ (-D1 *ᵥ c1p + U1 *ᵥ c1m) + M.V22 *ᵥ (-D2 *ᵥ c2p + U2 *ᵥ c2m)
  withZ kx ky L.epzi Sx Sy Ux Uy

/-- Amplitudes at depth `z` in the 2D solver (field_distribution.py:186-232). -/
noncomputable def amps2d {m : Type} [Fintype m] [DecidableEq m] (k0 : ℝ) (kx ky : m → ℂ)
    (L : LayerInfo m (m ⊕ m)) (T : m ⊕ m → ℂ) (z : ℝ) : Amps6 m :=
  let W := L.modes.W
  let V := L.modes.V
  let q1 := fun i => L.modes.q (.inl i)
  let q2 := fun i => L.modes.q (.inr i)
  let c := L.B *ᵥ L.A_i *ᵥ phaseX k0 L.modes.q L.d *ᵥ T
  let c1p := fun i => T (.inl i)
  let c2p := fun i => T (.inr i)
  let c1m := fun i => c (.inl i)
  let c2m := fun i => c (.inr i)
  let D1 := expDown k0 q1 z
  let D2 := expDown k0 q2 z
  let U1 := expUp k0 q1 L.d z
  let U2 := expUp k0 q2 L.d z
  let Sx := W.toBlocks₁₁ *ᵥ (D1 *ᵥ c1p + U1 *ᵥ c1m) + W.toBlocks₁₂ *ᵥ (D2 *ᵥ c2p + U2 *ᵥ c2m)
  let Sy := W.toBlocks₂₁ *ᵥ (D1 *ᵥ c1p + U1 *ᵥ c1m) + W.toBlocks₂₂ *ᵥ (D2 *ᵥ c2p + U2 *ᵥ c2m)
  let Ux := V.toBlocks₁₁ *ᵥ (-D1 *ᵥ c1p + U1 *ᵥ c1m) + V.toBlocks₁₂ *ᵥ (-D2 *ᵥ c2p + U2 *ᵥ c2m)
  let Uy := V.toBlocks₂₁ *ᵥ (-D1 *ᵥ c1p + U1 *ᵥ c1m) + V.toBlocks₂₂ *ᵥ (-D2 *ᵥ c2p + U2 *ᵥ c2m)
  withZ kx ky L.epzi Sx Sy Ux Uy

/-- `inv_fourier[y, x, :]` of the conical and 2D versions: `np.exp(-1j*x_2d) * np.exp(-1j*y_2d)`
flattened with the y order as the slow index (field_distribution.py:128-144, 236-249).  Here `kx` and
`ky` are given per flat index. -/
noncomputable def invFourier2d {m : Type} (k0 : ℝ) (kx ky : m → ℂ) (x y : ℝ) : m → ℂ :=
  fun i => Complex.exp (-Complex.I * ((x : ℂ) * kx i * (k0 : ℂ)))
    * Complex.exp (-Complex.I * ((y : ℂ) * ky i * (k0 : ℂ)))

/-- The six sampled components (field_distribution.py:146-159, 251-258).  Row `iy` is at
`np.linspace(0, period[1], res_y)[::-1][iy]`. -/
noncomputable def block6 {m : Type} [Fintype m] (k0 : ℝ) (period : ℝ × ℝ) (kx ky : m → ℂ)
    (res_x res_y res_z : ℕ) (d : ℝ) (amps : ℝ → Amps6 m) : Block res_x res_y res_z Field6 :=
  fun iz iy ix =>
    let a := amps (zSample res_z d iz)
    let e := invFourier2d k0 kx ky (linspace 0 period.1 res_x ix) (linspace 0 period.2 res_y iy.rev)
    { Ex := e ⬝ᵥ a.Sx, Ey := e ⬝ᵥ a.Sy, Ez := e ⬝ᵥ a.Sz,
      Hx := Complex.I * (e ⬝ᵥ a.Ux), Hy := Complex.I * (e ⬝ᵥ a.Uy), Hz := Complex.I * (e ⬝ᵥ a.Uz) }

/-- The layer loop of `field_dist_1d_conical` for one selected vector
(field_distribution.py:84-160). -/
noncomputable def fieldLoopCon {m : Type} [Fintype m] [DecidableEq m] (k0 : ℝ) (period : ℝ × ℝ)
    (kx ky : m → ℂ) (res_x res_y res_z : ℕ) :
    List (LayerInfoCon m) → (m ⊕ m → ℂ) → List (Block res_x res_y res_z Field6)
  | [], _ => []
  | L :: Ls, T => block6 k0 period kx ky res_x res_y res_z L.d (ampsCon k0 kx ky L T) ::
      fieldLoopCon k0 period kx ky res_x res_y res_z Ls
        (L.A_i *ᵥ bigX k0 L.modes.q1 L.modes.q2 L.d *ᵥ T)

/-- The layer loop of `field_dist_2d` for one selected vector (field_distribution.py:186-263). -/
noncomputable def fieldLoop2d {m : Type} [Fintype m] [DecidableEq m] (k0 : ℝ) (period : ℝ × ℝ)
    (kx ky : m → ℂ) (res_x res_y res_z : ℕ) :
    List (LayerInfo m (m ⊕ m)) → (m ⊕ m → ℂ) → List (Block res_x res_y res_z Field6)
  | [], _ => []
  | L :: Ls, T => block6 k0 period kx ky res_x res_y res_z L.d (amps2d k0 kx ky L T) ::
      fieldLoop2d k0 period kx ky res_x res_y res_z Ls
        (L.A_i *ᵥ phaseX k0 L.modes.q L.d *ᵥ T)

/-- `T1[list(set_field_input)]` (field_distribution.py:78, 180): the vectors of the chosen incident
waves.  `set_field_input` is a triple of booleans. -/
def selectT1 {fx fy : ℕ} (o : Out4 fx fy) (sel : Bool × Bool × Bool) :
    List (FlatIdx fx fy ⊕ FlatIdx fx fy → ℂ) :=
  (if sel.1 then [o.T1] else []) ++ (if sel.2.1 then [o.T1_te] else []) ++
    (if sel.2.2 then [o.T1_tm] else [])

/-- `field_dist_1d_conical` (field_distribution.py:61-162): one array per selected input. -/
noncomputable def field_dist_1d_conical (p : Params) (o : OutCon p.fto.1 p.fto.2)
    (res_x res_y res_z : ℕ) (sel : Bool × Bool × Bool) : List (List (Block res_x res_y res_z Field6)) :=
  (selectT1 o.out sel).map
    (fieldLoopCon (2 * Real.pi / p.wavelength) p.period (tileX (kxVec p p.wavelength))
      (tileY (kyVec p p.wavelength)) res_x res_y res_z o.infos.reverse)

/-- `field_dist_2d` (field_distribution.py:165-265). -/
noncomputable def field_dist_2d (p : Params) (o : Out2D p.fto.1 p.fto.2)
    (res_x res_y res_z : ℕ) (sel : Bool × Bool × Bool) : List (List (Block res_x res_y res_z Field6)) :=
  (selectT1 o.out sel).map
    (fieldLoop2d (2 * Real.pi / p.wavelength) p.period (tileX (kxVec p p.wavelength))
      (tileY (kyVec p p.wavelength)) res_x res_y res_z o.infos.reverse)

/-- The array returned by `calculate_field`.
on_numpy/emsolver/field_distribution.py:9, 74, 178 -/
inductive FieldCell (res_x res_y res_z : ℕ)
  | tetm (cell : List (Block res_x 1 res_z Field3))
  | vector (cells : List (List (Block res_x res_y res_z Field6)))

/-- `calculate_field` (rcwa.py:201-219) for settings `p` and the stored outcome `r` of the most recent
solve.  After an SMM solve `T1` is `None`, so `T1[...]` raises `TypeError`. -/
noncomputable def calculate_field (p : Params) (r : Solved p.fto.1 p.fto.2) (res_x res_y res_z : ℕ)
    (sel : Bool × Bool × Bool) : Res (FieldCell res_x res_y res_z) :=
  match r with
  | .tetm o => .ok (.tetm (field_dist_1d p o res_x res_z))
  | .conical o => .ok (.vector (field_dist_1d_conical p o res_x res_y res_z sel))
  | .conicalSmm => .error .typeError
  | .twoD o => .ok (.vector (field_dist_2d p o res_x res_y res_z sel))

/-- `conv_solve_field` (rcwa.py:221-224). -/
noncomputable def conv_solve_field (la : LinAlg) (s : Settings) (res_x res_y res_z : ℕ) (sel : Bool × Bool × Bool) :
    Res (Solved s.p.fto.1 s.p.fto.2 × FieldCell res_x res_y res_z) := do
  let r ← conv_solve la s
  let f ← calculate_field s.p r res_x res_y res_z sel
  .ok (r, f)

end Meent
