import Verif.Model.Field

/-!
# Specification vocabulary: fields at the interfaces

Tangential fields of plane waves above and below the stack, and what it means that the sampled fields
of a stack are continuous and match these waves.
-/

namespace Meent.Spec

/-- The tangential components `(Ex, Ey, Hx, Hy)`. -/
structure Tangential where
  Ex : ℂ
  Ey : ℂ
  Hx : ℂ
  Hy : ℂ

instance : Add Tangential := ⟨fun a b => ⟨a.Ex + b.Ex, a.Ey + b.Ey, a.Hx + b.Hx, a.Hy + b.Hy⟩⟩

/-- Multiple of a tangential field. -/
def Tangential.scale (c : ℂ) (a : Tangential) : Tangential :=
  ⟨c * a.Ex, c * a.Ey, c * a.Hx, c * a.Hy⟩

/-- A plane wave in a medium of index `n` whose in-plane direction has azimuth `φ` and whose normal
wavenumber is `κ` (positive: downwards).  `e` is the amplitude of its s part, with the electric field
along `(-sin φ, cos φ)`; `h` the amplitude of its p part, with the magnetic field along that
direction. -/
noncomputable def planeWave (n φ κ e h : ℂ) : Tangential where
  Ex := e * (-Complex.sin φ) - κ / n ^ 2 * h * Complex.cos φ
  Ey := e * Complex.cos φ - κ / n ^ 2 * h * Complex.sin φ
  Hx := κ * e * Complex.cos φ - h * Complex.sin φ
  Hy := κ * e * Complex.sin φ + h * Complex.cos φ

/-- Normal wavenumber of an order (`C09` says when this is the physical one). -/
noncomputable def kzOf (n kx ky : ℂ) : ℂ := star (csqrt (n ^ 2 - kx ^ 2 - ky ^ 2))

/-- Azimuth of an in-plane wavevector, as an angle in `[-π/2, π/2]`. -/
noncomputable def azimuth (kx ky : ℂ) : ℂ :=
  if kx = 0 then (if ky.re < 0 then -((Real.pi / 2 : ℝ) : ℂ) else ((Real.pi / 2 : ℝ) : ℂ))
  else Complex.arctan (ky / kx)

/-- `w` is the superposition over all orders of the waves `f jy jx`, at the point `(x, y)`. -/
noncomputable def superpose (p : Params) (x y : ℝ)
    (f : Fin (2 * p.fto.2 + 1) → Fin (2 * p.fto.1 + 1) → Tangential) (w : Tangential) : Prop :=
  let e := fun jy jx => Complex.exp (-Complex.I * (((2 * Real.pi / p.wavelength : ℝ) : ℂ) *
    ((x : ℂ) * kxVec p p.wavelength jx + (y : ℂ) * kyVec p p.wavelength jy)))
  w.Ex = ∑ jy, ∑ jx, e jy jx * (f jy jx).Ex ∧ w.Ey = ∑ jy, ∑ jx, e jy jx * (f jy jx).Ey ∧
  w.Hx = ∑ jy, ∑ jx, e jy jx * (f jy jx).Hx ∧ w.Hy = ∑ jy, ∑ jx, e jy jx * (f jy jx).Hy

/-- One on the incident order, zero on the others. -/
def incidentOrder {fx fy : ℕ} (jy : Fin (2 * fy + 1)) (jx : Fin (2 * fx + 1)) : ℂ :=
  if jy.val = fy ∧ jx.val = fx then 1 else 0

/-- Incident wave of polarization angle `ψ` plus the reflected waves reported in `r`, order by order. -/
noncomputable def above (p : Params) (ψ : ℂ) (r : SubRes (2 * p.fto.2 + 1) (2 * p.fto.1 + 1))
    (jy : Fin (2 * p.fto.2 + 1)) (jx : Fin (2 * p.fto.1 + 1)) : Tangential :=
  let kx := kxVec p p.wavelength jx
  let ky := kyVec p p.wavelength jy
  planeWave p.n_top (azimuth kx ky) (p.n_top * Complex.cos p.theta)
      (Complex.sin ψ * incidentOrder jy jx) (p.n_top * Complex.cos ψ * incidentOrder jy jx)
    + planeWave p.n_top (azimuth kx ky) (-kzOf p.n_top kx ky) (r.R_s jy jx) (-Complex.I * r.R_p jy jx)

/-- The transmitted waves reported in `r`, order by order. -/
noncomputable def below (p : Params) (r : SubRes (2 * p.fto.2 + 1) (2 * p.fto.1 + 1))
    (jy : Fin (2 * p.fto.2 + 1)) (jx : Fin (2 * p.fto.1 + 1)) : Tangential :=
  let kx := kxVec p p.wavelength jx
  let ky := kyVec p p.wavelength jy
  planeWave p.n_bot (azimuth kx ky) (kzOf p.n_bot kx ky) (r.T_s jy jx) (-Complex.I * r.T_p jy jx)

/-- Tangential part of the six reported components. -/
def tangential6 (f : Field6) : Tangential := ⟨f.Ex, f.Ey, f.Hx, f.Hy⟩

/-- Tangential part of the three reported components of a TE (`Ey, Hx`) or TM (`Hy, Ex`) solve; the
other polarization is absent. -/
noncomputable def tangential3 (pol : ℝ) (f : Field3) : Tangential :=
  if pol = 0 then ⟨0, f.Fy, f.Fx, 0⟩ else ⟨f.Fx, 0, 0, f.Fy⟩

/-- Incident plus reflected wave of a TE/TM solve: unit amplitude of `Ey` (TE) or `Hy` (TM). -/
noncomputable def above1d (p : Params) (r : SubRes 1 (2 * p.fto.1 + 1)) (jx : Fin (2 * p.fto.1 + 1)) :
    Tangential :=
  let kx := kxVec p p.wavelength jx
  let d : ℂ := if jx.val = p.fto.1 then 1 else 0
  if p.pol = 0 then
    planeWave p.n_top 0 (p.n_top * Complex.cos p.theta) d 0
      + planeWave p.n_top 0 (-kzOf p.n_top kx 0) (r.R_s 0 jx) 0
  else
    planeWave p.n_top 0 (p.n_top * Complex.cos p.theta) 0 d
      + planeWave p.n_top 0 (-kzOf p.n_top kx 0) 0 (r.R_p 0 jx)

/-- Transmitted waves of a TE/TM solve. -/
noncomputable def below1d (p : Params) (r : SubRes 1 (2 * p.fto.1 + 1)) (jx : Fin (2 * p.fto.1 + 1)) :
    Tangential :=
  let kx := kxVec p p.wavelength jx
  if p.pol = 0 then planeWave p.n_bot 0 (kzOf p.n_bot kx 0) (r.T_s 0 jx) 0
  else planeWave p.n_bot 0 (kzOf p.n_bot kx 0) 0 (r.T_p 0 jx)

/-- The same superposition for a problem without y orders, along the line `y = 0`. -/
noncomputable def superpose1d (p : Params) (x : ℝ) (f : Fin (2 * p.fto.1 + 1) → Tangential)
    (w : Tangential) : Prop :=
  let e := fun jx => Complex.exp (-Complex.I * (((2 * Real.pi / p.wavelength : ℝ) : ℂ) *
    ((x : ℂ) * kxVec p p.wavelength jx)))
  w.Ex = ∑ jx, e jx * (f jx).Ex ∧ w.Ey = ∑ jx, e jx * (f jx).Ey ∧
  w.Hx = ∑ jx, e jx * (f jx).Hx ∧ w.Hy = ∑ jx, e jx * (f jx).Hy

/-- The x coordinate of sample `i`: `n` points from `0` to the period, both ends included. -/
noncomputable def samplePoint (period : ℝ) (n : ℕ) (i : Fin n) : ℝ :=
  if n = 1 then 0 else (i : ℝ) * period / ((n : ℝ) - 1)

/-- Field samples `cell` (a list of layers, topmost first, each indexed `[z, y, x]`) with tangential part
`tan` are continuous at every interface: the last sample of a layer is the first of the next one. -/
def ContinuousInside {rx ry rz : ℕ} {α : Type} (tan : α → Tangential) (cell : List (Block rx ry rz α)) : Prop :=
  ∀ (k : ℕ) (a b : Block rx ry rz α), cell[k]? = some a → cell[k + 1]? = some b →
    ∀ (top bottom : Fin rz), top.val = 0 → bottom.val + 1 = rz → 2 ≤ rz →
      ∀ iy ix, tan (a bottom iy ix) = tan (b top iy ix)

/-- The first samples of the topmost layer satisfy `P`. -/
def AtTop {rx ry rz : ℕ} {α : Type} (cell : List (Block rx ry rz α)) (P : Fin ry → Fin rx → α → Prop) : Prop :=
  ∀ a, cell.head? = some a → ∀ top : Fin rz, top.val = 0 → ∀ iy ix, P iy ix (a top iy ix)

/-- The last samples of the lowest layer satisfy `P`. -/
def AtBottom {rx ry rz : ℕ} {α : Type} (cell : List (Block rx ry rz α)) (P : Fin ry → Fin rx → α → Prop) : Prop :=
  ∀ a, cell.getLast? = some a → ∀ bottom : Fin rz, bottom.val + 1 = rz → 2 ≤ rz →
    ∀ iy ix, P iy ix (a bottom iy ix)

/-- The samples of a TE/TM solve are continuous and match the outside waves. -/
structure Matched1d (p : Params) (r : SubRes 1 (2 * p.fto.1 + 1)) {rx rz : ℕ}
    (cell : List (Block rx 1 rz Field3)) : Prop where
  inside : ContinuousInside (tangential3 p.pol) cell
  top : AtTop cell fun _ ix f =>
    superpose1d p (samplePoint p.period.1 rx ix) (above1d p r) (tangential3 p.pol f)
  bottom : AtBottom cell fun _ ix f =>
    superpose1d p (samplePoint p.period.1 rx ix) (below1d p r) (tangential3 p.pol f)

/-- The samples for incident polarization angle `ψ` are continuous and match the outside waves.  Row `iy`
of the samples counts from the far end of the y axis. -/
structure Matched (p : Params) (ψ : ℂ) (r : SubRes (2 * p.fto.2 + 1) (2 * p.fto.1 + 1)) {rx ry rz : ℕ}
    (cell : List (Block rx ry rz Field6)) : Prop where
  inside : ContinuousInside tangential6 cell
  top : AtTop cell fun iy ix f =>
    superpose p (samplePoint p.period.1 rx ix) (samplePoint p.period.2 ry iy.rev) (above p ψ r) (tangential6 f)
  bottom : AtBottom cell fun iy ix f =>
    superpose p (samplePoint p.period.1 rx ix) (samplePoint p.period.2 ry iy.rev) (below p r) (tangential6 f)

/-- The incident polarization angles and dictionaries selected by `set_field_input`. -/
noncomputable def selectedInputs {a b : ℕ} (ψ : ℂ) (res res_te res_tm : SubRes a b) (sel : Bool × Bool × Bool) :
    List (ℂ × SubRes a b) :=
  (if sel.1 then [(ψ, res)] else []) ++ (if sel.2.1 then [(((Real.pi / 2 : ℝ) : ℂ), res_te)] else []) ++
    (if sel.2.2 then [(0, res_tm)] else [])

/-- The fields `cell` describe the solve `r`: one block per layer, continuous and matched, for every selected
incident wave. -/
def Describes (p : Params) {rx ry rz : ℕ} : Solved p.fto.1 p.fto.2 → Bool × Bool × Bool → FieldCell rx ry rz → Prop
  | .tetm o, _, .tetm cell => cell.length = p.thickness.length ∧ Matched1d p o.res cell
  | .conical o, sel, .vector cells => List.Forall₂ (fun i cell => cell.length = p.thickness.length ∧ Matched p i.1 i.2 cell)
      (selectedInputs p.psi o.out.res o.out.res_te o.out.res_tm sel) cells
  | .twoD o, sel, .vector cells => List.Forall₂ (fun i cell => cell.length = p.thickness.length ∧ Matched p i.1 i.2 cell)
      (selectedInputs p.psi o.out.res o.out.res_te o.out.res_tm sel) cells
  | _, _, _ => False

end Meent.Spec
