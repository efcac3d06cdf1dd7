import Mathlib.Analysis.Calculus.Deriv.Basic
import Verif.Spec.Fields

/-!
# Specification vocabulary: Maxwell's equations for the diffraction orders

The fields of a layer are sums over the diffraction orders `i` of amplitudes that depend on the depth alone, times
`exp(-i k0 (kx i x + ky i y))`, for the time dependence `exp(+i ω t)`.  The axes `x, y, z` are right-handed with `z`
pointing up, against the incident light; depths are measured downwards.  Magnetic fields are in units in which the
impedance of free space is one.  Products with the permittivity become products with convolution matrices.
-/

open Matrix

namespace Meent.Spec

/-- Amplitudes of the orders, as functions of the depth below the top of a layer. -/
structure OrderFields (m : Type) where
  Ex : ℝ → m → ℂ
  Ey : ℝ → m → ℂ
  Ez : ℝ → m → ℂ
  Hx : ℝ → m → ℂ
  Hy : ℝ → m → ℂ
  Hz : ℝ → m → ℂ

/-- `du` is the derivative of `u` along `z`, i.e. against the depth, at the depths `D`. -/
def DerivZ {m : Type} (D : Set ℝ) (u du : ℝ → m → ℂ) : Prop :=
  ∀ t ∈ D, ∀ i, HasDerivWithinAt (fun t => u t i) (-du t i) D t

/-- Maxwell's equations at the depths `D` of a layer: `curl E = -i k0 H`, `curl H = i k0 D` with `Dx = ε_x Ex`,
`Dy = ε_y Ey` and `Ez = ε_z⁻¹ Dz`, where the convolution matrices of the layer are `c`. -/
def Maxwell {m : Type} [Fintype m] (k0 : ℝ) (kx ky : m → ℂ) (c : Conv m) (D : Set ℝ) (f : OrderFields m) : Prop :=
  ∃ zEx zEy zHx zHy : ℝ → m → ℂ,
    DerivZ D f.Ex zEx ∧ DerivZ D f.Ey zEy ∧ DerivZ D f.Hx zHx ∧ DerivZ D f.Hy zHy ∧
    ∀ t ∈ D,
      let dx : (m → ℂ) → m → ℂ := fun u i => -Complex.I * k0 * kx i * u i
      let dy : (m → ℂ) → m → ℂ := fun u i => -Complex.I * k0 * ky i * u i
      dy (f.Ez t) - zEy t = (-Complex.I * k0) • f.Hx t ∧
      zEx t - dx (f.Ez t) = (-Complex.I * k0) • f.Hy t ∧
      dx (f.Ey t) - dy (f.Ex t) = (-Complex.I * k0) • f.Hz t ∧
      dy (f.Hz t) - zHy t = (Complex.I * k0) • (c.epx *ᵥ f.Ex t) ∧
      zHx t - dx (f.Hz t) = (Complex.I * k0) • (c.epy *ᵥ f.Ey t) ∧
      c.epzi *ᵥ (dx (f.Hy t) - dy (f.Hx t)) = (Complex.I * k0) • f.Ez t

/-- Tangential amplitudes of all orders at one depth. -/
def OrderFields.tan {m : Type} (f : OrderFields m) (t : ℝ) (i : m) : Tangential :=
  ⟨f.Ex t i, f.Ey t i, f.Hx t i, f.Hy t i⟩

/-- `fs` are fields in the layers `(c, d)` of a stack, topmost first: they solve Maxwell's equations throughout each
layer, their tangential parts are continuous from layer to layer, and equal `top` at the top and `bottom` at the
bottom of the stack. -/
def SolvesStack {m : Type} [Fintype m] (k0 : ℝ) (kx ky : m → ℂ) :
    List (Conv m × ℝ) → List (OrderFields m) → (m → Tangential) → (m → Tangential) → Prop
  | [], [], top, bottom => top = bottom
  | (c, d) :: ls, f :: fs, top, bottom =>
      Maxwell k0 kx ky c (Set.uIcc 0 d) f ∧ f.tan 0 = top ∧ SolvesStack k0 kx ky ls fs (f.tan d) bottom
  | _, _, _, _ => False

/-- The field of the orders at a point. -/
noncomputable def OrderFields.at {m : Type} [Fintype m] (k0 : ℝ) (kx ky : m → ℂ) (f : OrderFields m) (x y t : ℝ) :
    Field6 :=
  let sum : (m → ℂ) → ℂ := fun u => ∑ i, Complex.exp (-Complex.I * (k0 * (x * kx i + y * ky i))) * u i
  ⟨sum (f.Ex t), sum (f.Ey t), sum (f.Ez t), sum (f.Hx t), sum (f.Hy t), sum (f.Hz t)⟩

/-- The array `cell` holds the samples of the fields `fs` of layers of thicknesses `ds`: `rz` depths from the top to
the bottom of each layer, `rx` points over a period in `x`, `ry` points over a period in `y`, the last one first. -/
def Samples {m : Type} [Fintype m] (k0 : ℝ) (kx ky : m → ℂ) (period : ℝ × ℝ) {rx ry rz : ℕ} {α : Type}
    (six : α → Field6) (ds : List ℝ) (fs : List (OrderFields m)) (cell : List (Block rx ry rz α)) : Prop :=
  cell.length = ds.length ∧ fs.length = ds.length ∧
  ∀ (k : ℕ) (d : ℝ) (f : OrderFields m) (a : Block rx ry rz α),
    ds[k]? = some d → fs[k]? = some f → cell[k]? = some a → ∀ iz iy ix,
      six (a iz iy ix) = f.at k0 kx ky (samplePoint period.1 rx ix) (samplePoint period.2 ry iy.rev) (samplePoint d rz iz)

/-- The six components behind the three reported for TE (`Ey, Hx, Hz`) and TM (`Hy, Ex, Ez`). -/
noncomputable def six (pol : ℝ) (f : Field3) : Field6 :=
  if pol = 0 then ⟨0, f.Fy, 0, f.Fx, 0, f.Fz⟩ else ⟨f.Fx, 0, f.Fz, 0, f.Fy, 0⟩

/-- Vacuum wavenumber. -/
noncomputable def k0Of (p : Params) : ℝ := 2 * Real.pi / p.wavelength

/-- `fs` solve Maxwell's equations in the stack with convolution matrices `cs`, driven by a plane wave of polarization
angle `ψ`, with the outgoing waves `r` above and below. -/
def Diffraction (p : Params) (cs : List (Conv (FlatIdx p.fto.1 p.fto.2))) (ψ : ℂ)
    (r : SubRes (2 * p.fto.2 + 1) (2 * p.fto.1 + 1)) (fs : List (OrderFields (FlatIdx p.fto.1 p.fto.2))) : Prop :=
  SolvesStack (k0Of p) (fun i => kxVec p p.wavelength i.modNat) (fun i => kyVec p p.wavelength i.divNat)
    (cs.zip p.thickness) fs (fun i => above p ψ r i.divNat i.modNat) (fun i => below p r i.divNat i.modNat)

/-- The same for an incident wave that is TE (`pol = 0`) or TM, and fields that do not depend on `y`. -/
def Diffraction1d (p : Params) (cs : List (Conv (Fin (2 * p.fto.1 + 1)))) (r : SubRes 1 (2 * p.fto.1 + 1))
    (fs : List (OrderFields (Fin (2 * p.fto.1 + 1)))) : Prop :=
  SolvesStack (k0Of p) (kxVec p p.wavelength) 0 (cs.zip p.thickness) fs (above1d p r) (below1d p r)

/-- The fields `cell` are the solution of Maxwell's equations whose outgoing waves are reported in the solve `r`, for
every selected incident wave. -/
def MaxwellFields (p : Params) (cs : List (Conv (FlatIdx p.fto.1 p.fto.2))) {rx ry rz : ℕ} :
    Solved p.fto.1 p.fto.2 → Bool × Bool × Bool → FieldCell rx ry rz → Prop
  | .tetm o, _, .tetm cell => ∃ fs, Diffraction1d p (cs.map Conv.row) o.res fs ∧
      Samples (k0Of p) (kxVec p p.wavelength) 0 p.period (six p.pol) p.thickness fs cell
  | .conical o, sel, .vector cells => List.Forall₂ (fun i cell => ∃ fs, Diffraction p cs i.1 i.2 fs ∧
      Samples (k0Of p) (fun i => kxVec p p.wavelength i.modNat) (fun i => kyVec p p.wavelength i.divNat) p.period id
        p.thickness fs cell) (selectedInputs p.psi o.out.res o.out.res_te o.out.res_tm sel) cells
  | .twoD o, sel, .vector cells => List.Forall₂ (fun i cell => ∃ fs, Diffraction p cs i.1 i.2 fs ∧
      Samples (k0Of p) (fun i => kxVec p p.wavelength i.modNat) (fun i => kyVec p p.wavelength i.divNat) p.period id
        p.thickness fs cell) (selectedInputs p.psi o.out.res o.out.res_te o.out.res_tm sel) cells
  | _, _, _ => False

/-- The same reflected and transmitted amplitudes. -/
def SameAmplitudes {a b : ℕ} (r r' : SubRes a b) : Prop :=
  r.R_s = r'.R_s ∧ r.R_p = r'.R_p ∧ r.T_s = r'.T_s ∧ r.T_p = r'.T_p

/-- The outgoing amplitudes reported in a solve, and no others, belong to a solution of Maxwell's equations: for the
polarization of a TE/TM solve, and for each of the three incident waves of the other solves. -/
def UniquelySolves (p : Params) (cs : List (Conv (FlatIdx p.fto.1 p.fto.2))) : Solved p.fto.1 p.fto.2 → Prop
  | .tetm o => ∀ r, (∃ fs, Diffraction1d p (cs.map Conv.row) r fs) ↔
      if p.pol = 0 then r.R_s = o.res.R_s ∧ r.T_s = o.res.T_s else r.R_p = o.res.R_p ∧ r.T_p = o.res.T_p
  | .conical o => ∀ i ∈ selectedInputs p.psi o.out.res o.out.res_te o.out.res_tm (true, true, true),
      ∀ r, (∃ fs, Diffraction p cs i.1 r fs) ↔ SameAmplitudes r i.2
  | .twoD o => ∀ i ∈ selectedInputs p.psi o.out.res o.out.res_te o.out.res_tm (true, true, true),
      ∀ r, (∃ fs, Diffraction p cs i.1 r fs) ↔ SameAmplitudes r i.2
  | .conicalSmm => False

end Meent.Spec
