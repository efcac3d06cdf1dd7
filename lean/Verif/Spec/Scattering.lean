import Verif.Model.Scattering

/-!
# Specification: what a scattering matrix is
-/

open Matrix

namespace Meent.Spec

variable {n : Type} [Fintype n] [DecidableEq n]

/-- The waves `a1` (from above) and `a2` (from below) fall on an element and `b1` (upwards) and `b2` (downwards) leave it, as the dictionary says. -/
def Scatters (S : SDict n) (a1 a2 b1 b2 : n → ℂ) : Prop :=
  b1 = S.S11 *ᵥ a1 + S.S12 *ᵥ a2 ∧ b2 = S.S21 *ᵥ a1 + S.S22 *ᵥ a2

/-- A layer as the scattering functions see it: the fields of its modes, their decay constants and the thickness. -/
structure SLayer (n : Type) where
  W : Matrix n n ℂ
  V : Matrix n n ℂ
  q : n → ℂ
  d : ℝ

/-- The factor by which the modes of a layer decay across it. -/
noncomputable def SLayer.X (k0 : ℝ) (L : SLayer n) : Matrix n n ℂ := diagonal fun i => Complex.exp (-(k0 : ℂ) * L.q i * (L.d : ℂ))

/-- The tangential fields are `E, H` at the upper face of a layer and `E', H'` at its lower face, as downgoing modes of amplitudes `u` at the upper face and upgoing modes
of amplitudes `v` at the lower face produce them. -/
def Crosses (k0 : ℝ) (L : SLayer n) (E H E' H' : n → ℂ) : Prop :=
  ∃ u v : n → ℂ, E = L.W *ᵥ (u + L.X k0 *ᵥ v) ∧ H = L.V *ᵥ (u - L.X k0 *ᵥ v) ∧
    E' = L.W *ᵥ (L.X k0 *ᵥ u + v) ∧ H' = L.V *ᵥ (L.X k0 *ᵥ u - v)

/-- The same for a stack of layers, the topmost first; the tangential fields are continuous at the interfaces. -/
def Through (k0 : ℝ) : List (SLayer n) → (n → ℂ) → (n → ℂ) → (n → ℂ) → (n → ℂ) → Prop
  | [], E, H, E', H' => E = E' ∧ H = H'
  | L :: Ls, E, H, E', H' => ∃ E₁ H₁, Crosses k0 L E H E₁ H₁ ∧ Through k0 Ls E₁ H₁ E' H'

/-- Waves around a stack between two half spaces, whose downgoing waves have magnetic fields `Vr` and `Vt`: the tangential fields continue through the stack. -/
def StackScatters (k0 : ℝ) (Vr Vt : Matrix n n ℂ) (Ls : List (SLayer n)) (a1 a2 b1 b2 : n → ℂ) : Prop :=
  Through k0 Ls (a1 + b1) (Vr *ᵥ (a1 - b1)) (b2 + a2) (Vt *ᵥ (b2 - a2))

/-- Calls of `scattering_1d_2` for the layers of a stack, one after the other from the top, with gaps of magnetic field `Vg` (and `Wg = 1`). -/
noncomputable def throughLayers (k0 : ℝ) (Vg : Matrix n n ℂ) : List (SLayer n) → SDict n → Res (SDict n)
  | [], Sg => .ok Sg
  | L :: Ls, Sg => do
    let Sg ← scattering_1d_2 L.W 1 L.V Vg L.d k0 L.q Sg
    throughLayers k0 Vg Ls Sg

/-- The matrix of a stack, put together as `scattering_1d_1`, `scattering_1d_2` and `scattering_1d_3` do: the upper half space, the layers, the lower half space. -/
noncomputable def scatteringMatrix (k0 : ℝ) (Vg Vr Vt : Matrix n n ℂ) (Ls : List (SLayer n)) : Res (SDict n) := do
  let AB ← A_B_matrices_half_space Vr Vg
  let Sr ← S_RT AB.1 AB.2 true
  let Sg ← throughLayers k0 Vg Ls Sr
  let AB ← A_B_matrices_half_space Vt Vg
  let St ← S_RT AB.1 AB.2 false
  RedhefferStar Sg St

/-- The efficiencies of a 1D problem by the scattering functions, called as the comments in `solve_1d` (_base.py:239-280) suggest, for the layers `Ls`.  The orders are
listed downwards, because `scattering_1d_1` subtracts them. -/
noncomputable def scatter1d (p : Params) (Ls : List (SLayer (Fin (2 * p.fto.1 + 1)))) :
    Res ((Fin (2 * p.fto.1 + 1) → ℂ) × (Fin (2 * p.fto.1 + 1) → ℂ)) := do
  let k0 := 2 * Real.pi / p.wavelength
  let r ← scattering_1d_1 k0 p.n_top p.n_bot p.theta (p.phi.getD 0) (fun i : Fin (2 * p.fto.1 + 1) => (p.fto.1 : ℤ) - (i : ℤ)) p.period p.pol
  let Sg ← throughLayers k0 r.Vg Ls r.Sg
  scattering_1d_3 r.Vt r.Vg Sg ⟨p.fto.1, by omega⟩ r.Kzr r.Kzt p.n_top p.n_bot p.theta p.pol

/-- A layer the transfer-matrix solver went through, as the scattering functions see it. -/
def _root_.Meent.LayerInfo.scattering (L : LayerInfo n n) : SLayer n := ⟨L.modes.W, L.modes.V, L.modes.q, L.d⟩

/-- No order is at grazing: its transverse wave number is not that of the upper or the lower medium. -/
def NoGrazing (p : Params) : Prop :=
  ∀ i, p.n_top ^ 2 ≠ kxVec p p.wavelength i ^ 2 ∧ p.n_bot ^ 2 ≠ kxVec p p.wavelength i ^ 2

/-- The layer is one of the TE or TM solver: its modes are those that the solver finds for the matrices `c`.  The thickness is free. -/
def LayerOf (la : LinAlg) (pol : ℝ) (kx : n → ℂ) (c : Conv n) (L : SLayer n) : Prop :=
  ∃ M, transfer_1d_2 la pol kx c false = .ok M ∧ L.W = M.W ∧ L.V = M.V ∧ L.q = M.q

/-- The power that waves of amplitudes `a` carry along the depth in a medium of index `nn`, up to a constant: amplitudes are electric for TE and magnetic for TM. -/
noncomputable def power (pol : ℝ) (nn : ℂ) (kx a : n → ℂ) : ℝ :=
  ∑ i, (kz1d nn kx i).re * ‖a i‖ ^ 2 / (if pol = 0 then 1 else nn.re ^ 2)

/-- All waves propagate: there are none in orders that decay along the depth. -/
def PropagatingWaves (nn : ℂ) (kx a : n → ℂ) : Prop := ∀ i, (kz1d nn kx i).re = 0 → a i = 0

end Meent.Spec
