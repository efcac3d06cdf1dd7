import Verif.Spec.Maxwell
import Verif.Spec.Passive
import Verif.Spec.TorchFields

/-!
# Specification vocabulary: the power carried by sampled fields (C84)
-/

namespace Meent.Spec

/-- Power per area flowing down at a point: minus the z component of `Re (E × H*)`, in units in which a plane wave of unit
amplitude in vacuum carries one. -/
noncomputable def powerDown (f : Field6) : ℝ := (f.Ey * star f.Hx - f.Ex * star f.Hy).re

/-- The samples of a period without the last one, which repeats the first. A single sample is kept. -/
def distinctSamples (n : ℕ) : Finset (Fin n) := Finset.univ.filter fun i => i.val + 1 < n ∨ n = 1

/-- Mean power through the plane `iz` of a block of samples, every point of the cell counted once. -/
noncomputable def meanPower {rx ry rz : ℕ} {α : Type} (six : α → Field6) (a : Block rx ry rz α) (iz : Fin rz) : ℝ :=
  (∑ iy ∈ distinctSamples ry, ∑ ix ∈ distinctSamples rx, powerDown (six (a iz iy ix)))
    / ((distinctSamples ry).card * (distinctSamples rx).card)

/-- Power lost between the first and the last plane of a block. -/
noncomputable def absorbedIn {rx ry rz : ℕ} {α : Type} (hz : 2 ≤ rz) (six : α → Field6) (a : Block rx ry rz α) : ℝ :=
  meanPower six a ⟨0, by omega⟩ - meanPower six a ⟨rz - 1, by omega⟩

/-- Enough samples along an axis to tell `2 f + 1` orders apart. -/
def EnoughSamples (f n : ℕ) : Prop := 2 * f < (distinctSamples n).card

/-- The fields of a stack account for the power `inc` that falls on it, of which the fraction `R` is reflected and `T` transmitted. -/
structure PowerAccount {rx ry rz : ℕ} {α : Type} (six : α → Field6) (inc R T : ℝ) (cell : List (Block rx ry rz α)) : Prop where
  /-- Through the topmost plane flows what is not reflected. -/
  top : ∀ a, cell.head? = some a → ∀ z : Fin rz, z.val = 0 → meanPower six a z = inc * (1 - R)
  /-- Nothing is lost between layers. -/
  inside : ∀ (k : ℕ) (a b : Block rx ry rz α), cell[k]? = some a → cell[k + 1]? = some b →
    ∀ (top bottom : Fin rz), top.val = 0 → bottom.val + 1 = rz → 2 ≤ rz → meanPower six a bottom = meanPower six b top
  /-- Through the lowest plane flows what is transmitted. -/
  bottom : ∀ a, cell.getLast? = some a → ∀ z : Fin rz, z.val + 1 = rz → 2 ≤ rz → meanPower six a z = inc * T
  /-- The losses of the layers add up to what is neither reflected nor transmitted. -/
  losses : ∀ hz : 2 ≤ rz, (cell.map (absorbedIn hz six)).sum = inc * (1 - R - T)

/-- Inside each layer the power never grows with the depth. -/
def PowerFalls {rx ry rz : ℕ} {α : Type} (six : α → Field6) (cell : List (Block rx ry rz α)) : Prop :=
  ∀ a ∈ cell, ∀ z z' : Fin rz, z ≤ z' → meanPower six a z' ≤ meanPower six a z

/-- Through every plane flows the power `w`. -/
def PowerConstant {rx ry rz : ℕ} {α : Type} (six : α → Field6) (w : ℝ) (cell : List (Block rx ry rz α)) : Prop :=
  ∀ a ∈ cell, ∀ z : Fin rz, meanPower six a z = w

/-- Sum of the reflected efficiencies. -/
def totalR {a b : ℕ} (r : SubRes a b) : ℝ := ∑ j, ∑ i, r.de_ri j i

/-- Sum of the transmitted efficiencies. -/
def totalT {a b : ℕ} (r : SubRes a b) : ℝ := ∑ j, ∑ i, r.de_ti j i

/-- Incident power for an incident wave whose electric field has unit amplitude. -/
noncomputable def incidentPower (p : Params) : ℝ := p.n_top.re * Real.cos p.theta.re

/-- Incident power of a TE/TM solve, where the electric (TE) or magnetic (TM) field has unit amplitude. -/
noncomputable def incidentPower1d (p : Params) : ℝ :=
  if p.pol = 0 then p.n_top.re * Real.cos p.theta.re else Real.cos p.theta.re / p.n_top.re

/-- `P six inc R T cell` holds for the fields of a TE/TM solve, and for each selected incident wave of the other solves. -/
def ForFields (p : Params) {rx ry rz : ℕ}
    (P : {ry : ℕ} → {α : Type} → (α → Field6) → ℝ → ℝ → ℝ → List (Block rx ry rz α) → Prop) :
    Solved p.fto.1 p.fto.2 → Bool × Bool × Bool → FieldCell rx ry rz → Prop
  | .tetm o, _, .tetm cell => P (six p.pol) (incidentPower1d p) (totalR o.res) (totalT o.res) cell
  | .conical o, sel, .vector cells => List.Forall₂ (fun i cell => P id (incidentPower p) (totalR i.2) (totalT i.2) cell)
      (selectedInputs p.psi o.out.res o.out.res_te o.out.res_tm sel) cells
  | .twoD o, sel, .vector cells => List.Forall₂ (fun i cell => P id (incidentPower p) (totalR i.2) (totalT i.2) cell)
      (selectedInputs p.psi o.out.res o.out.res_te o.out.res_tm sel) cells
  | _, _, _ => False

/-- The fields of the NumPy and the PyTorch backend carry the same power through every plane of every layer, for every selected incident wave. -/
inductive SamePower (pol : ℝ) {rx ry rz : ℕ} : FieldCell rx ry rz → TFieldCell rx ry rz → Prop
  | tetm {cell cell'} (h : List.Forall₂ (fun a b => ∀ iz, meanPower (six pol) a iz = meanPower id b iz) cell cell') : SamePower pol (.tetm cell) (.tetm cell')
  | vector {cells cells'} (h : List.Forall₂ (List.Forall₂ fun a b => ∀ iz, meanPower id a iz = meanPower id b iz) cells cells') :
      SamePower pol (.vector cells) (.vector cells')

end Meent.Spec
