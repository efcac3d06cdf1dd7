import Verif.Model.TorchField
import Verif.Spec.Maxwell

/-!
# Vocabulary for comparing the fields of the two backends (C50)
-/

namespace Meent.Spec

/-- `f'` describes the field `f` for the opposite time dependence (complex conjugates) and with the y axis reversed,
times `c`: the electric field is a polar vector, its y component changes sign; the magnetic field is an axial vector,
its x and z components change sign. -/
structure Mirrored (c : ℂ) (f f' : Field6) : Prop where
  Ex : f'.Ex = c * star f.Ex
  Ey : f'.Ey = -(c * star f.Ey)
  Ez : f'.Ez = c * star f.Ez
  Hx : f'.Hx = -(c * star f.Hx)
  Hy : f'.Hy = c * star f.Hy
  Hz : f'.Hz = -(c * star f.Hz)

/-- The same for all samples of all layers. -/
def MirroredCells {rx ry rz : ℕ} (c : ℂ) (cell cell' : List (Block rx ry rz Field6)) : Prop :=
  List.Forall₂ (fun a b => ∀ iz iy ix, Mirrored c (a iz iy ix) (b iz iy ix)) cell cell'

/-- The factors for the selected incident waves: `c` for the given polarization, -1 for TE, 1 for TM. -/
noncomputable def factors (c : ℂ) (sel : Bool × Bool × Bool) : List ℂ :=
  (if sel.1 then [c] else []) ++ (if sel.2.1 then [-1] else []) ++ (if sel.2.2 then [1] else [])

/-- The arrays returned by the two backends hold the same fields: sample by sample mirrored, for every selected
incident wave. -/
inductive SameFields (pol : ℝ) (c : ℂ) (sel : Bool × Bool × Bool) {rx ry rz : ℕ} :
    FieldCell rx ry rz → TFieldCell rx ry rz → Prop
  | tetm {cell cell'} (h : MirroredCells c (cell.map fun b iz iy ix => six pol (b iz iy ix)) cell') :
      SameFields pol c sel (.tetm cell) (.tetm cell')
  | vector {cells cells'} (hl : cells.length = (factors c sel).length) (hl' : cells'.length = (factors c sel).length)
      (h : ∀ (k : ℕ) c' cell cell', (factors c sel)[k]? = some c' → cells[k]? = some cell → cells'[k]? = some cell' →
        MirroredCells c' cell cell') : SameFields pol c sel (.vector cells) (.vector cells')

end Meent.Spec
