import Verif.Spec.FieldMoved
import Verif.Spec.TorchFields

/-!
# Specification vocabulary: the functions of position behind the fields of the PyTorch backend
-/

namespace Meent.Spec

/-- The field for the opposite time dependence, that is, complex conjugated, with the y axis reversed, times `c`. -/
def torchOf (c : ℂ) (f : Field6) : Field6 :=
  ⟨c * star f.Ex, -(c * star f.Ey), c * star f.Ez, -(c * star f.Hx), c * star f.Hy, -(c * star f.Hz)⟩

/-- The same for a function of position. -/
def torchFn (c : ℂ) (F : FieldFn Field6) : FieldFn Field6 := fun k z y x => torchOf c (F k z y x)

/-- The same for the fields of a solved problem: six components always, the factor `c` for the polarization asked for, -1 for TE and 1 for TM. -/
noncomputable def Fields.torch (pol : ℝ) (c : ℂ) : Fields Field3 → Fields Field6
  | .tetm F => .tetm (torchFn c fun k z y x => six pol (F k z y x))
  | .vector F G H => .vector (torchFn c F) (torchFn (-1) G) (torchFn 1 H)

/-- All arrays that `calculate_field` of the PyTorch backend returns after the solve `r`, whatever the resolution and the selection, hold samples of `fields`. -/
def TorchSampled (p : Params) (r : Solved p.fto.1 p.fto.2) (fields : Fields Field6) : Prop :=
  ∀ rx ry rz sel, ∃ cell : TFieldCell rx ry rz, tCalculate_field p r rx ry rz sel = .ok cell ∧ fields.SampledT p p.thickness.length sel cell

/-- What the comparison of the two backends needs of a problem solved by the conical or the 2D solver (see C50). -/
def TorchComparable (s : Settings) : Prop := gratingType s = 2 ∨ (gratingType s = 1 ∧ s.p.phi ≠ some 0)

end Meent.Spec
