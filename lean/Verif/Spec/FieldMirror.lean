import Verif.Spec.FieldFunction
import Verif.Spec.Image

/-!
# Specification vocabulary: the fields of a mirrored structure

`mx` says whether the x axis is reversed, `my` whether the y axis is.
-/

namespace Meent.Spec

/-- The coordinate seen in the mirror. -/
def flip (b : Bool) (x : ℝ) : ℝ := if b then -x else x

/-- A component seen in the mirror. -/
def flipC (b : Bool) (a : ℂ) : ℂ := if b then -a else a

/-- Electric and magnetic field at a point seen in the mirror: the electric field is a vector; the magnetic field is an axial vector, whose components
along the mirror change sign. -/
def mirror6 (mx my : Bool) (f : Field6) : Field6 :=
  ⟨flipC mx f.Ex, flipC my f.Ey, f.Ez, flipC my f.Hx, flipC mx f.Hy, flipC mx (flipC my f.Hz)⟩

/-- The same for the three fields of the TE/TM solver, up to an overall sign that leaves the component along the lines of the grating as it is. -/
def mirror3 (mx : Bool) (f : Field3) : Field3 := ⟨f.Fy, f.Fx, flipC mx f.Fz⟩

/-- `F'` is `F` seen in the mirror, up to an overall sign. -/
def MirrorImage (mx my : Bool) (F F' : FieldFn Field6) : Prop :=
  ∃ c : ℂ, (c = 1 ∨ c = -1) ∧ ∀ k z y x, F' k z y x = times6 c (mirror6 mx my (F k z (flip my y) (flip mx x)))

/-- The fields of the mirrored problem are the fields of the problem seen in the mirror. -/
def Fields.Mirrored (mx my : Bool) : Fields Field3 → Fields Field3 → Prop
  | .tetm F, .tetm F' => ∀ k z y x, F' k z y x = mirror3 mx (F k z (flip my y) (flip mx x))
  | .vector F G H, .vector F' G' H' => MirrorImage mx my F F' ∧ MirrorImage mx my G G' ∧ MirrorImage mx my H H'
  | _, _ => False

end Meent.Spec
