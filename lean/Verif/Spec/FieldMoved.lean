import Verif.Spec.FieldFunction

/-!
# Specification vocabulary: the fields of a moved structure
-/

namespace Meent.Spec

/-- The field `F` moved by `-q.1` periods along `x` and `-q.2` periods along `y`, times the phase that makes up for the incident wave, which
does not move: that wave gains `δ.1` per period along `x` and `δ.2` per period along `y`. -/
noncomputable def movedFn {α : Type} (times : ℂ → α → α) (period δ q : ℝ × ℝ) (F : FieldFn α) : FieldFn α := fun k z y x =>
  times (Complex.exp (((q.1 * δ.1 + q.2 * δ.2 : ℝ) : ℂ) * Complex.I)) (F k z (y + q.2 * period.2) (x + q.1 * period.1))

/-- The same for all fields of a problem. -/
noncomputable def Fields.moved (p : Params) (q : ℝ × ℝ) : Fields Field3 → Fields Field3
  | .tetm F => .tetm (movedFn times3 p.period (phaseAlongX p, phaseAlongY p) q F)
  | .vector F G H => .vector (movedFn times6 p.period (phaseAlongX p, phaseAlongY p) q F)
      (movedFn times6 p.period (phaseAlongX p, phaseAlongY p) q G) (movedFn times6 p.period (phaseAlongX p, phaseAlongY p) q H)

/-- All arrays that `calculate_field` returns after the solve `r`, whatever the resolution and the selection, hold samples of `fields`. -/
def AlwaysSampled (p : Params) (r : Solved p.fto.1 p.fto.2) (fields : Fields Field3) : Prop :=
  ∀ rx ry rz sel, ∃ cell : FieldCell rx ry rz, calculate_field p r rx ry rz sel = .ok cell ∧ fields.Sampled p p.thickness.length sel cell

end Meent.Spec
