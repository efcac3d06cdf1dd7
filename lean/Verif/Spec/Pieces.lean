import Verif.Spec.Fourier

/-!
# Specification: piecewise constant functions

Independent of the model.
-/

namespace Meent.Spec

/-- Left end of piece `j` when the right ends are `x`: zero for the first piece. -/
def leftEnd {k : ℕ} [NeZero k] (x : Fin k → ℝ) (j : Fin k) : ℝ := if j = 0 then 0 else x (j - 1)

/-- The breakpoints start at or after 0 and do not decrease. -/
def Ordered {k : ℕ} [NeZero k] (x : Fin k → ℝ) : Prop := ∀ j, leftEnd x j ≤ x j

/-- `f` takes the value `a j` inside piece `j`. -/
def IsStepFun {k : ℕ} [NeZero k] (x : Fin k → ℝ) (a : Fin k → ℂ) (f : ℝ → ℂ) : Prop :=
  ∀ j, ∀ t, leftEnd x j < t → t < x j → f t = a j

/-- `f` takes the value `a i j` inside the rectangle with row piece `i` and column piece `j`. -/
def IsStepFun2 {ky kx : ℕ} [NeZero ky] [NeZero kx] (y : Fin ky → ℝ) (x : Fin kx → ℝ) (a : Fin ky → Fin kx → ℂ)
    (f : ℝ → ℝ → ℂ) : Prop :=
  ∀ i j, ∀ v t, leftEnd y i < v → v < y i → leftEnd x j < t → t < x j → f v t = a i j

/-- Fourier coefficient of order `(mx, my)` of a function of `(y, x)` on the cell `py × px`. -/
noncomputable def fourierCoeffOn2 (f : ℝ → ℝ → ℂ) (py px : ℝ) (mx my : ℤ) : ℂ :=
  fourierCoeffOn (fun t => fourierCoeffOn (fun v => f v t) py my) px mx

/-- Entry `(i, j)` of an `ny × nx` pixel image at position `(v, t)` of the unit cell, row 0 first. -/
noncomputable def pixelFun {ny nx : ℕ} (a : Fin ny → Fin nx → ℂ) (v t : ℝ) : ℂ :=
  if h : ⌊v * ny⌋₊ < ny ∧ ⌊t * nx⌋₊ < nx then a ⟨⌊v * ny⌋₊, h.1⟩ ⟨⌊t * nx⌋₊, h.2⟩ else 0

end Meent.Spec
