import Verif.Spec.Passive

/-!
# Specification vocabulary: media on one side
-/

namespace Meent.Spec

/-- Permittivities `n²` that lie strictly on one side of a line through the origin of the complex plane: turning all of them
by the same `w` makes the real parts positive. -/
def OneSided (P : ℂ → Prop) : Prop := ∃ w : ℂ, ∀ n, P n → 0 < (w * n ^ 2).re

/-- The refractive indices of a layer of a raster structure. -/
def Pixels {ny nx : ℕ} (l : Fin ny → Fin nx → ℂ) (n : ℂ) : Prop := ∃ i j, l i j = n

/-- The refractive indices of a layer of a vector structure. -/
def Media (l : VLayer) (n : ℂ) : Prop :=
  n = l.base ∨ ∃ cx cy lx ly angle a b, VInstr.rectangle cx cy lx ly n angle a b ∈ l.instrs ∨
    VInstr.ellipse cx cy lx ly n angle a b ∈ l.instrs

/-- A transparent or absorbing medium in the documented `n - i k` convention: `n > 0` and `k ≥ 0`.  Compared with
`PassiveMedium` it only leaves out ideal metals, `n = 0`. -/
def OrdinaryMedium (n : ℂ) : Prop := 0 < n.re ∧ n.im ≤ 0

/-- A medium that absorbs: `n > 0` and `k > 0`. -/
def AbsorbingMedium (n : ℂ) : Prop := 0 < n.re ∧ n.im < 0

/-- The rectangles that a vector structure is cut into lie inside the unit cell and share no edge coordinate, so that the
grid lines ascend (property C36). -/
def GoodGeometry (period : ℝ × ℝ) (ls : List VLayer) : Prop :=
  ∀ l ∈ ls, ∀ os, l.objs = .ok os → (∀ o ∈ os, Inside period o) ∧ (rowEdges os).Nodup ∧ (colEdges os).Nodup

end Meent.Spec
