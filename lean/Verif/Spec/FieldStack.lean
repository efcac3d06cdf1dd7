import Verif.Spec.FieldFunction

/-!
# Specification vocabulary: the fields of a stack that is listed in another way
-/

namespace Meent.Spec

/-- A field read in another list of layers: `w k z` is the old layer, and the depth in it, of the point at depth `z` of the new layer `k`. -/
def relayer {α : Type} (w : ℕ → ℝ → ℕ × ℝ) (F : FieldFn α) : FieldFn α := fun k z y x => F (w k z).1 (w k z).2 y x

/-- The same for all fields of a problem. -/
def Fields.relayer {α : Type} (w : ℕ → ℝ → ℕ × ℝ) : Fields α → Fields α
  | .tetm F => .tetm (Spec.relayer w F)
  | .vector F G H => .vector (Spec.relayer w F) (Spec.relayer w G) (Spec.relayer w H)

/-- Layer `k` is cut in two: its upper part, of thickness `d₁`, becomes layer `k` and its lower part, of thickness `d₂`, becomes layer `k + 1`.
Depths are fractions of the thickness of a layer. -/
noncomputable def cutLayer (k : ℕ) (d₁ d₂ : ℝ) (j : ℕ) (z : ℝ) : ℕ × ℝ :=
  if j < k then (j, z) else if j = k then (k, z * d₁ / (d₁ + d₂)) else if j = k + 1 then (k, (d₁ + z * d₂) / (d₁ + d₂)) else (j - 1, z)

/-- Layer `k` is left out. -/
def dropLayer (k : ℕ) (j : ℕ) (z : ℝ) : ℕ × ℝ := if j < k then (j, z) else (j + 1, z)

end Meent.Spec
