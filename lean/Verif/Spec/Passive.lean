import Verif.Spec.Optics
import Verif.Spec.Grid

/-!
# Specification vocabulary: passive inputs
-/

namespace Meent.Spec

/-- A refractive index of a passive medium in the documented `n - i k` convention: `n ≥ 0` and `k ≥ 0`.
The special case `k = 0` is a lossless medium, `n = 0` an ideal metal. -/
def PassiveMedium (n : ℂ) : Prop := 0 ≤ n.re ∧ n.im ≤ 0

/-- All pixels of a raster structure are passive media. -/
def PassiveRaster (u : Ucell) : Prop := ∀ l ∈ u.layers, ∀ i j, PassiveMedium (l i j)

/-- All indices of a vector structure are passive media. The rectangles the instructions are cut into lie inside the unit cell and
share no edge coordinate, so that the grid lines ascend (property C36). -/
def PassiveVector (period : ℝ × ℝ) (ls : List VLayer) : Prop :=
  ∀ l ∈ ls, PassiveMedium l.base ∧
    (∀ v ∈ l.instrs, match v with
      | .rectangle _ _ _ _ n _ _ _ => PassiveMedium n
      | .ellipse _ _ _ _ n _ _ _ => PassiveMedium n
      | .unknown => True) ∧
    ∀ os, l.objs = .ok os → (∀ o ∈ os, Inside period o) ∧ (rowEdges os).Nodup ∧ (colEdges os).Nodup

/-- A passive problem: real illumination from a lossless superstrate, layers of passive media with thicknesses that are
not negative, and a lossless substrate. -/
structure PassiveProblem (s : Settings) : Prop extends RealIllumination s.p where
  layers_passive : match s.ucell with
    | .raster u => PassiveRaster u
    | .vector ls => PassiveVector s.p.period ls
  thickness_nonneg : ∀ d ∈ s.p.thickness, 0 ≤ d
  n_bot_real : IsReal s.p.n_bot
  n_bot_pos : 0 < s.p.n_bot.re

end Meent.Spec
