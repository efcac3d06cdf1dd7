import Verif.Spec.Sides

/-!
# Specification vocabulary: loss and gain
-/

namespace Meent.Spec

/-- A medium that does not absorb: `n ≥ 0` and, in the documented `n - i k` convention, `k ≤ 0`.  This is what `n + i k`
with a positive extinction coefficient means to the program. -/
def GainMedium (n : ℂ) : Prop := 0 ≤ n.re ∧ 0 ≤ n.im

/-- A medium that amplifies: `n > 0` and `k < 0`. -/
def AmplifyingMedium (n : ℂ) : Prop := 0 < n.re ∧ 0 < n.im

/-- The refractive index occurs somewhere in the layers of a structure. -/
def Occurs (s : Settings) (n : ℂ) : Prop :=
  match s.ucell with
  | .raster u => ∃ l ∈ u.layers, Pixels l n
  | .vector ls => ∃ l ∈ ls, Media l n

/-- Real illumination of layers, all of whose media satisfy `P`, between lossless half-spaces; no thickness is negative, and the grid
lines of a vector structure ascend (property C36). -/
structure MadeOf (P : ℂ → Prop) (s : Settings) : Prop extends RealIllumination s.p where
  media : ∀ n, Occurs s n → P n
  geometry : ∀ ls, s.ucell = .vector ls → GoodGeometry s.p.period ls
  thickness_nonneg : ∀ d ∈ s.p.thickness, 0 ≤ d
  n_bot_real : IsReal s.p.n_bot
  n_bot_pos : 0 < s.p.n_bot.re

/-- Layer number `k` shows a medium with `P` to the light: it is the medium of a pixel, and the Fourier coefficients are the continuous
ones or those of the enhanced discrete transform (the default); or it is the medium of a cell that a vector structure is drawn
into. -/
def LayerShows (s : Settings) (k : ℕ) (P : ℂ → Prop) : Prop :=
  match s.ucell with
  | .raster u => (s.fourier_type = 1 ∨ s.fourier_type = 0 ∧ s.enhanced_dfs = true) ∧ ∃ l, u.layers[k]? = some l ∧ ∃ i j, P (l i j)
  | .vector ls => ∃ cells c, modeling_vector_instruction s.p.period ls = .ok cells ∧ cells[k]? = some c ∧ ∃ i j, P (c.val i j)

/-- Some layer of positive thickness shows a medium with `P`. -/
def Shows (s : Settings) (P : ℂ → Prop) : Prop := ∃ k d, s.p.thickness[k]? = some d ∧ 0 < d ∧ LayerShows s k P

end Meent.Spec
