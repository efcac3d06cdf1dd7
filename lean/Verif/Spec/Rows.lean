import Verif.Model.Rcwa

/-!
# Specification vocabulary: patterns that do not vary along y
-/

namespace Meent

/-- The same settings with another structure. -/
abbrev Spec.withUcell (s : Settings) (u : Structure) : Settings := { s with ucell := u }

/-- A raster of `k` identical rows; `rows` lists the row of each layer. -/
abbrev Spec.yInvariant (k nx : ℕ) (rows : List (Fin nx → ℂ)) : Structure :=
  .raster ⟨k, nx, rows.map fun v _ j => v j⟩

end Meent
