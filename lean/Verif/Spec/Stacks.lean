import Verif.Model.Rcwa

/-!
# Specification vocabulary: editing the stack of layers
-/

namespace Meent

/-- The same settings with another structure and other thicknesses. -/
abbrev Spec.withStack (s : Settings) (u : Structure) (th : List ℝ) : Settings :=
  { s with ucell := u, p := { s.p with thickness := th } }

/-- The same settings with `use_pinv` set. -/
abbrev Spec.withPinv (s : Settings) (b : Bool) : Settings := { s with p := { s.p with use_pinv := b } }

/-- Number of layers of a structure. -/
def Spec.layerCount : Structure → ℕ
  | .raster u => u.layers.length
  | .vector ls => ls.length

/-- `u'` is `u` with further layers below. -/
inductive Spec.Extended : Structure → Structure → Prop
  | raster {ny nx : ℕ} (ls more : List (Fin ny → Fin nx → ℂ)) : Extended (.raster ⟨ny, nx, ls⟩) (.raster ⟨ny, nx, ls ++ more⟩)
  | vector (ls more : List VLayer) : Extended (.vector ls) (.vector (ls ++ more))

/-- `u'` is the structure `u` with one more layer at position `k` (0 is next to the superstrate). -/
inductive Spec.Inserted : ℕ → Structure → Structure → Prop
  | raster {ny nx : ℕ} (pre post : List (Fin ny → Fin nx → ℂ)) (x : Fin ny → Fin nx → ℂ) :
      Inserted pre.length (.raster ⟨ny, nx, pre ++ post⟩) (.raster ⟨ny, nx, pre ++ x :: post⟩)
  | vector (pre post : List VLayer) (x : VLayer) :
      Inserted pre.length (.vector (pre ++ post)) (.vector (pre ++ x :: post))

/-- `u'` is the structure `u` with the layer at position `k` occurring twice in a row. -/
inductive Spec.Doubled : ℕ → Structure → Structure → Prop
  | raster {ny nx : ℕ} (pre post : List (Fin ny → Fin nx → ℂ)) (x : Fin ny → Fin nx → ℂ) :
      Doubled pre.length (.raster ⟨ny, nx, pre ++ x :: post⟩) (.raster ⟨ny, nx, pre ++ x :: x :: post⟩)
  | vector (pre post : List VLayer) (x : VLayer) :
      Doubled pre.length (.vector (pre ++ x :: post)) (.vector (pre ++ x :: x :: post))

end Meent
