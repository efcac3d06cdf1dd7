import Verif.Spec.Structures

/-!
# Vocabulary for the substrate-layer property (C07)
-/

namespace Meent.Spec

/-- `u'` is the structure `u` with one more layer directly above the substrate, filled with a single
material of index `n`. -/
inductive Grounded (n : ℂ) : Structure → Structure → Prop
  | raster {ny nx : ℕ} (hy : 0 < ny) (hx : 0 < nx) (ls : List (Fin ny → Fin nx → ℂ)) :
      Grounded n (.raster ⟨ny, nx, ls⟩) (.raster ⟨ny, nx, ls ++ [fun _ _ => n]⟩)
  | vector (ls : List VLayer) (l : VLayer) (h : HomogeneousVLayer n l) :
      Grounded n (.vector ls) (.vector (ls ++ [l]))

/-- Two result dictionaries with the same reflected amplitudes and efficiencies. -/
structure SameRefl {a b : ℕ} (r r' : SubRes a b) : Prop where
  R_s : r'.R_s = r.R_s
  R_p : r'.R_p = r.R_p
  de_ri_s : r'.de_ri_s = r.de_ri_s
  de_ri_p : r'.de_ri_p = r.de_ri_p
  de_ri : r'.de_ri = r.de_ri

/-- The same dictionaries are present in two results, with the same reflection. -/
def SameReflection {fx fy : ℕ} (r r' : Result fx fy) : Prop :=
  Option.Rel SameRefl r.res r'.res ∧ Option.Rel SameRefl r.res_te_inc r'.res_te_inc ∧
    Option.Rel SameRefl r.res_tm_inc r'.res_tm_inc

end Meent.Spec
