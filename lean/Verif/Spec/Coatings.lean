import Verif.Spec.ThinFilm

/-!
# Specification vocabulary: optical coatings
-/

namespace Meent.Spec

/-- The optical thickness of the film, along the refracted direction, is a whole number of half wavelengths. -/
def HalfWave (k0 : ℝ) (f : Film) : Prop := ∃ m : ℤ, (k0 : ℂ) * f.kz * f.d = m * Real.pi

/-- The optical thickness of the film is an odd number of quarter wavelengths. -/
def QuarterWave (k0 : ℝ) (f : Film) : Prop := ∃ m : ℤ, (k0 : ℂ) * f.kz * f.d = (m + 1 / 2) * Real.pi

/-- Same illumination, other layers. -/
def withLayers (s : Settings) (u : Structure) (ths : List ℝ) : Settings :=
  { s with p := { s.p with thickness := ths }, ucell := u }

/-- The zeroth order carries the reflected share `R` and the transmitted share `T` of the power; all other orders are dark. -/
def OnlyZeroth {a b : ℕ} (x : SubRes (2 * a + 1) (2 * b + 1)) (R T : ℝ) : Prop :=
  ∀ j i, x.de_ri j i = (if rowOrder j = 0 ∧ colOrder i = 0 then R else 0) ∧
    x.de_ti j i = (if rowOrder j = 0 ∧ colOrder i = 0 then T else 0)

/-- `pairs` repetitions of a film of high index on one of low index. -/
def pairs (H L : Film) (N : ℕ) : List Film := (List.replicate N [H, L]).flatten

end Meent.Spec
