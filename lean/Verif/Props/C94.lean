import Verif.Lemmas.ScatteringExample

/-!
# C94: the global scattering matrix of a list
-/

open Matrix

namespace Meent

variable {n : Type} [Fintype n] [DecidableEq n]

/-- **C94, up to two elements (partial).**  `construct_global_scatter` returns the only dictionary of a list, and for two dictionaries what `RedhefferStar` returns: a pair,
whose dictionary describes the two elements one behind the other. -/
theorem C94_global_partial (SA SB S : SDict n) (h : RedhefferStar SA SB = .ok S) :
    construct_global_scatter [SA] = .ok (.dict SA) ∧ construct_global_scatter [SA, SB] = .ok (.pair S) ∧
    ∀ a1 a2 b1 b2, Spec.Scatters S a1 a2 b1 b2 ↔ ∃ f g, Spec.Scatters SA a1 g b1 f ∧ Spec.Scatters SB f a2 g b2 := by
  refine ⟨rfl, ?_, star_scatters h⟩
  simp only [construct_global_scatter, scatterLoop, h]

/-- **C94 is violated by three or more elements.**  The list "[Sr, S1, …, SN, ST]" of the documentation never gives a matrix once it has three entries: the pair returned
by the first `RedhefferStar` is passed to the next one, whose `assert` fails. -/
theorem C94_global_negation (SA SB SC : SDict n) (rest : List (SDict n)) :
    (∀ x, construct_global_scatter (SA :: SB :: SC :: rest) ≠ .ok x) ∧
    ∀ S, RedhefferStar SA SB = .ok S → construct_global_scatter (SA :: SB :: SC :: rest) = .error .assertion := by
  constructor
  · intro x
    simp only [construct_global_scatter, scatterLoop]
    cases RedhefferStar SA SB <;> simp
  · intro S h
    simp only [construct_global_scatter, scatterLoop, h]

/-- Non-vacuity: three elements without any effect, whose matrices can be combined. -/
example : RedhefferStar (⟨0, 1, 1, 0⟩ : SDict (Fin 3)) ⟨0, 1, 1, 0⟩ = .ok ⟨0, 1, 1, 0⟩ ∧
    construct_global_scatter [(⟨0, 1, 1, 0⟩ : SDict (Fin 3)), ⟨0, 1, 1, 0⟩, ⟨0, 1, 1, 0⟩] = .error .assertion :=
  ⟨star_one_left _, (C94_global_negation _ _ _ _).2 _ (star_one_left _)⟩

end Meent

#print axioms Meent.C94_global_partial
#print axioms Meent.C94_global_negation
