import Verif.Lemmas.ScaleVector
import Verif.Lemmas.Example2D
import Verif.Lemmas.VectorOne
import Verif.Lemmas.ScaleEdge
import Verif.Props.C04

/-!
# C38: scale invariance
-/

namespace Meent

/-- **C38.**  Multiplying wavelength, both periods and all thicknesses of a raster problem by the same positive factor
changes nothing: the whole outcome of `conv_solve`, every amplitude and efficiency of `res`, `res_te_inc` and
`res_tm_inc` or the exception raised, is the same.  This holds for all three solvers, both Fourier types and both
settings of `use_pinv`. -/
theorem C38_scale (la : LinAlg) (s : Settings) (u : Ucell) (hu : s.ucell = .raster u) (c : ℝ) (hc : 0 < c) :
    (conv_solve la (Spec.scaled c s)).map Solved.result = (conv_solve la s).map Solved.result :=
  conv_solve_scaled hc.ne' la s (convMats_scaled_raster c la s u hu)

/-- **C38 for vector structures (partial).**  With the drawn rectangles scaled too the outcome is the same, as long as in
each layer no drawn slice after the first has its top or left edge exactly at coordinate 0.  When it does and the edge
is already taken, the code nudges it by the absolute amount `1e-14` (modeling.py:527-530), which does not scale. -/
theorem C38_scale_vector_partial (la : LinAlg) (s : Settings) (ls : List VLayer) (hs : s.ucell = .vector ls) (c : ℝ)
    (hc : 0 < c) (h : ∀ l ∈ ls, ∀ os, l.objs = .ok os → ∀ o ∈ os.tail, o.r0 ≠ 0 ∧ o.c0 ≠ 0) :
    (conv_solve la (Spec.scaled c s)).map Solved.result = (conv_solve la s).map Solved.result :=
  conv_solve_scaled hc.ne' la s (convMats_scaled_vector hc la s ls hs h)

/-- **C38 is violated by vector structures with edges at 0.**  A layer of two absorbing media is drawn with two rectangles whose lower
edges lie at coordinate 0.  The problem is solved as it stands, with every eigensolver that returns a basis of eigenvectors.
With all lengths multiplied by a suitable positive factor it cannot be solved: the second rectangle is moved by `1e-14` whatever
the unit of length, and the mean permittivity becomes zero. -/
theorem C38_scale_vector_negation (la : LinAlg) (hb : Spec.ReturnsBasis la) : ∃ (s : Settings) (ls : List VLayer) (c : ℝ),
    s.ucell = .vector ls ∧ (∀ l ∈ ls, ∀ n, Spec.Media l n → Spec.AbsorbingMedium n) ∧ 0 < c ∧
    (∃ sol, conv_solve la s = .ok sol) ∧ ∀ sol, conv_solve la (Spec.scaled c s) ≠ .ok sol := by
  refine ⟨edgeSettings, [edgeLayer], 3 / 4 * pertUnit, rfl, ?_, by unfold pertUnit; positivity, edge_solves hb, edge_fails la⟩
  intro l hl n hn
  obtain rfl := List.mem_singleton.mp hl
  have h1 : Spec.AbsorbingMedium (1 - Complex.I) := by simp [Spec.AbsorbingMedium]
  have h2 : Spec.AbsorbingMedium (2 - 2 * Complex.I) := by simp [Spec.AbsorbingMedium]
  simp only [Spec.Media, edgeLayer] at hn
  simp at hn
  rcases hn with rfl | ⟨_, _, _, _, _, _, _, ⟨-, -, -, -, rfl, -⟩ | ⟨-, -, -, -, rfl, -⟩⟩ <;> assumption

/-- Non-vacuity: the eigensolver of the examples returns a basis. -/
example : ∃ (s : Settings) (ls : List VLayer) (c : ℝ), s.ucell = .vector ls ∧ (∀ l ∈ ls, ∀ n, Spec.Media l n → Spec.AbsorbingMedium n) ∧
    0 < c ∧ (∃ sol, conv_solve exLA s = .ok sol) ∧ ∀ sol, conv_solve exLA (Spec.scaled c s) ≠ .ok sol :=
  C38_scale_vector_negation exLA exLA_basis

/-- Non-vacuity: a TE problem solved at one scale is solved at every scale, with the same efficiencies. -/
example (c : ℝ) (hc : 0 < c) : ∃ sol sol', conv_solve exLA (exSettings 0 none) = .ok sol ∧
    conv_solve exLA (Spec.scaled c (exSettings 0 none)) = .ok sol' ∧ sol'.result = sol.result := by
  obtain ⟨o, ho⟩ := exTE_ok
  have h := C38_scale exLA (exSettings 0 none) _ rfl c hc
  rw [ho] at h
  cases h' : conv_solve exLA (Spec.scaled c (exSettings 0 none)) with
  | error e => rw [h'] at h; cases h
  | ok sol' => exact ⟨_, sol', ho, rfl, by rw [h'] at h; exact Except.ok.inj h⟩

end Meent

#print axioms Meent.C38_scale
#print axioms Meent.C38_scale_vector_partial
#print axioms Meent.C38_scale_vector_negation
