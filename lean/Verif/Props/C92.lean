import Verif.Lemmas.ScaleField
import Verif.Lemmas.Example2D
import Verif.Props.C72

/-!
# C92: rescaling all lengths leaves the field arrays as they are
-/

namespace Meent

/-- **C92.**  Multiply the wavelength, both periods and all thicknesses of a raster problem by the same positive factor.  Then `conv_solve_field` returns exactly the
same array of fields, entry by entry, or raises the same exception.  This holds for the three solvers, both Fourier types, both settings of `use_pinv`, all numbers of
samples and all selections of incident waves. -/
theorem C92_scale (la : LinAlg) (s : Settings) (u : Ucell) (hu : s.ucell = .raster u) (c : ℝ) (hc : 0 < c) (rx ry rz : ℕ) (sel : Bool × Bool × Bool) :
    (conv_solve_field la (Spec.scaled c s) rx ry rz sel).map Prod.snd = (conv_solve_field la s rx ry rz sel).map Prod.snd :=
  conv_solve_field_stretch hc.ne' s la (convMats_scaled_raster c la s u hu) rx ry rz sel

/-- **C92 for vector structures.**  The same holds when the drawn rectangles are scaled too, as long as in each layer no drawn slice after the first has its top or left
edge exactly at coordinate 0.  `C38_scale_vector_negation` shows that this condition cannot be dropped: otherwise the scaled problem may have no solution at all. -/
theorem C92_scale_vector (la : LinAlg) (s : Settings) (ls : List VLayer) (hs : s.ucell = .vector ls) (c : ℝ) (hc : 0 < c)
    (h : ∀ l ∈ ls, ∀ os, l.objs = .ok os → ∀ o ∈ os.tail, o.r0 ≠ 0 ∧ o.c0 ≠ 0) (rx ry rz : ℕ) (sel : Bool × Bool × Bool) :
    (conv_solve_field la (Spec.scaled c s) rx ry rz sel).map Prod.snd = (conv_solve_field la s rx ry rz sel).map Prod.snd :=
  conv_solve_field_stretch hc.ne' s la (convMats_scaled_vector hc la s ls hs h) rx ry rz sel

private theorem scaled_ready {s : Settings} {u : Ucell} (c : ℝ) (hu : s.ucell = .raster u) (hj : Spec.JaxReady s) : Spec.JaxReady (Spec.scaled c s) := by
  obtain ⟨p, uc, ft, en, al⟩ := s
  cases hu
  exact ⟨hj.pixels, (fun ls h => by cases h), by have := hj.layers; simpa [Spec.layerCount, Spec.scaleStructure] using this⟩

/-- **C92 for JAX.**  If JAX solves a raster problem and the rescaled one, the two field arrays are the same. -/
theorem C92_jax (env : Jax.Env) (s : Settings) (u : Ucell) (hu : s.ucell = .raster u) (c : ℝ) (hc : 0 < c) (hj : Spec.JaxReady s)
    (r r' : Solved s.p.fto.1 s.p.fto.2) (h : Jax.conv_solve env s = .ok r)
    (h' : Jax.conv_solve env (Spec.scaled c s) = .ok r') (rx ry rz : ℕ) (sel : Bool × Bool × Bool) :
    Jax.calculate_field (Spec.scaled c s).p r' rx ry rz sel = Jax.calculate_field s.p r rx ry rz sel := by
  have hj' := scaled_ready c hu hj
  have e := conv_solve_stretch hc.ne' s env.la (convMats_scaled_raster c env.la s u hu)
  rw [C57_jax_to_numpy env _ hj.pixels hj.ellipses hj.layers r h] at e
  have e' := (C57_jax_to_numpy env _ hj'.pixels hj'.ellipses hj'.layers r' h').symm.trans e
  obtain rfl := Except.ok.inj e'
  exact calculate_field_stretch hc.ne' s r rx ry rz sel

/-- Non-vacuity: a TE problem solved at one scale has at every scale the same fields. -/
example (c : ℝ) (hc : 0 < c) (sel : Bool × Bool × Bool) : ∃ cell : FieldCell 20 20 20,
    (conv_solve_field exLA (exSettings 0 none) 20 20 20 sel).map Prod.snd = .ok cell ∧
    (conv_solve_field exLA (Spec.scaled c (exSettings 0 none)) 20 20 20 sel).map Prod.snd = .ok cell := by
  obtain ⟨o, ho⟩ := exTE_ok
  have h : (conv_solve_field exLA (exSettings 0 none) 20 20 20 sel).map Prod.snd = .ok (.tetm (field_dist_1d _ o 20 20)) := by
    rw [conv_solve_field_snd, ho]
    rfl
  exact ⟨_, h, (C92_scale exLA (exSettings 0 none) _ rfl c hc 20 20 20 sel).trans h⟩

/-- Non-vacuity: the same in the conical solver. -/
example (c : ℝ) (hc : 0 < c) (sel : Bool × Bool × Bool) : ∃ cell : FieldCell 20 20 20,
    (conv_solve_field exLA (exSettings 0 (some 0)) 20 20 20 sel).map Prod.snd = .ok cell ∧
    (conv_solve_field exLA (Spec.scaled c (exSettings 0 (some 0))) 20 20 20 sel).map Prod.snd = .ok cell := by
  obtain ⟨o, ho⟩ := exCon_ok 0
  have h : (conv_solve_field exLA (exSettings 0 (some 0)) 20 20 20 sel).map Prod.snd
      = .ok (.vector (field_dist_1d_conical _ o 20 20 20 sel)) := by
    rw [conv_solve_field_snd, ho]
    rfl
  exact ⟨_, h, (C92_scale exLA (exSettings 0 (some 0)) _ rfl c hc 20 20 20 sel).trans h⟩

end Meent

#print axioms Meent.C92_scale
#print axioms Meent.C92_scale_vector
#print axioms Meent.C92_jax
