import Verif.Props.C57
import Verif.Props.C66
import Verif.Props.C18
import Verif.Lemmas.ObjectExample

/-!
# C57, ellipses with the default number of samples
-/

namespace Meent

private theorem jax_default (la : LinAlg) (period : ℝ × ℝ) (base : ℂ) (cx cy lx ly : ℝ) (n : ℂ) (angle : ℝ) :
    Jax.modeling_vector_instruction (clampEnv la) period [⟨base, [.ellipse cx cy lx ly n angle 2 2]⟩]
      = Jax.modeling_vector_instruction (clampEnv la) period [⟨base, []⟩] := by
  have h := (C66_default_negation cx cy lx ly n angle).2 (clampEnv la) (fun l i a ha => by simp [clampEnv, ha])
  simp [Jax.modeling_vector_instruction, Jax.layerObjs, Jax.runInstr, h, bind, Except.bind, pure, Except.pure]

/-- **C57, violated by an ellipse with the default number of samples.**  NumPy raises.  A JAX whose out-of-range reads are clamped
solves the problem without the ellipse. -/
theorem C57_ellipse_negation (la : LinAlg) (s : Settings) (base : ℂ) (cx cy lx ly : ℝ) (n : ℂ) (angle : ℝ)
    (hu : s.ucell = .vector [⟨base, [.ellipse cx cy lx ly n angle 2 2]⟩]) :
    conv_solve la s = .error .indexError ∧
      Jax.conv_solve (clampEnv la) s = Jax.conv_solve (clampEnv la) { s with ucell := .vector [⟨base, []⟩] } := by
  obtain ⟨p, u, ft, en, al⟩ := s
  simp only at hu
  subst hu
  constructor
  · have h := (C66_default_negation cx cy lx ly n angle).1
    simp [conv_solve, convMats, modeling_vector_instruction, VLayer.objs, VInstr.run, h, bind, Except.bind]
  · unfold Jax.conv_solve Jax.convMats
    simp only
    rw [jax_default]
    rfl

private theorem draw_empty (base : ℂ) : ∃ c, drawLayer (1, 1) base [] = .ok c := by
  simp [drawLayer, vectorPerLayer, gridLayer, finishEdges, paintAll, toVCell, bind, Except.bind]

/-- In such a case JAX does return a result. -/
example (la : LinAlg) : ∃ s : Settings, (∃ base cx cy lx ly n angle, s.ucell = .vector [⟨base, [.ellipse cx cy lx ly n angle 2 2]⟩]) ∧
    conv_solve la s = .error .indexError ∧ ∃ sol, Jax.conv_solve (clampEnv la) s = .ok sol := by
  let s : Settings := { bareSettings ((1 : ℝ) : ℂ) 0 (some 0) with ucell := .vector [⟨1, [.ellipse 0.5 0.5 0.5 0.25 2 0 2 2]⟩] }
  obtain ⟨h1, h2⟩ := C57_ellipse_negation la s 1 0.5 0.5 0.5 0.25 2 0 rfl
  refine ⟨s, ⟨1, 0.5, 0.5, 0.5, 0.25, 2, 0, rfl⟩, h1, ?_⟩
  rw [h2]
  obtain ⟨o, ho⟩ := bareVec_ok la
  obtain ⟨cs, hc, hg, ha, ho⟩ := conv_solve_twoD.mp ho
  obtain ⟨c, hcell⟩ := draw_empty 1
  have hm : modeling_vector_instruction (1, 1) [⟨1, []⟩] = .ok [c] := by
    unfold modeling_vector_instruction
    simp only [Except.bind_ok, mapM_ok]
    exact ⟨[(1, [])], .cons ⟨[], rfl, rfl⟩ .nil, .cons hcell .nil⟩
  have hcs := C18_homogeneous_vector la (1, 1) (by simp) (by simp) [1] (by simp) [⟨1, []⟩] (.cons ⟨rfl, by simp⟩ .nil) 0 0 false [c] hm
  obtain ⟨-, init, r, x, a1, a2, a3, rfl⟩ := (solve_2d_iff (p := (bareSettings ((1 : ℝ) : ℂ) 0 (some 0)).p) rfl).mp ho
  rw [show (bareSettings ((1 : ℝ) : ℂ) 0 (some 0)).p.thickness = [] from rfl, List.zip_nil_right] at a2
  cases a2
  refine ⟨.twoD ⟨x, []⟩, C57_numpy_to_jax_partial (clampEnv la) _ (Or.inl rfl) _ (conv_solve_twoD.mpr
    ⟨[Spec.scalarConv 0 0 1], ?_, by simp [gratingType], rfl, ?_⟩)⟩
  · exact Except.bind_ok.mpr ⟨[c], hm, hcs⟩
  · exact (solve_2d_iff (p := (bareSettings ((1 : ℝ) : ℂ) 0 (some 0)).p) rfl).mpr
      ⟨by simp [bareSettings], init, (init.2.2.2, []), x, a1, rfl, a3, rfl⟩

#print axioms C57_ellipse_negation

end Meent
