import Verif.Lemmas.BvpSolve
import Verif.Spec.Maxwell
import Verif.Props.C27

/-!
# C48: the fields satisfy Maxwell's equations
-/

namespace Meent

/-- **C48.** For every structure, illumination and formulation with non-zero cover index (plain inverses): the
fields of `conv_solve_field` are samples, at the documented points, of fields that solve Maxwell's equations at every
depth of every layer, have continuous tangential parts at every interface, and equal the incident plus the reported
reflected waves at the top and the reported transmitted waves at the bottom of the stack. -/
theorem C48_maxwell (la : LinAlg) (s : Settings) (hp : s.p.use_pinv = false) (hn : s.p.n_top ≠ 0) (rx ry rz : ℕ)
    (sel : Bool × Bool × Bool) (r : Solved s.p.fto.1 s.p.fto.2) (cell : FieldCell rx ry rz)
    (h : conv_solve_field la s rx ry rz sel = .ok (r, cell)) :
    ∃ cs, convMats la s = .ok cs ∧ Spec.MaxwellFields s.p cs r sel cell := by
  unfold conv_solve_field at h
  simp only [Except.bind_ok] at h
  obtain ⟨r', h1, c', h2, e⟩ := h
  obtain ⟨rfl, rfl⟩ := Prod.mk.inj (Except.ok.inj e)
  cases r' with
  | tetm o =>
    obtain rfl := Except.ok.inj h2
    obtain ⟨cs, hc, -, -, ho⟩ := conv_solve_tetm.mp h1
    exact ⟨cs, hc, (solve_1d_bvp hp hn ho).1 rx rz⟩
  | conical o =>
    obtain rfl := Except.ok.inj h2
    obtain ⟨cs, hc, hg, -, ho⟩ := conv_solve_conical.mp h1
    obtain ⟨u, hu, hy, -⟩ := gratingType_one hg
    have hz := convMats_epzi_epy hp hu (fun l _ i i' j => by
      have hs : i = i' := by ext; have := i.isLt; have := i'.isLt; omega
      rw [hs]) hc
    exact ⟨cs, hc, (solve_con_bvp hp hn hz ho).1 rx ry rz sel⟩
  | conicalSmm => cases h2
  | twoD o =>
    obtain rfl := Except.ok.inj h2
    obtain ⟨cs, hc, -, -, ho⟩ := conv_solve_twoD.mp h1
    exact ⟨cs, hc, (solve_2d_bvp hp hn ho).1 rx ry rz sel⟩

/-- Non-vacuity: the example grating in two layers, in TE and in the conical formulation with any polarization. -/
example (rx ry rz : ℕ) (sel : Bool × Bool × Bool) : ∃ r cell cs, conv_solve_field exLA
    (Spec.withStack (exSettings 0 none) exDouble [1 / 12, 1 / 4]) rx ry rz sel = .ok (r, cell) ∧
    Spec.MaxwellFields (Spec.withStack (exSettings 0 none) exDouble [1 / 12, 1 / 4]).p cs r sel cell := by
  obtain ⟨sol, h, -⟩ := C06_split_ok exLA (exSettings 0 none) rfl 0 _ exDouble exDoubled [] [] rfl (1 / 12) (1 / 4) _
    (by rw [show (1 / 12 : ℝ) + 1 / 4 = 1 / 3 by norm_num]; exact exTE_split)
  obtain ⟨cell, hc⟩ := C27_available exLA (Spec.withStack (exSettings 0 none) exDouble [1 / 12, 1 / 4]) rfl rx ry rz sel sol h
  obtain ⟨cs, -, hm⟩ := C48_maxwell _ _ (by rfl) (by simp [exSettings, exParams]) _ _ _ _ _ _ hc
  exact ⟨sol, cell, cs, hc, hm⟩

example (pol : ℝ) (rx ry rz : ℕ) (sel : Bool × Bool × Bool) : ∃ r cell cs, conv_solve_field exLA
    (Spec.withStack (exSettings pol (some 0)) exDouble [1 / 12, 1 / 4]) rx ry rz sel = .ok (r, cell) ∧
    Spec.MaxwellFields (Spec.withStack (exSettings pol (some 0)) exDouble [1 / 12, 1 / 4]).p cs r sel cell := by
  obtain ⟨o, ho⟩ := exCon_ok pol
  have ho' : conv_solve exLA (Spec.withStack (exSettings pol (some 0)) (exSettings 0 none).ucell ([] ++ 1 / 3 :: []))
    = .ok (.conical o) := ho
  obtain ⟨sol, h, -⟩ := C06_split_ok exLA (exSettings pol (some 0)) rfl 0 _ exDouble exDoubled [] [] rfl (1 / 12) (1 / 4) _
    (by rw [show (1 / 12 : ℝ) + 1 / 4 = 1 / 3 by norm_num]; exact ho')
  obtain ⟨cell, hc⟩ := C27_available exLA (Spec.withStack (exSettings pol (some 0)) exDouble [1 / 12, 1 / 4]) rfl rx ry rz sel sol h
  obtain ⟨cs, -, hm⟩ := C48_maxwell _ _ (by rfl) (by simp [exSettings, exParams]) _ _ _ _ _ _ hc
  exact ⟨sol, cell, cs, hc, hm⟩

end Meent

#print axioms Meent.C48_maxwell
