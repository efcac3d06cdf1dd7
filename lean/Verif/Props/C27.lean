import Verif.Lemmas.FieldSpec
import Verif.Props.C06
import Verif.Lemmas.Example2D

/-!
# C27: tangential fields are continuous
-/

namespace Meent

/-- **C27.** For every structure, illumination and formulation with non-zero cover index (plain inverses): the
fields of `conv_solve_field` have one block of samples per layer; the tangential components in the last sample of
a layer equal those in the first sample of the next one, those in the first sample of the stack are the incident
plus the reported reflected waves, those in the last sample the reported transmitted waves, at every sampled
`(x, y)` and for every selected incident wave. -/
theorem C27_continuous (la : LinAlg) (s : Settings) (hp : s.p.use_pinv = false) (hn : s.p.n_top ≠ 0) (rx ry rz : ℕ)
    (sel : Bool × Bool × Bool) (r : Solved s.p.fto.1 s.p.fto.2) (cell : FieldCell rx ry rz)
    (h : conv_solve_field la s rx ry rz sel = .ok (r, cell)) :
    conv_solve la s = .ok r ∧ Spec.Describes s.p r sel cell := by
  unfold conv_solve_field at h
  simp only [Except.bind_ok] at h
  obtain ⟨r', h1, c', h2, e⟩ := h
  obtain ⟨rfl, rfl⟩ := Prod.mk.inj (Except.ok.inj e)
  refine ⟨h1, ?_⟩
  cases r' with
  | tetm o =>
    obtain rfl := Except.ok.inj h2
    obtain ⟨cs, -, -, -, ho⟩ := conv_solve_tetm.mp h1
    exact matched1d hp hn ho rx rz
  | conical o =>
    obtain rfl := Except.ok.inj h2
    obtain ⟨cs, -, -, -, ho⟩ := conv_solve_conical.mp h1
    exact matchedCon hp hn ho rx ry rz sel
  | conicalSmm => cases h2
  | twoD o =>
    obtain rfl := Except.ok.inj h2
    obtain ⟨cs, -, -, -, ho⟩ := conv_solve_twoD.mp h1
    exact matched2d hp hn ho rx ry rz sel

/-- **C27, success.** With the transfer matrix method the fields are available after every successful solve. -/
theorem C27_available (la : LinAlg) (s : Settings) (ha : s.algo = .tmm) (rx ry rz : ℕ)
    (sel : Bool × Bool × Bool) (r : Solved s.p.fto.1 s.p.fto.2) (h : conv_solve la s = .ok r) :
    ∃ cell, conv_solve_field la s rx ry rz sel = .ok (r, cell) := by
  have hc : ∃ cell, calculate_field s.p r rx ry rz sel = .ok cell := by
    cases r with
    | tetm o => exact ⟨_, rfl⟩
    | conical o => exact ⟨_, rfl⟩
    | conicalSmm =>
      obtain ⟨_, _, h⟩ := conv_solve_ok.mp h
      have := (solve_for_conv_smm.mp h).2
      rw [ha] at this; cases this
    | twoD o => exact ⟨_, rfl⟩
  obtain ⟨cell, hc⟩ := hc
  refine ⟨cell, ?_⟩
  unfold conv_solve_field
  rw [Except.bind_ok]
  refine ⟨r, h, ?_⟩
  rw [Except.bind_ok]
  exact ⟨cell, hc, rfl⟩

/-- Non-vacuity: the example grating in two layers of thickness 1/12 and 1/4, in TE and in the conical formulation
with any polarization; fields on any sampling grid. -/
example (rx ry rz : ℕ) (sel : Bool × Bool × Bool) : ∃ r cell, conv_solve_field exLA
    (Spec.withStack (exSettings 0 none) exDouble [1 / 12, 1 / 4]) rx ry rz sel = .ok (r, cell) := by
  obtain ⟨sol, h, -⟩ := C06_split_ok exLA (exSettings 0 none) rfl 0 _ exDouble exDoubled [] [] rfl (1 / 12) (1 / 4) _
    (by rw [show (1 / 12 : ℝ) + 1 / 4 = 1 / 3 by norm_num]; exact exTE_split)
  exact ⟨sol, C27_available exLA (Spec.withStack (exSettings 0 none) exDouble [1 / 12, 1 / 4]) rfl rx ry rz sel sol h⟩

example (pol : ℝ) (rx ry rz : ℕ) (sel : Bool × Bool × Bool) : ∃ r cell, conv_solve_field exLA
    (Spec.withStack (exSettings pol (some 0)) exDouble [1 / 12, 1 / 4]) rx ry rz sel = .ok (r, cell) := by
  obtain ⟨o, ho⟩ := exCon_ok pol
  have ho' : conv_solve exLA (Spec.withStack (exSettings pol (some 0)) (exSettings 0 none).ucell ([] ++ 1 / 3 :: []))
    = .ok (.conical o) := ho
  obtain ⟨sol, h, -⟩ := C06_split_ok exLA (exSettings pol (some 0)) rfl 0 _ exDouble exDoubled [] [] rfl (1 / 12) (1 / 4) _
    (by rw [show (1 / 12 : ℝ) + 1 / 4 = 1 / 3 by norm_num]; exact ho')
  exact ⟨sol, C27_available exLA (Spec.withStack (exSettings pol (some 0)) exDouble [1 / 12, 1 / 4]) rfl rx ry rz sel sol h⟩

end Meent

#print axioms Meent.C27_continuous
#print axioms Meent.C27_available
