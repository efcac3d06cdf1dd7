import Verif.Lemmas.EigBasis
import Verif.Lemmas.Example1D

/-!
# C04: results do not depend on the eigensolver's choice of basis
-/

open Matrix

namespace Meent

/-- **C04.** `la` and `la'` are two eigensolvers, only known to return eigenpairs. Whenever the same problem is solved
successfully with both, the result objects are equal: every amplitude and efficiency of `res`, `res_te_inc`,
`res_tm_inc`. -/
theorem C04_eigenbasis (la la' : LinAlg) (s : Settings) (hp : s.p.use_pinv = false)
    (sol sol' : Solved s.p.fto.1 s.p.fto.2) (h : conv_solve la s = .ok sol) (h' : conv_solve la' s = .ok sol') :
    sol'.result = sol.result :=
  conv_solve_agree hp h h'

/-- **C04, success.** If one eigensolver leads to a result, so does every eigensolver that returns independent
eigenvectors for diagonalisable matrices. -/
theorem C04_eigenbasis_success (la la' : LinAlg) (hb : Spec.ReturnsBasis la') (s : Settings) (hp : s.p.use_pinv = false)
    (sol : Solved s.p.fto.1 s.p.fto.2) (h : conv_solve la s = .ok sol) :
    ∃ sol', conv_solve la' s = .ok sol' ∧ sol'.result = sol.result :=
  conv_solve_basis hp hb h

/-- An eigensolver that scales the eigenvectors of another one. -/
noncomputable def scaledLA (la : LinAlg) (z : ℂ) : LinAlg where
  eig := fun A => ((la.eig A).1, z • (la.eig A).2)
  eig_law := by
    intro n _ _ A
    simp only [Matrix.mul_smul, Matrix.smul_mul, la.eig_law A]
  pinv := la.pinv
  pinv_law := la.pinv_law

/-- The hypothesis of `C04_eigenbasis_success` is met by `exLA` … -/
theorem exLA_basis : Spec.ReturnsBasis exLA := by
  intro n _ _ A ⟨W, l, hW, h⟩
  by_cases h1 : A = diagonal A.diag
  · rw [h1, exLA_eig_diagonal]; simp
  · simp only [exLA, h1, if_false]
    have h2 : ∃ p : (n → ℂ) × Matrix n n ℂ, A * p.2 = p.2 * diagonal p.1 ∧ IsUnit p.2.det := ⟨(l, W), h, hW⟩
    rw [dif_pos h2]
    exact (Classical.choose_spec h2).2

/-- … and by its scaled version, … -/
theorem scaledLA_basis : Spec.ReturnsBasis (scaledLA exLA 2) := by
  intro n _ _ A h
  simp only [scaledLA, det_smul]
  exact (IsUnit.pow _ (by norm_num)).mul (exLA_basis A h)

/-- … and both solve the example grating. -/
example : ∃ sol sol', conv_solve exLA (exSettings 0 none) = .ok sol ∧
    conv_solve (scaledLA exLA 2) (exSettings 0 none) = .ok sol' := by
  obtain ⟨o, h⟩ := exTE_ok
  obtain ⟨sol', h', -⟩ := C04_eigenbasis_success _ _ scaledLA_basis _ rfl _ h
  exact ⟨_, _, h, h'⟩

#print axioms C04_eigenbasis
#print axioms C04_eigenbasis_success

end Meent
