import Verif.Lemmas.Pinv
import Verif.Lemmas.Example1D

/-!
# C41: `use_pinv` only matters for singular matrices
-/

namespace Meent

/-- **C41.** With `use_pinv=False` a solve succeeds only if every matrix to be inverted is invertible. In that case the
solve with `use_pinv=True` returns exactly the same (result, `T1` and `layer_info_list` included). -/
theorem C41_use_pinv (la : LinAlg) (s : Settings) (sol : Solved s.p.fto.1 s.p.fto.2)
    (h : conv_solve la (Spec.withPinv s false) = .ok sol) :
    conv_solve la (Spec.withPinv s true) = .ok sol :=
  refines_conv_solve la s sol h

/-- The example grating meets the hypothesis. -/
example : ∃ sol, conv_solve exLA (Spec.withPinv (exSettings 0 none) false) = .ok sol :=
  ⟨_, exTE_ok.choose_spec⟩

/-- The matrix-level fact behind it: `meeinv` with either flag agrees on invertible matrices. -/
theorem C41_meeinv (la : LinAlg) {n : Type} [Fintype n] [DecidableEq n] (A : Matrix n n ℂ) (h : IsUnit A.det) :
    meeinv la A true = .ok A⁻¹ ∧ meeinv la A false = .ok A⁻¹ :=
  ⟨refines_meeinv la A _ (meeinv_false_ok.mpr ⟨h, rfl⟩), meeinv_false_ok.mpr ⟨h, rfl⟩⟩

#print axioms C41_use_pinv
#print axioms C41_meeinv

end Meent
