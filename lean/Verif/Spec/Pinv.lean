import Verif.Model.Rcwa

/-!
# Specification vocabulary: the pseudo-inverse
-/

namespace Meent

/-- Not the combination of `use_pinv=True`, a pixel structure and the discrete Fourier transform. -/
def Spec.NoDiscretePinv (s : Settings) : Prop :=
  s.p.use_pinv = false ∨ s.fourier_type ≠ 0 ∨ ∃ ls, s.ucell = .vector ls

end Meent
