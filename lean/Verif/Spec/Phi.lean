import Verif.Model.Rcwa

/-!
# Vocabulary for the azimuth property (C12)
-/

namespace Meent.Spec

/-- The same settings with another `phi` (`none` is Python's `None`). -/
abbrev withPhi (s : Settings) (phi : Option ℂ) : Settings := { s with p := { s.p with phi := phi } }

/-- `psi` as the `pol` setter leaves it: `π/2 · (1 - pol)`. -/
def PsiFollowsPol (s : Settings) : Prop := s.p.psi = ((Real.pi / 2 * (1 - s.p.pol) : ℝ) : ℂ)

end Meent.Spec
