import Verif.Spec.Orders
import Verif.Spec.Optics
import Verif.Spec.Stacks

/-!
# Vocabulary for reciprocity (C51, C53)
-/

namespace Meent.Spec

/-- The same settings with the light coming from the opposite side: along the path of the specularly reflected wave,
backwards. -/
abbrev opposite (s : Settings) : Settings := { s with p := { s.p with theta := -s.p.theta } }

/-- Specular reflection of two TE/TM solves is the same. -/
structure SameSpecular {ny nx : ℕ} (r r' : SubRes ny nx) (j : Fin ny) (i : Fin nx) : Prop where
  R_s : r'.R_s j i = r.R_s j i
  R_p : r'.R_p j i = r.R_p j i
  de_ri_s : r'.de_ri_s j i = r.de_ri_s j i
  de_ri_p : r'.de_ri_p j i = r.de_ri_p j i
  de_ri : r'.de_ri j i = r.de_ri j i

/-- Specular reflection with polarization, for incidence from a medium of index `n`: `te`, `tm` are the results for
incident TE and TM light, `te'`, `tm'` those for light from the opposite side.  Without a change of polarization the
amplitudes are equal; with a change, s to p one way is p to s the other way (the p amplitudes are normalised to the
magnetic field and carry a factor `i`). -/
structure Reciprocal {ny nx : ℕ} (n : ℂ) (te tm te' tm' : SubRes ny nx) (j : Fin ny) (i : Fin nx) : Prop where
  ss : te'.R_s j i = te.R_s j i
  pp : tm'.R_p j i = tm.R_p j i
  sp : n * tm'.R_s j i = Complex.I * te.R_p j i
  ps : Complex.I * te'.R_p j i = n * tm.R_s j i
  de_ss : te'.de_ri_s j i = te.de_ri_s j i
  de_pp : tm'.de_ri_p j i = tm.de_ri_p j i
  de_sp : tm'.de_ri_s j i = te.de_ri_p j i
  de_ps : te'.de_ri_p j i = tm.de_ri_s j i

/-- The layers of a structure in the opposite order. -/
def reversed : Structure → Structure
  | .raster u => .raster { u with layers := u.layers.reverse }
  | .vector ls => .vector ls.reverse

/-- The same settings with the stack upside down (layers, thicknesses and claddings) and angle of incidence `θ'`. -/
abbrev flipped (s : Settings) (θ' : ℂ) : Settings :=
  { s with
    ucell := reversed s.ucell
    p := { s.p with n_top := s.p.n_bot, n_bot := s.p.n_top, theta := θ', thickness := s.p.thickness.reverse } }

/-- Light under `θ'` from below the stack runs along the directly transmitted wave, backwards (Snell's law). -/
def Backwards (s : Settings) (θ' : ℂ) : Prop := s.p.n_bot * Complex.sin θ' = -(s.p.n_top * Complex.sin s.p.theta)

/-- Direct transmission through a stack and, primed, through the same stack from below, for TE and TM solves with
cosines `c` and `c'` of the two angles of incidence. -/
structure SameTransmission {ny nx : ℕ} (n n' c c' : ℂ) (r r' : SubRes ny nx) (j : Fin ny) (i : Fin nx) : Prop where
  T_s : n * c * r'.T_s j i = n' * c' * r.T_s j i
  T_p : c / n * r'.T_p j i = c' / n' * r.T_p j i
  de_ti_s : r'.de_ti_s j i = r.de_ti_s j i
  de_ti_p : r'.de_ti_p j i = r.de_ti_p j i
  de_ti : r'.de_ti j i = r.de_ti j i

/-- The same with polarization: s to p one way is p to s the other way. -/
structure ReciprocalTransmission {ny nx : ℕ} (n n' c c' : ℂ) (te tm te' tm' : SubRes ny nx) (j : Fin ny) (i : Fin nx) :
    Prop where
  ss : n * c * te'.T_s j i = n' * c' * te.T_s j i
  pp : c * tm'.T_p j i = c' * tm.T_p j i
  sp : Complex.I * n * c * tm'.T_s j i = c' * te.T_p j i
  ps : c * te'.T_p j i = Complex.I * n' * c' * tm.T_s j i
  de_ss : te'.de_ti_s j i = te.de_ti_s j i
  de_pp : tm'.de_ti_p j i = tm.de_ti_p j i
  de_sp : tm'.de_ti_s j i = te.de_ti_p j i
  de_ps : te'.de_ti_p j i = tm.de_ti_s j i

end Meent.Spec
