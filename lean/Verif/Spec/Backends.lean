import Verif.Spec.Shift
import Verif.Spec.Optics
import Verif.Model.Rcwa

/-!
# Vocabulary for comparing the backends (C40)
-/

namespace Meent.Spec

/-- One sign per x order. -/
def IsSigns {n : ℕ} (σ : Fin n → ℂ) : Prop := ∀ i, σ i = 1 ∨ σ i = -1

/-- The amplitudes of `r'` are those of `r` conjugated, times the sign of the order and a fixed factor: 1 for
the s parts, `cr` for the reflected and `ct` for the transmitted p part. -/
structure ConjAmplitudes {ny nx : ℕ} (σ : Fin nx → ℂ) (cr ct : ℂ) (r r' : SubRes ny nx) : Prop where
  R_s : ∀ j i, r'.R_s j i = σ i * star (r.R_s j i)
  R_p : ∀ j i, r'.R_p j i = cr * σ i * star (r.R_p j i)
  T_s : ∀ j i, r'.T_s j i = σ i * star (r.T_s j i)
  T_p : ∀ j i, r'.T_p j i = ct * σ i * star (r.T_p j i)

/-- The same when only the reflected amplitudes are conjugated and signed; the transmitted s part has the fixed
factor `c`, the p parts in addition `cr` and `ct`. -/
structure MixedAmplitudes {ny nx : ℕ} (σ : Fin nx → ℂ) (c cr ct : ℂ) (r r' : SubRes ny nx) : Prop where
  R_s : ∀ j i, r'.R_s j i = σ i * star (r.R_s j i)
  R_p : ∀ j i, r'.R_p j i = cr * σ i * star (r.R_p j i)
  T_s : ∀ j i, r'.T_s j i = c * r.T_s j i
  T_p : ∀ j i, r'.T_p j i = ct * c * r.T_p j i

/-- The same settings with another polarization angle. -/
abbrev withPsi (s : Settings) (psi : ℂ) : Settings := { s with p := { s.p with psi := psi } }

/-- Illumination from a lossless medium at a real angle, over a lossless substrate. -/
structure LosslessCladdings (p : Params) : Prop extends RealIllumination p where
  n_bot_real : IsReal p.n_bot
  n_bot_pos : 0 < p.n_bot.re

/-- The eigenvalues of every layer of a 2D solve are away from zero. -/
def ModesAway {fx fy : ℕ} (sol : Solved fx fy) : Prop :=
  ∀ o, sol = .twoD o → ∀ l ∈ o.infos, ∀ i, 1 / 10 ^ 10 ≤ ‖l.modes.q i‖

/-- What two solves of the conical or 2D solver have in common: all efficiencies, and amplitudes up to
conjugation, order signs and fixed factors. -/
structure AgreeUpToConvention {fx fy : ℕ} (nt nb : ℂ) (r r' : Result fx fy) : Prop where
  eff : SameEfficiencies r r'
  res : ∃ x x' σ, r.res = some x ∧ r'.res = some x' ∧ IsSigns σ ∧
    ConjAmplitudes σ (-Complex.I / nt) (-Complex.I / nb) x x'
  te : ∃ x x' σ c, r.res_te_inc = some x ∧ r'.res_te_inc = some x' ∧ IsSigns σ ∧ (c = 1 ∨ c = -1) ∧
    MixedAmplitudes σ c (Complex.I / nt) (-Complex.I / nb) x x'
  tm : ∃ x x' σ c, r.res_tm_inc = some x ∧ r'.res_tm_inc = some x' ∧ IsSigns σ ∧ (c = 1 ∨ c = -1) ∧
    MixedAmplitudes σ c (Complex.I / nt) (-Complex.I / nb) x x'

/-- Every ellipse is drawn with at least four samples per turn, that is three points of the contour. -/
def EllipsesSplit (u : Structure) : Prop :=
  ∀ ls, u = .vector ls → ∀ l ∈ ls, ∀ cx cy lx ly n angle nw nh, VInstr.ellipse cx cy lx ly n angle nw nh ∈ l.instrs → 4 ≤ nw

end Meent.Spec
