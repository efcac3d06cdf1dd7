import Verif.Model.Rcwa

/-!
# Specification vocabulary: lossless inputs, total efficiency

Small definitions used in the statements of the property theorems.
-/

open Matrix

namespace Meent.Spec

/-- A complex number is real. -/
def IsReal (z : ℂ) : Prop := z.im = 0

/-- All refractive indices of the structure are real. -/
def RealStructure : Structure → Prop
  | .raster u => ∀ l ∈ u.layers, ∀ i j, IsReal (l i j)
  | .vector ls => ∀ l ∈ ls, IsReal l.base ∧
      ∀ v ∈ l.instrs, match v with
        | .rectangle _ _ _ _ n _ _ _ => IsReal n
        | .ellipse _ _ _ _ n _ _ _ => IsReal n
        | .unknown => True

/-- Illumination from a lossless medium at a real angle strictly between -90° and 90°, with real
azimuth and polarization angle; positive lengths. -/
structure RealIllumination (p : Params) : Prop where
  n_top_real : IsReal p.n_top
  n_top_pos : 0 < p.n_top.re
  theta_real : IsReal p.theta
  theta_lo : -(Real.pi / 2) < p.theta.re
  theta_hi : p.theta.re < Real.pi / 2
  phi_real : ∀ φ, p.phi = some φ → IsReal φ
  psi_real : IsReal p.psi
  wavelength_pos : 0 < p.wavelength
  period_x_pos : 0 < p.period.1
  period_y_pos : 0 < p.period.2

/-- A lossless problem: real illumination, real structure, real positive substrate index. -/
structure LosslessProblem (s : Settings) : Prop extends RealIllumination s.p where
  structure_real : RealStructure s.ucell
  n_bot_real : IsReal s.p.n_bot
  n_bot_pos : 0 < s.p.n_bot.re

/-- Sum of all reported diffraction efficiencies. -/
def totalEfficiency {a b : ℕ} (r : SubRes a b) : ℝ :=
  ∑ j, ∑ i, r.de_ri j i + ∑ j, ∑ i, r.de_ti j i

end Meent.Spec
