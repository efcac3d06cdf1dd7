import Verif.Model.Rcwa

/-!
# Specification vocabulary: diffraction orders and the grating equation

Real-valued wavenumbers (in units of the vacuum wavenumber) of the orders of a problem whose cover,
angle and azimuth are real.
-/

namespace Meent.Spec

/-- In-plane wavenumber of the x order `m`. -/
noncomputable def orderKx (p : Params) (m : ℤ) : ℝ :=
  p.n_top.re * Real.sin p.theta.re * Real.cos (p.phi.getD 0).re + m * (p.wavelength / p.period.1)

/-- In-plane wavenumber of the y order `m`. -/
noncomputable def orderKy (p : Params) (m : ℤ) : ℝ :=
  p.n_top.re * Real.sin p.theta.re * Real.sin (p.phi.getD 0).re + m * (p.wavelength / p.period.2)

/-- Squared in-plane wavenumber of order `(m, k)`. -/
noncomputable def inPlaneSq (p : Params) (m k : ℤ) : ℝ := orderKx p m ^ 2 + orderKy p k ^ 2

/-- Order `(m, k)` propagates in a lossless medium of index `n`. -/
def Propagating (p : Params) (n : ℝ) (m k : ℤ) : Prop := inPlaneSq p m k ≤ n ^ 2

/-- Real part of the longitudinal wavenumber of order `(m, k)` in a lossless medium of index `n`: the
root of `n² - kx² - ky²` for a propagating order and `0` for an evanescent one. -/
noncomputable def orderKzRe (p : Params) (n : ℝ) (m k : ℤ) : ℝ := Real.sqrt (n ^ 2 - inPlaneSq p m k)

/-- x order of column `i` of a result array. -/
def colOrder {fx : ℕ} (i : Fin (2 * fx + 1)) : ℤ := (i : ℤ) - fx

/-- y order of row `j` of a result array. -/
def rowOrder {fy : ℕ} (j : Fin (2 * fy + 1)) : ℤ := (j : ℤ) - fy

/-- `x` is one of the dictionaries of a result (`res`, `res_te_inc`, `res_tm_inc`). -/
def Reports {fx fy : ℕ} (r : Result fx fy) (x : SubRes (2 * fy + 1) (2 * fx + 1)) : Prop :=
  r.res = some x ∨ r.res_te_inc = some x ∨ r.res_tm_inc = some x

/-- The efficiencies of `r` are those of its amplitudes: entry `[j, i]` is the squared modulus of the
amplitude at `[j, i]` times the longitudinal wavenumber of order `(i - fto_x, j - fto_y)` over that of the
incident wave, and `wr`, `wt` times that for the p parts (normalisation of the p amplitudes). -/
structure EfficiencyLaw (p : Params) (wr wt : ℝ) (r : SubRes (2 * p.fto.2 + 1) (2 * p.fto.1 + 1)) : Prop where
  ri_s : ∀ j i, r.de_ri_s j i = ‖r.R_s j i‖ ^ 2 *
    (orderKzRe p p.n_top.re (colOrder i) (rowOrder j) / (p.n_top.re * Real.cos p.theta.re))
  ri_p : ∀ j i, r.de_ri_p j i = wr * ‖r.R_p j i‖ ^ 2 *
    (orderKzRe p p.n_top.re (colOrder i) (rowOrder j) / (p.n_top.re * Real.cos p.theta.re))
  ti_s : ∀ j i, r.de_ti_s j i = ‖r.T_s j i‖ ^ 2 *
    (orderKzRe p p.n_bot.re (colOrder i) (rowOrder j) / (p.n_top.re * Real.cos p.theta.re))
  ti_p : ∀ j i, r.de_ti_p j i = wt * ‖r.T_p j i‖ ^ 2 *
    (orderKzRe p p.n_bot.re (colOrder i) (rowOrder j) / (p.n_top.re * Real.cos p.theta.re))
  ri : ∀ j i, r.de_ri j i = r.de_ri_s j i + r.de_ri_p j i
  ti : ∀ j i, r.de_ti j i = r.de_ti_s j i + r.de_ti_p j i

end Meent.Spec
