import Verif.Lemmas.Bare

/-!
# C15: the grating equation
-/

namespace Meent

/-- **C15.**  The in-plane wavenumbers the solver uses are those of the grating equation: order `(m, k)` sits at
`n_top sin θ cos φ + m λ/Λx` and `n_top sin θ sin φ + k λ/Λy`. -/
theorem C15_grating_equation (p : Params) (h : Spec.RealIllumination p)
    (i : Fin (2 * p.fto.1 + 1)) (j : Fin (2 * p.fto.2 + 1)) :
    kxVec p p.wavelength i = ((p.n_top.re * Real.sin p.theta.re * Real.cos (p.phi.getD 0).re
      + ((i : ℤ) - p.fto.1 : ℤ) * (p.wavelength / p.period.1) : ℝ) : ℂ) ∧
    kyVec p p.wavelength j = ((p.n_top.re * Real.sin p.theta.re * Real.sin (p.phi.getD 0).re
      + ((j : ℤ) - p.fto.2 : ℤ) * (p.wavelength / p.period.2) : ℝ) : ℂ) :=
  ⟨kxVec_order h i, kyVec_order h j⟩

/-- **C15, the specular order.**  The longitudinal wavenumber of order `(0, 0)` in the cover is `n_top cos θ`, in the
TE/TM solver and in the conical and 2D solvers. -/
theorem C15_specular (p : Params) (h : Spec.RealIllumination p)
    (i : Fin (2 * p.fto.1 + 1)) (j : Fin (2 * p.fto.2 + 1)) (hi : Spec.colOrder i = 0) (hj : Spec.rowOrder j = 0) :
    (p.phi = none → kz1d p.n_top (kxVec p p.wavelength) i = ((p.n_top.re * Real.cos p.theta.re : ℝ) : ℂ)) ∧
    kz2d p.n_top (tileX (kxVec p p.wavelength)) (tileY (kyVec p p.wavelength)) (finProdFinEquiv (j, i))
      = ((p.n_top.re * Real.cos p.theta.re : ℝ) : ℂ) := by
  have hinc := RealIncidence.of_spec h
  rw [colOrder_zero.mp hi, rowOrder_zero.mp hj]
  exact ⟨fun hphi => hinc.kz_ctr hphi p.wavelength, hinc.kz_ctr2 (phi_getD_real h) p.wavelength⟩

/-- Non-vacuity: a lossless conical problem with azimuth. -/
example : Spec.RealIllumination (exSettings 0 (some ((Real.pi / 3 : ℝ) : ℂ))).p :=
  (exSettings_lossless 0 (some ((Real.pi / 3 : ℝ) : ℂ))
    (by intro φ h; cases h; rw [Spec.IsReal, Complex.ofReal_im])).toRealIllumination

end Meent

#print axioms Meent.C15_grating_equation
#print axioms Meent.C15_specular
