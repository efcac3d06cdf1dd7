import Mathlib.Probability.Distributions.Gaussian.Real
import Mathlib.Analysis.SpecialFunctions.Trigonometric.Deriv
import Mathlib.Analysis.Complex.Trigonometric
import Mathlib.MeasureTheory.Integral.IntervalIntegral.Basic
import Verif.Spec.Materials

/-!
# The published models behind the closed-form materials

What `nk_data/README.md` and the docstrings of `dispersion.py` promise: Brendel-Bormann metals are a Drude term plus Lorentz
oscillators with a Gaussian spread of their centre frequency; graphene has the Falkovsky/Kubo sheet conductivity, spread over an
effective thickness.  All in the convention `n + ik` of the literature.
-/

namespace Meent.Spec

open MeasureTheory

/-! ### Brendel-Bormann -/

/-- The wavenumber in 1/cm of light of wavelength `wl` metres. -/
noncomputable def perCm (wl : ℝ) : ℝ := 1 / (100 * wl)

/-- The photon energy in eV, at 8065.54429 wavenumbers per eV. -/
noncomputable def photonEv (wl : ℝ) : ℝ := perCm wl / 8065.54429

/-- Susceptibility of an oscillator that is sharp at the frequency `x`. -/
noncomputable def lorentz (strength damping x ω : ℝ) : ℂ :=
  strength / ((x : ℂ) ^ 2 - (ω : ℂ) ^ 2 - Complex.I * ω * damping)

/-- An oscillator with a spread of centre frequencies. -/
structure Oscillator where
  strength : ℝ
  damping : ℝ
  centre : ℝ
  width : ℝ

/-- Its susceptibility at frequency `ω`: the mean over the normal distribution with mean `centre` and standard deviation `width` of
the sharp ones.  The strength comes with a factor `c`. -/
noncomputable def Oscillator.mean (c : ℝ) (ω : ℝ) (o : Oscillator) : ℂ :=
  ∫ x, lorentz (c * o.strength) o.damping x ω ∂(ProbabilityTheory.gaussianReal o.centre (o.width ^ 2).toNNReal)

/-- Damping and width are positive. -/
def Oscillator.Spread (o : Oscillator) : Prop := 0 < o.damping ∧ 0 < o.width

/-- The permittivity of free electrons of plasma frequency `plasma`. -/
noncomputable def drude (plasma strength damping ω : ℝ) : ℂ :=
  1 - (strength * plasma ^ 2 : ℝ) / ((ω : ℂ) * (ω + Complex.I * damping))

/-- Permittivity of a Brendel-Bormann metal with parameters in eV. -/
noncomputable def metal (plasma strength damping : ℝ) (osc : List Oscillator) (wl : ℝ) : ℂ :=
  drude plasma strength damping (photonEv wl) + (osc.map (Oscillator.mean (plasma ^ 2) (photonEv wl))).sum

/-- Its coefficient list. -/
def metalCoefficients (plasma strength damping : ℝ) (osc : List Oscillator) : List ℝ :=
  plasma :: strength :: damping :: osc.flatMap fun o => [o.strength, o.damping, o.centre, o.width]

/-- Permittivity of a Brendel-Bormann crystal with parameters in wavenumbers. -/
noncomputable def crystal (eps_inf : ℝ) (osc : List Oscillator) (wl : ℝ) : ℂ :=
  eps_inf + (osc.map (Oscillator.mean 1 (perCm wl))).sum

/-- Its coefficient list. -/
def crystalCoefficients (eps_inf : ℝ) (osc : List Oscillator) : List ℝ :=
  eps_inf :: osc.flatMap fun o => [o.strength, o.damping, o.width, o.centre]

/-- The refractive index `n + ik` of a permittivity: its principal square root. -/
noncomputable def rootIndex (eps : ℂ) : ℂ := eps ^ (1 / 2 : ℂ)

/-! ### Graphene -/

/-- How far states at the energies `±x` differ in their occupation, at Fermi level `μ` and thermal energy `T`. -/
noncomputable def occupationGap (μ T x : ℝ) : ℝ := Real.sinh (x / T) / (Real.cosh (μ / T) + Real.cosh (x / T))

/-- Sheet conductivity at photon energy `E` with scattering energy `Γ` (all energies in eV) for the occupation function `G`:
intraband and interband part.  `e` is the elementary charge, `ℏ` the reduced Planck constant. -/
noncomputable def sheetConductivity (e ℏ μ T Γ : ℝ) (G : ℝ → ℝ) (E : ℝ) : ℂ :=
  2 * Complex.I * e ^ 2 * T / (Real.pi * ℏ * (E + Complex.I * Γ)) * Real.log (2 * Real.cosh (μ / (2 * T))) +
    e ^ 2 / (4 * ℏ) *
      (G (E / 2) + 4 * Complex.I * E / Real.pi * ((∫ z in (0 : ℝ)..1000, (G z - G (E / 2)) / (E ^ 2 - 4 * z ^ 2) : ℝ) : ℂ))

/-- `G` stands for `occupationGap` in double precision: equal to it while the ratio of the two hyperbolic cosines is within
`exp(-745) … exp 709`, and never further away than `exp(-709)`. -/
def RoundedGap (μ T : ℝ) (G : ℝ → ℝ) : Prop :=
  (∀ x, Real.exp (-745) ≤ Real.cosh (μ / T) / Real.cosh (x / T) → Real.cosh (μ / T) / Real.cosh (x / T) ≤ Real.exp 709 →
    G x = occupationGap μ T x) ∧
  ∀ x, |G x - occupationGap μ T x| ≤ Real.exp (-709)

/-- The quadrature integrates from 0 to 1000. -/
def IsQuadrature (q : (ℝ → ℝ) → ℝ → ℝ) : Prop :=
  ∀ (f : ℝ → ℝ) (p : ℝ), IntervalIntegrable f volume 0 1000 → q f p = ∫ z in (0 : ℝ)..1000, f z

/-- Permittivity of a layer of the given thickness with sheet conductivity `σ`, at angular frequency `ω`. -/
noncomputable def sheetPermittivity (eps0 ω thickness : ℝ) (σ : ℂ) : ℂ := 1 + Complex.I * σ / (ω * eps0 * thickness)

/-- The constants of the MATLAB source: elementary charge, reduced Planck constant, Boltzmann constant, speed of light, vacuum
permittivity and Fermi velocity. -/
structure Constants where
  e : ℝ
  hbar : ℝ
  boltzmann : ℝ
  c : ℝ
  eps0 : ℝ
  fermiVelocity : ℝ

/-- Their values in SI units. -/
noncomputable def si : Constants where
  e := 1.6021773349e-19
  hbar := 1.0545718e-34
  boltzmann := 1.38064852e-23
  c := 299792458
  eps0 := 8.85418781762039e-12
  fermiVelocity := 1000000

/-- Angular frequency of light of wavelength `wl`. -/
noncomputable def angular (wl : ℝ) : ℝ := 2 * Real.pi * si.c / wl

/-- Photon energy `ℏω` in eV. -/
noncomputable def photonEnergy (wl : ℝ) : ℝ := si.hbar * angular wl / si.e

/-- Thermal energy in eV at `temperature` kelvin. -/
noncomputable def thermal (temperature : ℝ) : ℝ := si.boltzmann * temperature / si.e

/-- Scattering energy in eV for a mobility in cm²/Vs: `ℏ v² / (mobility e μ)`, with the mobility converted to m²/Vs. -/
noncomputable def scattering (μ mobility : ℝ) : ℝ := si.hbar * si.fermiVelocity ^ 2 / (mobility / 10000 * si.e * μ)

/-- Permittivity of graphene at Fermi level `μ` (eV), mobility, temperature and effective thickness (m) for the occupation
function `G`. -/
noncomputable def graphene (μ mobility temperature thickness : ℝ) (G : ℝ → ℝ) (wl : ℝ) : ℂ :=
  sheetPermittivity si.eps0 (angular wl) thickness
    (sheetConductivity si.e si.hbar μ (thermal temperature) (scattering μ mobility) G (photonEnergy wl))

/-- The index shown to the user, in the convention `n - ik` of the solver, or only its real part if the name ends in `__real`. -/
noncomputable def shown (realPart : Bool) (n : ℂ) : ℂ := if realPart then (n.re : ℂ) else star n

end Meent.Spec
