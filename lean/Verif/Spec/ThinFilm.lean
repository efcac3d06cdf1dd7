import Verif.Spec.Fresnel
import Verif.Spec.Maxwell
import Verif.Spec.Optics
import Verif.Spec.Structures

/-!
# Specification vocabulary: thin films

The textbook (Abelès) formula for a stack of homogeneous films between two media, for the time dependence `exp(+i ω t)`.  It works with
two-by-two matrices and knows nothing of diffraction orders.
-/

open Matrix

namespace Meent.Spec

/-- A homogeneous film: refractive index, normal wavenumber in units of the vacuum wavenumber (`n cos θ` inside the film) and
thickness. -/
structure Film where
  n : ℂ
  kz : ℂ
  d : ℝ

/-- Snell's law for light whose transverse wavenumber is `κ`, in units of the vacuum wavenumber.  Either square root will do.  The light
must not run exactly along the film (`kz = 0`). -/
structure Film.Refracts (κ : ℂ) (f : Film) : Prop where
  n_ne : f.n ≠ 0
  kz_ne : f.kz ≠ 0
  snell : f.kz ^ 2 = f.n ^ 2 - κ ^ 2

/-- Tilted admittance for TE light: tangential magnetic over electric field of a plane wave. -/
def Film.teY (f : Film) : ℂ := f.kz

/-- Tilted impedance for TM light: tangential electric over magnetic field of a plane wave. -/
noncomputable def Film.tmY (f : Film) : ℂ := f.kz / f.n ^ 2

/-- Characteristic matrix of a film: from the tangential fields at its bottom to those at its top. -/
noncomputable def filmMatrix (k0 : ℝ) (Y : Film → ℂ) (f : Film) : Matrix (Fin 2) (Fin 2) ℂ :=
  let δ : ℂ := k0 * f.kz * f.d
  !![Complex.cos δ, Complex.I * Complex.sin δ / Y f; Complex.I * Y f * Complex.sin δ, Complex.cos δ]

/-- Characteristic matrix of a stack, topmost film first. -/
noncomputable def stackMatrix (k0 : ℝ) (Y : Film → ℂ) (fs : List Film) : Matrix (Fin 2) (Fin 2) ℂ := (fs.map (filmMatrix k0 Y)).prod

/-- Amplitude reflected by a stack with characteristic matrix `M` between media of admittances `Y₀` and `Y₁`. -/
noncomputable def filmR (Y₀ Y₁ : ℂ) (M : Matrix (Fin 2) (Fin 2) ℂ) : ℂ :=
  let B := M 0 0 + M 0 1 * Y₁
  let C := M 1 0 + M 1 1 * Y₁
  (Y₀ * B - C) / (Y₀ * B + C)

/-- Amplitude transmitted by the stack. -/
noncomputable def filmT (Y₀ Y₁ : ℂ) (M : Matrix (Fin 2) (Fin 2) ℂ) : ℂ :=
  let B := M 0 0 + M 0 1 * Y₁
  let C := M 1 0 + M 1 1 * Y₁
  2 * Y₀ / (Y₀ * B + C)

/-- Reflected power. -/
noncomputable def filmReflectance (Y₀ Y₁ : ℂ) (M : Matrix (Fin 2) (Fin 2) ℂ) : ℝ := ‖filmR Y₀ Y₁ M‖ ^ 2

/-- Transmitted power. -/
noncomputable def filmTransmittance (Y₀ Y₁ : ℂ) (M : Matrix (Fin 2) (Fin 2) ℂ) : ℝ := ‖filmT Y₀ Y₁ M‖ ^ 2 * (Y₁.re / Y₀.re)

/-- The layers of the structure are the films, each of one material, listed from the top; as a raster or as vector shapes. -/
def IsFilms (films : List Film) : Structure → Prop
  | .raster u => 0 < u.ny ∧ 0 < u.nx ∧ List.Forall₂ (fun l f => ∀ i j, l i j = f.n) u.layers films
  | .vector ls => List.Forall₂ (fun l f => HomogeneousVLayer f.n l) ls films

/-- The problem is a stack of films on a lossless substrate, in which light is refracted with cosine `c₂`. -/
structure FilmProblem (s : Settings) (films : List Film) (c₂ : ℂ) : Prop extends RealIllumination s.p where
  n_bot_real : IsReal s.p.n_bot
  n_bot_pos : 0 < s.p.n_bot.re
  layers : IsFilms films s.ucell
  thickness : s.p.thickness = films.map Film.d
  refracts : ∀ f ∈ films, f.Refracts (s.p.n_top * Complex.sin s.p.theta)
  cosine : RefractionCos s.p.n_top.re s.p.n_bot.re s.p.theta.re c₂

/-- The amplitudes are those of the thin-film formula, for light whose s part has the incident electric amplitude `e` and whose
p part has the incident magnetic amplitude `h`: all light stays in the zeroth order. -/
structure FilmAmplitudes {fx fy : ℕ} (p : Params) (films : List Film) (c₂ e h : ℂ) (x : SubRes (2 * fy + 1) (2 * fx + 1)) : Prop where
  R_s : ∀ j i, x.R_s j i = if rowOrder j = 0 ∧ colOrder i = 0 then
    e * filmR (p.n_top * Complex.cos p.theta) (p.n_bot * c₂) (stackMatrix (k0Of p) Film.teY films) else 0
  R_p : ∀ j i, x.R_p j i = if rowOrder j = 0 ∧ colOrder i = 0 then
    h * filmR (Complex.cos p.theta / p.n_top) (c₂ / p.n_bot) (stackMatrix (k0Of p) Film.tmY films) else 0
  T_s : ∀ j i, x.T_s j i = if rowOrder j = 0 ∧ colOrder i = 0 then
    e * filmT (p.n_top * Complex.cos p.theta) (p.n_bot * c₂) (stackMatrix (k0Of p) Film.teY films) else 0
  T_p : ∀ j i, x.T_p j i = if rowOrder j = 0 ∧ colOrder i = 0 then
    h * filmT (Complex.cos p.theta / p.n_top) (c₂ / p.n_bot) (stackMatrix (k0Of p) Film.tmY films) else 0

/-- The efficiencies are those of the thin-film formula, for light whose s and p parts carry the powers `a` and `b`: all light
stays in the zeroth order. -/
structure FilmEfficiencies {fx fy : ℕ} (p : Params) (films : List Film) (c₂ : ℂ) (a b : ℝ)
    (x : SubRes (2 * fy + 1) (2 * fx + 1)) : Prop where
  de_ri_s : ∀ j i, x.de_ri_s j i = if rowOrder j = 0 ∧ colOrder i = 0 then
    a * filmReflectance (p.n_top * Complex.cos p.theta) (p.n_bot * c₂) (stackMatrix (k0Of p) Film.teY films) else 0
  de_ri_p : ∀ j i, x.de_ri_p j i = if rowOrder j = 0 ∧ colOrder i = 0 then
    b * filmReflectance (Complex.cos p.theta / p.n_top) (c₂ / p.n_bot) (stackMatrix (k0Of p) Film.tmY films) else 0
  de_ti_s : ∀ j i, x.de_ti_s j i = if rowOrder j = 0 ∧ colOrder i = 0 then
    a * filmTransmittance (p.n_top * Complex.cos p.theta) (p.n_bot * c₂) (stackMatrix (k0Of p) Film.teY films) else 0
  de_ti_p : ∀ j i, x.de_ti_p j i = if rowOrder j = 0 ∧ colOrder i = 0 then
    b * filmTransmittance (Complex.cos p.theta / p.n_top) (c₂ / p.n_bot) (stackMatrix (k0Of p) Film.tmY films) else 0
  de_ri : ∀ j i, x.de_ri j i = x.de_ri_s j i + x.de_ri_p j i
  de_ti : ∀ j i, x.de_ti j i = x.de_ti_s j i + x.de_ti_p j i

/-- A result whose amplitudes obey the thin-film formula.  TE/TM calculations report one dictionary, for unit amplitude of `Ey`
or `Hy`; the others report one for the configured polarization, one for TE and one for TM, with p amplitudes in units in which the
incident one is `i n_top cos ψ`. -/
def ThinFilmAmplitudes (p : Params) (films : List Film) (c₂ : ℂ) (r : Result p.fto.1 p.fto.2) : Prop :=
  (∃ x, r = ⟨some x, none, none⟩ ∧ (p.pol = 0 ∧ FilmAmplitudes p films c₂ 1 0 x ∨ p.pol = 1 ∧ FilmAmplitudes p films c₂ 0 1 x)) ∨
  (∃ y te tm, r = ⟨some y, some te, some tm⟩ ∧
    FilmAmplitudes p films c₂ (Complex.sin p.psi) (Complex.I * p.n_top * Complex.cos p.psi) y ∧
    FilmAmplitudes p films c₂ 1 0 te ∧ FilmAmplitudes p films c₂ 0 (Complex.I * p.n_top) tm)

/-- A result whose efficiencies obey the thin-film formula. -/
def ThinFilmEfficiencies (p : Params) (films : List Film) (c₂ : ℂ) (r : Result p.fto.1 p.fto.2) : Prop :=
  (∃ x, r = ⟨some x, none, none⟩ ∧ (p.pol = 0 ∧ FilmEfficiencies p films c₂ 1 0 x ∨ p.pol = 1 ∧ FilmEfficiencies p films c₂ 0 1 x)) ∨
  (∃ y te tm, r = ⟨some y, some te, some tm⟩ ∧
    FilmEfficiencies p films c₂ (Real.sin p.psi.re ^ 2) (Real.cos p.psi.re ^ 2) y ∧
    FilmEfficiencies p films c₂ 1 0 te ∧ FilmEfficiencies p films c₂ 0 1 tm)

end Meent.Spec
