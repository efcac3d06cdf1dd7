import Verif.Spec.ThinFilm
import Verif.Spec.Aniso

/-!
# Specification vocabulary: birefringent films (C80)

The textbook formula for films whose permittivity is diagonal in the axes of the stack, with principal indices `nx`, `ny`, `nz`.
Light splits into s and p parts that never mix when the film is uniaxial with its axis along the normal (`nx = ny`: ordinary and
extraordinary light), or when the plane of incidence is the x–z plane.
-/

namespace Meent.Spec

/-- A homogeneous birefringent film: its principal indices, the normal wavenumbers of s and p light in it (in units of the vacuum
wavenumber) and its thickness. -/
structure Crystal where
  nx : ℂ
  ny : ℂ
  nz : ℂ
  ks : ℂ
  kp : ℂ
  d : ℝ

/-- Refraction of light of transverse wavenumber `κ`: the s part feels `ny` alone, the p part obeys
`kp² / nx² + κ² / nz² = 1`.  Neither may run exactly along the film. -/
structure Crystal.Refracts (κ : ℂ) (f : Crystal) : Prop where
  nx_ne : f.nx ≠ 0
  ny_ne : f.ny ≠ 0
  nz_ne : f.nz ≠ 0
  ks_ne : f.ks ≠ 0
  kp_ne : f.kp ≠ 0
  ordinary : f.ks ^ 2 = f.ny ^ 2 - κ ^ 2
  extraordinary : f.kp ^ 2 / f.nx ^ 2 + κ ^ 2 / f.nz ^ 2 = 1

/-- What s light meets: an ordinary film of index `ny`. -/
def Crystal.s (f : Crystal) : Film := ⟨f.ny, f.ks, f.d⟩

/-- What p light meets: impedance `kp / nx²` and phase `k0 kp d`. -/
def Crystal.p (f : Crystal) : Film := ⟨f.nx, f.kp, f.d⟩

/-- Characteristic matrix of a stack for s light, topmost film first. -/
noncomputable def sMatrix (k0 : ℝ) (fs : List Crystal) : Matrix (Fin 2) (Fin 2) ℂ := stackMatrix k0 Film.teY (fs.map Crystal.s)

/-- Characteristic matrix of a stack for p light. -/
noncomputable def pMatrix (k0 : ℝ) (fs : List Crystal) : Matrix (Fin 2) (Fin 2) ℂ := stackMatrix k0 Film.tmY (fs.map Crystal.p)

/-- The layers of the raster are the films, each of one material, listed from the top. -/
def IsCrystals (films : List Crystal) (u : Ucell3) : Prop :=
  0 < u.ny ∧ 0 < u.nx ∧ List.Forall₂ (fun l f => ∀ i j, l 0 i j = f.nx ∧ l 1 i j = f.ny ∧ l 2 i j = f.nz) u.layers films

/-- The problem is a stack of birefringent films on a lossless substrate, in which light is refracted with cosine `c₂`; the films are
uniaxial about the normal, or light comes in the x–z plane. -/
structure CrystalProblem (s : TSettings) (films : List Crystal) (c₂ : ℂ) : Prop extends LosslessCladdings s.p where
  cell : ∃ u, s.ucell = .aniso u ∧ IsCrystals films u
  coefficients : s.fourier_type = 0 ∨ s.fourier_type = 1
  thickness : s.p.thickness = films.map Crystal.d
  refracts : ∀ f ∈ films, f.Refracts (s.p.n_top * Complex.sin s.p.theta)
  aligned : (∀ f ∈ films, f.nx = f.ny) ∨ s.p.phi = none ∨ s.p.phi = some 0
  cosine : RefractionCos s.p.n_top.re s.p.n_bot.re s.p.theta.re c₂

/-- The efficiencies are those of the formula, for light whose s and p parts carry the powers `a` and `b`: all light stays in the
zeroth order. -/
structure CrystalEfficiencies {fx fy : ℕ} (p : Params) (films : List Crystal) (c₂ : ℂ) (a b : ℝ)
    (x : SubRes (2 * fy + 1) (2 * fx + 1)) : Prop where
  de_ri_s : ∀ j i, x.de_ri_s j i = if rowOrder j = 0 ∧ colOrder i = 0 then
    a * filmReflectance (p.n_top * Complex.cos p.theta) (p.n_bot * c₂) (sMatrix (k0Of p) films) else 0
  de_ri_p : ∀ j i, x.de_ri_p j i = if rowOrder j = 0 ∧ colOrder i = 0 then
    b * filmReflectance (Complex.cos p.theta / p.n_top) (c₂ / p.n_bot) (pMatrix (k0Of p) films) else 0
  de_ti_s : ∀ j i, x.de_ti_s j i = if rowOrder j = 0 ∧ colOrder i = 0 then
    a * filmTransmittance (p.n_top * Complex.cos p.theta) (p.n_bot * c₂) (sMatrix (k0Of p) films) else 0
  de_ti_p : ∀ j i, x.de_ti_p j i = if rowOrder j = 0 ∧ colOrder i = 0 then
    b * filmTransmittance (Complex.cos p.theta / p.n_top) (c₂ / p.n_bot) (pMatrix (k0Of p) films) else 0
  de_ri : ∀ j i, x.de_ri j i = x.de_ri_s j i + x.de_ri_p j i
  de_ti : ∀ j i, x.de_ti j i = x.de_ti_s j i + x.de_ti_p j i

/-- A result whose efficiencies obey the formula: one dictionary (TE or TM), or one for the configured polarization, one for TE and
one for TM. -/
def BirefringentEfficiencies (p : Params) (films : List Crystal) (c₂ : ℂ) (r : Result p.fto.1 p.fto.2) : Prop :=
  (∃ x, r = ⟨some x, none, none⟩ ∧
    (p.pol = 0 ∧ CrystalEfficiencies p films c₂ 1 0 x ∨ p.pol = 1 ∧ CrystalEfficiencies p films c₂ 0 1 x)) ∨
  (∃ y te tm, r = ⟨some y, some te, some tm⟩ ∧
    CrystalEfficiencies p films c₂ (Real.sin p.psi.re ^ 2) (Real.cos p.psi.re ^ 2) y ∧
    CrystalEfficiencies p films c₂ 1 0 te ∧ CrystalEfficiencies p films c₂ 0 1 tm)

end Meent.Spec
