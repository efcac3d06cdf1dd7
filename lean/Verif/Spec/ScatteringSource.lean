import Verif.Model.ScatteringSource

/-!
# Specification: sources and efficiencies of the 2D scattering functions
-/

namespace Meent.Spec

/-- The wave vector of light in a medium of index `n` at the angles `θ` and `φ`, in units of the vacuum wave number. -/
noncomputable def incident (n θ φ : ℝ) : Fin 3 → ℂ :=
  ![(n : ℂ) * (Complex.sin θ * Complex.cos φ), (n : ℂ) * (Complex.sin θ * Complex.sin φ), (n : ℂ) * Complex.cos θ]

/-- The zero order of a `(2 fy + 1) × (2 fx + 1)` grid. -/
def IsZeroOrder {fx fy : ℕ} (i : FlatIdx fx fy) : Prop := (i.modNat : ℕ) = fx ∧ (i.divNat : ℕ) = fy

/-- The sum of the efficiencies. -/
noncomputable def total2D {fx fy : ℕ} (d : Efficiencies2 fx fy) : ℝ := ∑ i, (d.de_ri_s i + d.de_ri_p i + d.de_ti_s i + d.de_ti_p i)

/-- The efficiencies of no layers between two half spaces: `scattering_2d_1`, then `scattering_2d_3`. -/
noncomputable def interface2D (n_I n_II theta phi : ℂ) (k0 : ℝ) (period : ℝ × ℝ) (fx fy : ℕ) (kx : Fin (2 * fx + 1) → ℂ) (ky : Fin (2 * fy + 1) → ℂ) (pol : ℝ) :
    Res (Efficiencies2 fx fy) := do
  let r ← scattering_2d_1 n_I n_II theta phi k0 period fx fy kx ky
  scattering_2d_3 r.Vt r.Vg r.Sg r.kz_top r.kz_bot n_I n_II pol theta phi

end Meent.Spec
