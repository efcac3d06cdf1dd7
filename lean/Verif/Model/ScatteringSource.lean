import Verif.Model.Scattering2D
import Mathlib.LinearAlgebra.CrossProduct

/-!
# Model: sources and efficiencies of the 2D scattering functions
(meent/on_numpy/emsolver/scattering_method.py, meent/on_numpy/emsolver/smm_util.py)
-/

open Matrix

namespace Meent

/-- `K_matrix_cubic_2D` (smm_util.py:181-202): the diagonals of `Kx` and `Ky`. -/
noncomputable def K_matrix_cubic_2D (beta_x beta_y : ℂ) (k0 a_x a_y : ℝ) (N_p N_q : ℕ) : (FlatIdx N_p N_q → ℂ) × (FlatIdx N_p N_q → ℂ) :=
  (fun i => beta_x - ((2 * Real.pi * (((i.modNat : ℕ) : ℝ) - N_p) / (k0 * a_x) : ℝ) : ℂ), fun i => beta_y - ((2 * Real.pi * (((i.divNat : ℕ) : ℝ) - N_q) / (k0 * a_y) : ℝ) : ℂ))

/-- `delta_vector` (smm_util.py:233-245). -/
def delta_vector (P Q : ℕ) : Fin (P * Q) → ℂ := fun i => if (i : ℕ) = P / 2 * Q + Q / 2 then 1 else 0

/-- `v / np.linalg.norm(v)`.  Simplification: for `v = 0` NumPy gives nan, here the result is 0. -/
noncomputable def normalized (v : Fin 3 → ℂ) : Fin 3 → ℂ := fun i => v i / ((Real.sqrt (∑ j, ‖v j‖ ^ 2) : ℝ) : ℂ)

open Classical in
/-- `initial_conditions` (smm_util.py:248-282): `E_inc` (which is `polarization`) and `e_src`. -/
noncomputable def initial_conditions (K_inc : Fin 3 → ℂ) (theta : ℂ) (normal_vector : Fin 3 → ℂ) (pte ptm : ℂ) (P Q : ℕ) : (Fin 3 → ℂ) × (FlatIdx Q P ⊕ FlatIdx Q P → ℂ) :=
  let ate := if theta ≠ 0 then normalized (crossProduct K_inc normal_vector) else ![0, 1, 0]
  let atm := normalized (crossProduct ate K_inc)
  let polarization := fun i => pte * ate i + ptm * atm i
  let delta := delta_vector (2 * P + 1) (2 * Q + 1)
  (polarization, Sum.elim (fun i => polarization 0 * delta i) fun i => polarization 1 * delta i)

/-- What `scattering_2d_1` returns, without the identity matrices and what no later step uses. -/
structure Scatter2 (fx fy : ℕ) where
  Vg : Matrix (FlatIdx fx fy ⊕ FlatIdx fx fy) (FlatIdx fx fy ⊕ FlatIdx fx fy) ℂ
  Vt : Matrix (FlatIdx fx fy ⊕ FlatIdx fx fy) (FlatIdx fx fy ⊕ FlatIdx fx fy) ℂ
  Sg : SDict (FlatIdx fx fy ⊕ FlatIdx fx fy)
  kz_top : FlatIdx fx fy → ℂ
  kz_bot : FlatIdx fx fy → ℂ

/-- `scattering_2d_1` (scattering_method.py:76-119).  `kx` and `ky` are arrays of complex numbers.  The prints are left out. -/
noncomputable def scattering_2d_1 (n_I n_II theta phi : ℂ) (k0 : ℝ) (period : ℝ × ℝ) (fx fy : ℕ) (kx : Fin (2 * fx + 1) → ℂ) (ky : Fin (2 * fy + 1) → ℂ) : Res (Scatter2 fx fy) := do
  let kx_inc := n_I * Complex.sin theta * Complex.cos phi
  let ky_inc := n_I * Complex.sin theta * Complex.sin phi
  let K := K_matrix_cubic_2D kx_inc ky_inc k0 period.1 period.2 fx fy
  let g ← homogeneous_module K.1 K.2 1
  let r ← homogeneous_module K.1 K.2 (n_I ^ 2)
  let t ← homogeneous_module K.1 K.2 (n_II ^ 2)
  let AB ← A_B_matrices_half_space r.1 g.1
  let Sr ← S_RT AB.1 AB.2 true
  .ok { Vg := g.1, Vt := t.1, Sg := Sr, kz_top := fun i => star (csqrt (n_I ^ 2 - kx i.modNat ^ 2 - ky i.divNat ^ 2)),
        kz_bot := fun i => star (csqrt (n_II ^ 2 - kx i.modNat ^ 2 - ky i.divNat ^ 2)) }

/-- The efficiencies that `scattering_2d_3` returns. -/
structure Efficiencies2 (fx fy : ℕ) where
  de_ri_s : FlatIdx fx fy → ℝ
  de_ri_p : FlatIdx fx fy → ℝ
  de_ti_s : FlatIdx fx fy → ℝ
  de_ti_p : FlatIdx fx fy → ℝ

/-- `scattering_2d_3` (scattering_method.py:131-196) with `Wr = Wt = Wg = 1`: the four efficiencies.  The print is left out. -/
noncomputable def scattering_2d_3 {fx fy : ℕ} (Vt Vg : Matrix (FlatIdx fx fy ⊕ FlatIdx fx fy) (FlatIdx fx fy ⊕ FlatIdx fx fy) ℂ) (Sg : SDict (FlatIdx fx fy ⊕ FlatIdx fx fy))
    (kz_top kz_bot : FlatIdx fx fy → ℂ) (n_top n_bot : ℂ) (pol : ℝ) (theta phi : ℂ) : Res (Efficiencies2 fx fy) := do
  let pt ← (if pol = 0 then .ok (1, 0) else if pol = 1 then .ok (0, 1) else .error .valueError : Res (ℂ × ℂ))
  let AB ← A_B_matrices_half_space Vt Vg
  let St ← S_RT AB.1 AB.2 false
  let Sg ← RedhefferStar Sg St
  let K_inc : Fin 3 → ℂ := ![n_top * (Complex.sin theta * Complex.cos phi), n_top * (Complex.sin theta * Complex.sin phi), n_top * Complex.cos theta]
  let src := initial_conditions K_inc theta ![0, 0, 1] pt.1 pt.2 fy fx
  let c_inc := src.2
  let reflected := Sg.S11 *ᵥ c_inc
  let transmitted := Sg.S21 *ᵥ c_inc
  .ok { de_ri_s := fun i => ‖reflected (.inl i)‖ ^ 2 * (kz_top i / (n_top * Complex.cos theta)).re,
        de_ri_p := fun i => ‖reflected (.inr i)‖ ^ 2 * (kz_top i / n_top ^ 2 / (n_top * Complex.cos theta)).re,
        de_ti_s := fun i => ‖transmitted (.inl i)‖ ^ 2 * (kz_bot i / (n_top * Complex.cos theta)).re,
        de_ti_p := fun i => ‖transmitted (.inr i)‖ ^ 2 * (kz_bot i / n_bot ^ 2 / (n_top * Complex.cos theta)).re }

end Meent
