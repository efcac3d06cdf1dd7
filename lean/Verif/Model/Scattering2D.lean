import Verif.Model.Transfer2D
import Verif.Model.Scattering

/-!
# Modes for the scattering matrices of 2D problems

`on_numpy/emsolver/smm_util.py` and `on_numpy/emsolver/scattering_method.py`.  Diagonal matrices `Kx`, `Ky` are given by their diagonals.
-/

open Matrix

namespace Meent

variable {m : Type} [Fintype m] [DecidableEq m]

/-- `P_Q_kz` (smm_util.py:205-230) with `mu_conv = 1`: `P` and `Q`.  `Kz` is left out, because no caller uses it; the inversion on the way to it can raise. -/
noncomputable def P_Q_kz (kx ky : m → ℂ) (c : Conv m) : Res (Matrix (m ⊕ m) (m ⊕ m) ℂ × Matrix (m ⊕ m) (m ⊕ m) ℂ) := do
  let Kx := diagonal kx
  let Ky := diagonal ky
  let _ ← npInv c.epzi
  let mu_i ← npInv (1 : Matrix m m ℂ)
  .ok (fromBlocks (Kx * c.epzi * Ky) (-Kx * c.epzi * Kx + 1) (Ky * c.epzi * Ky - 1) (-Ky * c.epzi * Kx),
    fromBlocks (Kx * mu_i * Ky) (-Kx * mu_i * Kx + c.epy) (-c.epx + Ky * mu_i * Ky) (-Ky * mu_i * Kx))

/-- `scattering_2d_wv` (scattering_method.py:199-219): `W, V` and the diagonal of `LAMBDA`. -/
noncomputable def scattering_2d_wv (la : LinAlg) (kx ky : m → ℂ) (c : Conv m) : Res (Modes (m ⊕ m)) := do
  let PQ ← P_Q_kz kx ky c
  let ew := la.eig (PQ.1 * PQ.2)
  let LAMBDA := fun i => csqrt (ew.1 i)
  let LAMBDA_i ← npInv (diagonal LAMBDA)
  .ok { W := ew.2, V := PQ.2 * ew.2 * LAMBDA_i, q := LAMBDA }

open Classical in
/-- `homogeneous_module` with `m_r = 1` and the default perturbation (smm_util.py:89-133): `V` and the diagonal of `Kz`; `W` is the identity.  Zeros on the diagonal
of `Q` and of `Kz` are replaced. -/
noncomputable def homogeneous_module (kx ky : m → ℂ) (e_r : ℂ) : Res (Matrix (m ⊕ m) (m ⊕ m) ℂ × (m → ℂ)) := do
  let P : Matrix (m ⊕ m) (m ⊕ m) ℂ := e_r⁻¹ • fromBlocks (diagonal fun i => kx i * ky i) (diagonal fun i => e_r - kx i ^ 2)
    (diagonal fun i => ky i ^ 2 - e_r) (diagonal fun i => -ky i * kx i)
  let Q := e_r • P
  let Q : Matrix (m ⊕ m) (m ⊕ m) ℂ := of fun a b => if a = b ∧ Q a a = 0 then 1 / 10 ^ 10 else Q a b
  let Kz := fun i => star (csqrt (e_r - kx i ^ 2 - ky i ^ 2))
  let Kz := fun i => if Kz i = 0 then (1 / 10 ^ 10 : ℂ) else Kz i
  let ev_i ← npInv (diagonal (Sum.elim (fun i => Complex.I * Kz i) fun i => Complex.I * Kz i))
  .ok (Q * ev_i, Kz)

end Meent
