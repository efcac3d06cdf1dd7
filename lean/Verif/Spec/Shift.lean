import Verif.Model.Rcwa
import Verif.Spec.Rows
import Verif.Spec.Orders

/-!
# Specification vocabulary: circular shifts of rasters and equality of efficiencies
-/

namespace Meent.Spec

/-- Index `i` moved on by `s`, circularly. -/
def rollIdx {N : ℕ} (s : ℕ) (i : Fin N) : Fin N :=
  ⟨(i.val + s) % N, Nat.mod_lt _ (Nat.lt_of_le_of_lt (Nat.zero_le _) i.isLt)⟩

/-- The image shifted circularly by `sy` rows and `sx` columns (`np.roll(a, (-sy, -sx), (0, 1))`; every shift in either
direction is of this form). -/
abbrev roll {ny nx : ℕ} (sy sx : ℕ) (a : Fin ny → Fin nx → ℂ) : Fin ny → Fin nx → ℂ :=
  fun i j => a (rollIdx sy i) (rollIdx sx j)

/-- Every layer shifted by the same amount. -/
abbrev rollAll (sy sx : ℕ) (u : Ucell) : Ucell := ⟨u.ny, u.nx, u.layers.map (roll sy sx)⟩

/-- All efficiencies of two dictionaries agree. -/
structure SameEff {a b : ℕ} (r r' : SubRes a b) : Prop where
  de_ri_s : r'.de_ri_s = r.de_ri_s
  de_ri_p : r'.de_ri_p = r.de_ri_p
  de_ri : r'.de_ri = r.de_ri
  de_ti_s : r'.de_ti_s = r.de_ti_s
  de_ti_p : r'.de_ti_p = r.de_ti_p
  de_ti : r'.de_ti = r.de_ti

/-- The same dictionaries are present in two results, with the same efficiencies. -/
def SameEfficiencies {fx fy : ℕ} (r r' : Result fx fy) : Prop :=
  Option.Rel SameEff r.res r'.res ∧ Option.Rel SameEff r.res_te_inc r'.res_te_inc ∧ Option.Rel SameEff r.res_tm_inc r'.res_tm_inc

/-- The phase that order `m` takes when the structure moves by the fraction `-q` of a period. -/
noncomputable def shiftPhase (m : ℤ) (q : ℝ) : ℂ := Complex.exp (-(2 * Real.pi * Complex.I * m * q))

/-- The amplitudes of `r'` are those of `r` times the phases of a move by `-qx` periods along x and `-qy` periods along y. -/
def ShiftedAmplitudes {fx fy : ℕ} (qx qy : ℝ) (r r' : SubRes (2 * fy + 1) (2 * fx + 1)) : Prop :=
  ∀ j i, r'.R_s j i = shiftPhase (colOrder i) qx * shiftPhase (rowOrder j) qy * r.R_s j i ∧
    r'.R_p j i = shiftPhase (colOrder i) qx * shiftPhase (rowOrder j) qy * r.R_p j i ∧
    r'.T_s j i = shiftPhase (colOrder i) qx * shiftPhase (rowOrder j) qy * r.T_s j i ∧
    r'.T_p j i = shiftPhase (colOrder i) qx * shiftPhase (rowOrder j) qy * r.T_p j i

end Meent.Spec
