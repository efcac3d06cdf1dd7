import Verif.Lemmas.Diag
import Verif.Lemmas.ConvMats

/-!
# Tools for concrete instances (helper lemmas)

Truncation order `(0, 0)`: every matrix is `1 × 1`.
-/

open Matrix

namespace Meent

set_option linter.unusedSectionVars false
set_option linter.unusedSimpArgs false

instance : Subsingleton (FlatIdx 0 0) := inferInstanceAs (Subsingleton (Fin 1))
instance : Subsingleton (Fin (2 * 0 + 1)) := inferInstanceAs (Subsingleton (Fin 1))
instance : Unique (FlatIdx 0 0) := inferInstanceAs (Unique (Fin 1))

theorem invRuleY_false_ok {nx ny : ℕ} {cell : Fin nx → Fin ny → ℂ} (h : ∀ x y, cell x y ≠ 0) :
    invRuleY false cell = .ok (fun x y => 1 / cell x y) := by
  unfold invRuleY
  simp [h]

section
variable {Nx Ny : ℕ} {Lx : (Fin Nx → ℂ) → ℤ → ℂ} {Ly : (Fin Ny → ℂ) → ℤ → ℂ}
  {cell : Fin Nx → Fin Ny → ℂ}

theorem toepL_00 (L : (Fin Ny → ℂ) → ℤ → ℂ) (a : Fin Ny → ℂ) :
    toepL L 0 a = diagonal (fun _ => L a 0) := by
  ext i j
  obtain rfl := Subsingleton.elim i j
  simp [toepL]

theorem flatten_btoepL_00 (L : (Fin Nx → ℂ) → ℤ → ℂ) (a : Fin Nx → ℂ) :
    (flatten4 (btoepL L 0 (fun x => diagonal (fun (_ : Fin (2 * 0 + 1)) => a x))) :
      Matrix (FlatIdx 0 0) (FlatIdx 0 0) ℂ) = diagonal (fun _ => L a 0) := by
  ext i j
  obtain rfl := Subsingleton.elim i j
  simp [flatten4, btoepL]

theorem genConv_00_tt : genConv Lx Ly true true 0 0 cell
    = .ok (diagonal fun _ => Lx (fun x => Ly (cell x) 0) 0) := by
  simp [genConv, invRuleY, invIf, bind, Except.bind, toepL_00, flatten_btoepL_00]

theorem genConv_00_tf (h : ∀ x y, cell x y ≠ 0) (h' : ∀ x, Ly (fun y => 1 / cell x y) 0 ≠ 0) :
    genConv Lx Ly true false 0 0 cell
    = .ok (diagonal fun _ => Lx (fun x => (Ly (fun y => 1 / cell x y) 0)⁻¹) 0) := by
  unfold genConv
  rw [invRuleY_false_ok h]
  simp only [bind, Except.bind, invIf, Bool.xor_false, if_true, toepL_00]
  have : ∀ x : Fin Nx, IsUnit (diagonal (fun (_ : Fin (2 * 0 + 1)) => Ly (fun y => 1 / cell x y) 0)).det :=
    fun x => isUnit_det_diagonal fun _ => h' x
  unfold npInvStack
  rw [if_pos this]
  simp only [inv_diagonal' (n := Fin (2 * 0 + 1)) (fun _ => h' _), flatten_btoepL_00]

theorem genConv_00_ft (h' : ∀ x, Ly (cell x) 0 ≠ 0) (h'' : Lx (fun x => (Ly (cell x) 0)⁻¹) 0 ≠ 0) :
    genConv Lx Ly false true 0 0 cell
    = .ok (diagonal fun _ => (Lx (fun x => (Ly (cell x) 0)⁻¹) 0)⁻¹) := by
  unfold genConv
  simp only [invRuleY, if_true, bind, Except.bind, invIf, Bool.false_xor, toepL_00]
  have : ∀ x : Fin Nx, IsUnit (diagonal (fun (_ : Fin (2 * 0 + 1)) => Ly (cell x) 0)).det :=
    fun x => isUnit_det_diagonal fun _ => h' x
  unfold npInvStack
  rw [if_pos this]
  simp only [inv_diagonal' (n := Fin (2 * 0 + 1)) (fun _ => h' _), flatten_btoepL_00, Bool.false_eq_true,
    if_false]
  rw [npInv_ok.mpr ⟨isUnit_det_diagonal fun _ => h'', rfl⟩, inv_diagonal' fun _ => h'']

end

theorem dftCoeff_zero {N : ℕ} (a : Fin N → ℂ) : Spec.dftCoeff a 0 = (∑ y, a y) / N := by
  unfold Spec.dftCoeff
  simp [Finset.sum_div]

/-- The example grating: two pixels of index 1 and 2 (permittivity 1 and 4). -/
def exCell : Ucell := ⟨1, 2, [fun _ j => if j = 0 then 1 else 2]⟩

/-- Its convolution matrices at truncation order 0. -/
noncomputable def exConv : Conv (FlatIdx 0 0) :=
  ⟨diagonal fun _ => 8 / 5, diagonal fun _ => 5 / 2, diagonal fun _ => 2 / 5⟩

theorem exCell_conv (la : LinAlg) :
    to_conv_mat_raster_discrete la exCell 0 0 false false = .ok [exConv] := by
  unfold to_conv_mat_raster_discrete
  rw [mapM_ok]
  simp only [Ucell.rasters, exCell, List.map_cons, List.map_nil]
  refine List.Forall₂.cons ?_ List.Forall₂.nil
  rw [convDiscrete_fromCell]
  have e : enlarge ⟨1, 2, fun _ j => if j = 0 then 1 else 2⟩ 0 0 false
      = ⟨1, 2, fun _ j => if j = 0 then 1 else 2⟩ := by
    simp [enlarge]
  rw [e]
  refine ⟨by norm_num, by norm_num, diagonal fun _ => 5 / 2, ?_⟩
  have hne : ∀ (x : Fin 2) (y : Fin 1), (if x = 0 then (1 : ℂ) else 2) ^ 2 ≠ 0 := by
    intro x y; split <;> norm_num
  refine ⟨?_, ?_, ?_, isUnit_det_diagonal fun _ => by norm_num, ?_⟩
  · rw [genConv_00_tt]
    simp [dftCoeff_zero, Raster.sq]; norm_num
  · rw [genConv_00_tf]
    · simp [dftCoeff_zero, Raster.sq, exConv]; norm_num
    · exact hne
    · intro x
      simp [dftCoeff_zero, Raster.sq]
      split <;> norm_num
  · rw [genConv_00_ft]
    · simp [dftCoeff_zero, Raster.sq, exConv]; norm_num
    · intro x
      simp [dftCoeff_zero, Raster.sq]
      split <;> norm_num
    · simp [dftCoeff_zero, Raster.sq]; norm_num
  · rw [inv_diagonal' fun _ => by norm_num]
    simp [exConv]

end Meent
