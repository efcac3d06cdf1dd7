import Verif.Lemmas.Edges
import Verif.Lemmas.Stacks

/-!
# Patterns that do not vary along y (helper lemmas)
-/

open Matrix

namespace Meent

set_option linter.unusedSectionVars false
set_option linter.unusedSimpArgs false

/-- Convolution matrix of a y-invariant pattern, at y truncation order 0. -/
noncomputable def genConvX {Nx : ℕ} (Lx : (Fin Nx → ℂ) → ℤ → ℂ) (cx : Bool) (fx : ℕ) (c : Fin Nx → ℂ) :
    Res (Matrix (FlatIdx fx 0) (FlatIdx fx 0) ℂ) :=
  if cx then .ok (flatten4 (btoepL Lx fx fun x => c x • (1 : Matrix (Fin (2 * 0 + 1)) (Fin (2 * 0 + 1)) ℂ)))
  else npInv (flatten4 (btoepL Lx fx fun x => (c x)⁻¹ • (1 : Matrix (Fin (2 * 0 + 1)) (Fin (2 * 0 + 1)) ℂ)))

theorem genConv_yconst {Nx Ny fx : ℕ} {Lx : (Fin Nx → ℂ) → ℤ → ℂ} {Ly : (Fin Ny → ℂ) → ℤ → ℂ}
    (hy : UnitFun Ly 0) {cell : Fin Nx → Fin Ny → ℂ} {c : Fin Nx → ℂ} (h : ∀ x y, cell x y = c x)
    (hc : ∀ x, c x ≠ 0) {cx cy : Bool} (hcc : cx = true ∨ cy = true) :
    genConv Lx Ly cx cy fx 0 cell = genConvX Lx cx fx c := by
  obtain rfl : cell = fun x _ => c x := by funext x y; exact h x y
  unfold genConv genConvX
  rcases cx with _ | _ <;> rcases cy with _ | _ <;> simp at hcc
  · have : invRuleY true (fun (x : Fin Nx) (_ : Fin Ny) => c x) = .ok (fun x _ => c x) :=
      invRuleY_ok.mpr (.inl ⟨rfl, rfl⟩)
    rw [this]
    have h2 : invIf (false ^^ true) (fun x : Fin Nx => toepL Ly 0 (fun _ => c x))
        = .ok (fun x => (c x)⁻¹ • 1) := by
      refine invIf_ok.mpr (.inr ⟨rfl, fun i => ?_, ?_⟩)
      · rw [toepL_const hy]; exact isUnit_det_smul_one (hc i)
      · funext i; rw [toepL_const hy, smul_one_inv (hc i)]
    simp only [bind, Except.bind]
    rw [h2]
    rfl
  · have : invRuleY false (fun (x : Fin Nx) (_ : Fin Ny) => c x) = .ok (fun x _ => (c x)⁻¹) :=
      invRuleY_ok.mpr (.inr ⟨rfl, fun x _ => hc x, by simp⟩)
    rw [this]
    have h2 : invIf (true ^^ false) (fun x : Fin Nx => toepL Ly 0 (fun _ => (c x)⁻¹))
        = .ok (fun x => c x • 1) := by
      refine invIf_ok.mpr (.inr ⟨rfl, fun i => ?_, ?_⟩)
      · rw [toepL_const hy]; exact isUnit_det_smul_one (inv_ne_zero (hc i))
      · funext i; rw [toepL_const hy, smul_one_inv (inv_ne_zero (hc i)), inv_inv]
    simp only [bind, Except.bind]
    rw [h2]
    rfl
  · have : invRuleY true (fun (x : Fin Nx) (_ : Fin Ny) => c x) = .ok (fun x _ => c x) :=
      invRuleY_ok.mpr (.inl ⟨rfl, rfl⟩)
    rw [this]
    have h2 : invIf (true ^^ true) (fun x : Fin Nx => toepL Ly 0 (fun _ => c x))
        = .ok (fun x => c x • 1) := by
      refine invIf_ok.mpr (.inl ⟨rfl, ?_⟩)
      funext i; rw [toepL_const hy]
    simp only [bind, Except.bind]
    rw [h2]
    rfl

theorem genConv_tf_ne {Nx Ny fx fy : ℕ} {Lx : (Fin Nx → ℂ) → ℤ → ℂ} {Ly : (Fin Ny → ℂ) → ℤ → ℂ}
    {cell : Fin Nx → Fin Ny → ℂ} {M : Matrix (FlatIdx fx fy) (FlatIdx fx fy) ℂ}
    (h : genConv Lx Ly true false fx fy cell = .ok M) : ∀ x y, cell x y ≠ 0 := by
  unfold genConv at h
  simp only [Except.bind_ok, invRuleY_ok] at h
  obtain ⟨c, hc, -⟩ := h
  rcases hc with ⟨h, -⟩ | ⟨-, hne, -⟩
  · simp at h
  · exact hne

/-- On a y-invariant cell the matrix `epzi` is the inverse of `epy`. -/
theorem FromCell.epzi_epy {fx Nx Ny : ℕ} {Lx : (Fin Nx → ℂ) → ℤ → ℂ}
    {Ly : (Fin Ny → ℂ) → ℤ → ℂ} {cell : Fin Nx → Fin Ny → ℂ} {c : Conv (FlatIdx fx 0)}
    {epz : Matrix (FlatIdx fx 0) (FlatIdx fx 0) ℂ} (hy : UnitFun Ly 0) (y0 : Fin Ny)
    (hc : ∀ x y y', cell x y = cell x y')
    (h : FromCell Lx Ly cell c epz) : c.epzi * c.epy = 1 := by
  have hne := genConv_tf_ne h.hy
  have e1 := genConv_yconst (Lx := Lx) (fx := fx) hy (c := fun x => cell x y0) (fun x y => hc x y y0)
    (fun x => hne x y0) (cx := true) (cy := true) (.inl rfl)
  have e2 := genConv_yconst (Lx := Lx) (fx := fx) hy (c := fun x => cell x y0) (fun x y => hc x y y0)
    (fun x => hne x y0) (cx := true) (cy := false) (.inl rfl)
  rw [h.hz] at e1
  rw [h.hy] at e2
  unfold genConvX at e1 e2
  rw [if_pos rfl] at e1 e2
  rw [← e1] at e2
  simp only [Except.ok.injEq] at e2
  rw [h.hi, e2, nonsing_inv_mul _ h.hu]

theorem enlarge_yconst {l : Raster} {fx fy : ℕ} {enh : Bool}
    (h : ∀ i i' j, l.val i j = l.val i' j) :
    ∀ i i' j, (enlarge l fx fy enh).val i j = (enlarge l fx fy enh).val i' j := by
  have rr : ∀ (l : Raster) (k : ℕ), (∀ i i' j, l.val i j = l.val i' j) →
      ∀ i i' j, (l.repeatRows k).val i j = (l.repeatRows k).val i' j :=
    fun l k h i i' j => h _ _ _
  have rc : ∀ (l : Raster) (k : ℕ), (∀ i i' j, l.val i j = l.val i' j) →
      ∀ i i' j, (l.repeatCols k).val i j = (l.repeatCols k).val i' j :=
    fun l k h i i' j => h _ _ _
  have main : ∀ (a : Raster), (a = enlarge l fx fy enh) → ∀ i i' j, a.val i j = a.val i' j := by
    intro a ha
    unfold enlarge at ha
    simp only at ha
    generalize (if enh then (4 * fy + 1) * l.ny else 4 * fy + 1) = my at ha
    generalize (if enh then (4 * fx + 1) * l.nx else 4 * fx + 1) = mx at ha
    split at ha <;> split at ha <;> subst ha
    · exact rc _ _ (rr _ _ h)
    · exact rr _ _ h
    · exact rc _ _ h
    · exact h
  exact main _ rfl

theorem rasterConv_epzi_epy {la : LinAlg} {l : Raster} {fx : ℕ} {ft : ℤ} {enh : Bool}
    (h : ∀ i i' j, l.val i j = l.val i' j) {c : Conv (FlatIdx fx 0)}
    (hc : (if ft = 0 then convDiscrete la l fx 0 enh false else convRasterContinuous la l fx 0 false) = .ok c) :
    c.epzi * c.epy = 1 := by
  split at hc
  · obtain ⟨h1, h2, epz, hf⟩ := convDiscrete_fromCell.mp hc
    refine hf.epzi_epy (unitFun_dft h1) ⟨0, by omega⟩ fun x y y' => ?_
    exact congrArg (· ^ 2) (enlarge_yconst h y y' x)
  · unfold convRasterContinuous at hc
    simp only [Except.bind_ok] at hc
    obtain ⟨vc, hvc, hc⟩ := hc
    obtain ⟨epz, hf⟩ := convContinuous_fromCell.mp hc
    have hpos : 0 < l.ny ∧ 0 < l.nx := by
      obtain ⟨i, j, -⟩ := cell_compression_val hvc (0 : Fin vc.ny) (0 : Fin vc.nx)
      exact ⟨Nat.lt_of_le_of_lt (Nat.zero_le _) i.isLt, Nat.lt_of_le_of_lt (Nat.zero_le _) j.isLt⟩
    obtain ⟨vc', hvc', hx, hy⟩ := cell_compression_ok l hpos.1 hpos.2
    rw [hvc] at hvc'
    cases hvc'
    refine hf.epzi_epy (unitFun_cfsC (by rw [hy]; exact one_ne_zero)) 0 fun x y y' => ?_
    have : vc.val y x = vc.val y' x := by
      unfold cell_compression assembleCell at hvc
      simp only at hvc
      split at hvc
      · simp only [Except.ok.injEq] at hvc
        subst hvc
        exact h _ _ _
      · cases hvc
    rw [this]

end Meent
