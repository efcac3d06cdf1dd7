import Verif.Lemmas.AbsorbSpec
import Mathlib.Analysis.Matrix.Spectrum

/-!
# Uniformly absorbing layers always have TE modes (helper lemmas)
-/

open Matrix

set_option linter.unusedSectionVars false
set_option linter.unusedVariables false
set_option linter.unusedSimpArgs false

namespace Meent

/-- A Hermitian matrix plus a multiple of the identity has a basis of eigenvectors. -/
theorem diagonalisable_shift {n : Type} [Fintype n] [DecidableEq n] {H : Matrix n n ℂ} (hH : H.IsHermitian) (a : ℂ) :
    Spec.Diagonalisable (H - a • 1) := by
  refine ⟨hH.eigenvectorUnitary, fun i => (hH.eigenvalues i : ℂ) - a, ?_, ?_⟩
  · have : IsUnit (hH.eigenvectorUnitary : Matrix n n ℂ) := IsUnit.of_mul_eq_one _ (Unitary.coe_mul_star_self hH.eigenvectorUnitary)
    exact (isUnit_iff_isUnit_det _).mp this
  · have hU : H * (hH.eigenvectorUnitary : Matrix n n ℂ)
        = (hH.eigenvectorUnitary : Matrix n n ℂ) * diagonal fun i => (hH.eigenvalues i : ℂ) := by
      ext i j
      rw [mul_diagonal, mul_apply]
      have h2 := congrFun (hH.mulVec_eigenvectorBasis j) i
      simp only [mulVec, dotProduct, Pi.smul_apply, Complex.real_smul] at h2
      simp only [IsHermitian.eigenvectorUnitary_apply]
      rw [h2, mul_comm]
    have hd : (diagonal fun i => (hH.eigenvalues i : ℂ) - a) = (diagonal fun i => (hH.eigenvalues i : ℂ)) - a • (1 : Matrix n n ℂ) := by
      rw [smul_one_eq_diagonal, diagonal_sub]
    rw [hd, Matrix.sub_mul, Matrix.mul_sub, hU]
    simp

/-- A coefficient functional that respects subtraction of constants. -/
def SubFun {N : ℕ} (L : (Fin N → ℂ) → ℤ → ℂ) : Prop :=
  ∀ a (b : ℂ) j, L (fun y => a y - b) j = L a j - L (fun _ => b) j

theorem subFun_dft {N : ℕ} : SubFun (N := N) Spec.dftCoeff := by
  intro a b j
  unfold Spec.dftCoeff
  rw [← sub_div, ← Finset.sum_sub_distrib]
  simp only [sub_mul]

theorem subFun_cfsC {k : ℕ} [NeZero k] (x : Fin k → ℝ) (period : ℝ) : SubFun (cfsC x period) := by
  intro a b j
  unfold cfsC
  split
  · rw [← sub_div, ← Finset.sum_sub_distrib]
    simp only [sub_mul]
  · rw [← sub_div, ← Finset.sum_sub_distrib]
    simp

theorem toepL_sub {N f : ℕ} {L : (Fin N → ℂ) → ℤ → ℂ} (hs : SubFun L) (hu : UnitFun L f) (a : Fin N → ℂ) (b : ℂ) :
    toepL L f (fun y => a y - b) = toepL L f a - b • 1 := by
  rw [← toepL_const hu]
  ext r c
  exact hs _ _ _

theorem btoepL_sub {N f : ℕ} {m : Type} [DecidableEq m] {L : (Fin N → ℂ) → ℤ → ℂ} (hs : SubFun L) (hu : UnitFun L f)
    (a : Fin N → Matrix m m ℂ) (b : ℂ) :
    btoepL L f (fun x => a x - b • 1) = btoepL L f a - b • 1 := by
  rw [← btoepL_const hu]
  ext r c
  exact hs (fun x => a x r.1 c.1) ((b • (1 : Matrix m m ℂ)) r.1 c.1) _

theorem flatten4_sub {fx fy : ℕ} (A B) : flatten4 (fto_x := fx) (fto_y := fy) (A - B) = flatten4 A - flatten4 B := rfl

theorem genConv_sub_const {Nx Ny : ℕ} {Lx : (Fin Nx → ℂ) → ℤ → ℂ} {Ly : (Fin Ny → ℂ) → ℤ → ℂ} {fx fy : ℕ}
    (hx : RealFun Lx) (hy : RealFun Ly) (sx : SubFun Lx) (sy : SubFun Ly) (ux : UnitFun Lx fx) (uy : UnitFun Ly fy)
    {cell : Fin Nx → Fin Ny → ℂ} {m : Matrix (FlatIdx fx fy) (FlatIdx fx fy) ℂ} {b : ℂ}
    (hr : ∀ i j, star (cell i j - b) = cell i j - b)
    (h : genConv Lx Ly true true fx fy cell = .ok m) : (m - b • 1).IsHermitian := by
  have h' : genConv Lx Ly true true fx fy (fun x y => cell x y - b) = .ok (m - b • 1) := by
    unfold genConv at h ⊢
    simp only [Except.bind_ok, invRuleY, invIf, if_true, Bool.xor_self, Bool.false_eq_true, if_false, Except.ok.injEq] at h ⊢
    obtain ⟨_, rfl, _, rfl, rfl⟩ := h
    refine ⟨_, rfl, _, rfl, ?_⟩
    simp only [toepL_sub sy uy, btoepL_sub sx ux, flatten4_sub, flatten4_smul_one]
  exact genConv_isHermitian hx hy hr h'

/-- Real part of the permittivity arbitrary, imaginary part the same everywhere. -/
theorem convMats_sub_const {la : LinAlg} {s : Settings} (hp : s.p.use_pinv = false) {u : Ucell} (hu : s.ucell = .raster u) (hny : u.ny = 1) (hnx : 0 < u.nx)
    (hf : s.p.fto.2 = 0) (h : ∀ l ∈ u.layers, ∃ κ : ℝ, ∀ i j, ((l i j) ^ 2).im = κ)
    {cs : List (Conv (FlatIdx s.p.fto.1 s.p.fto.2))} (hcs : convMats la s = .ok cs) :
    ∀ c ∈ cs, ∃ b : ℂ, (c.epy - b • 1).IsHermitian := by
  intro c hc
  have hz := convMats_epzi_epy hp hu (fun l hl i i' j => by
    have : i = i' := by apply Fin.ext; have := i.isLt; have := i'.isLt; omega
    rw [this]) hcs hf c hc
  have hr : ∀ l ∈ u.rasters, ∃ κ : ℝ, ∀ i j, ((l.val i j) ^ 2).im = κ := by
    intro l hl
    obtain ⟨l', hl', rfl⟩ := List.mem_map.mp hl
    exact h l' hl'
  have hstar : ∀ {z : ℂ} {κ : ℝ}, z.im = κ → star (z - (κ : ℂ) * Complex.I) = z - (κ : ℂ) * Complex.I := by
    intro z κ hz
    apply Complex.ext <;> simp [hz]
  have hepz : ∀ {epz : Matrix (FlatIdx s.p.fto.1 s.p.fto.2) (FlatIdx s.p.fto.1 s.p.fto.2) ℂ}, IsUnit epz.det → c.epzi = epz⁻¹ → c.epy = epz := by
    intro epz h1 h2
    rw [h2] at hz
    have := congrArg (epz * ·) hz
    simpa [← Matrix.mul_assoc, mul_nonsing_inv _ h1] using this
  have hn : ∀ l ∈ u.rasters, l.ny = 1 ∧ 0 < l.nx := by
    intro l hl
    obtain ⟨l', hl', rfl⟩ := List.mem_map.mp hl
    exact ⟨hny, hnx⟩
  obtain ⟨hft, hm⟩ := (convMats_raster hu).mp hcs
  obtain ⟨l, hl, e⟩ := mapM_mem hm hc
  obtain ⟨κ, hκ⟩ := hr l hl
  unfold rasterConv at e
  split at e
  · rw [hp] at e
    obtain ⟨b1, b2, epz, hc⟩ := convDiscrete_fromCell.mp e
    rw [hepz hc.hu hc.hi]
    refine ⟨_, genConv_sub_const realFun_dft realFun_dft subFun_dft subFun_dft (unitFun_dft b2) (unitFun_dft b1) (b := (κ : ℂ) * Complex.I)
      (fun a b => hstar ?_) hc.hz⟩
    obtain ⟨i', j', e'⟩ := enlarge_val l s.p.fto.1 s.p.fto.2 s.enhanced_dfs b a
    simp only [Raster.sq, e']
    exact hκ _ _
  · rw [hp] at e
    obtain ⟨n1, n2⟩ := hn l hl
    haveI : NeZero l.ny := ⟨by omega⟩
    haveI : NeZero l.nx := ⟨by omega⟩
    obtain ⟨epz, hc⟩ := convRaster_fromCell.mp e
    rw [hepz hc.hu hc.hi]
    exact ⟨_, genConv_sub_const (realFun_cfsC _ _) (realFun_cfsC _ _) (subFun_cfsC _ _) (subFun_cfsC _ _)
      (unitFun_cfsC (by rw [pixEdge_last]; exact one_ne_zero)) (unitFun_cfsC (by rw [pixEdge_last]; exact one_ne_zero))
      (b := (κ : ℂ) * Complex.I) (fun a b => hstar (hκ _ _)) hc.hz⟩

end Meent
