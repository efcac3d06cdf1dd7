import Verif.Lemmas.YConst

/-!
# The number of identical rows of a raster does not matter (helper lemmas)
-/

open Matrix

namespace Meent

set_option linter.unusedSectionVars false
set_option linter.unusedSimpArgs false

/-- `k` identical rows. -/
def rowR (k nx : ℕ) (v : Fin nx → ℂ) : Raster := ⟨k, nx, fun _ j => v j⟩

/-- `FromCell` on a y-invariant cell. -/
structure FromCellX {fx Nx : ℕ} (Lx : (Fin Nx → ℂ) → ℤ → ℂ) (v : Fin Nx → ℂ) (c : Conv (FlatIdx fx 0))
    (epz : Matrix (FlatIdx fx 0) (FlatIdx fx 0) ℂ) : Prop where
  hne : ∀ x, v x ≠ 0
  hz : genConvX Lx true fx v = .ok epz
  hy : genConvX Lx true fx v = .ok c.epy
  hx : genConvX Lx false fx v = .ok c.epx
  hu : IsUnit epz.det
  hi : c.epzi = epz⁻¹

theorem fromCell_yconst {fx Nx Ny : ℕ} {Lx : (Fin Nx → ℂ) → ℤ → ℂ}
    {Ly : (Fin Ny → ℂ) → ℤ → ℂ} {cell : Fin Nx → Fin Ny → ℂ} {c : Conv (FlatIdx fx 0)}
    {epz : Matrix (FlatIdx fx 0) (FlatIdx fx 0) ℂ} (hy : UnitFun Ly 0) (y0 : Fin Ny) {v : Fin Nx → ℂ}
    (hc : ∀ x y, cell x y = v x) : FromCell Lx Ly cell c epz ↔ FromCellX Lx v c epz := by
  have key : (∀ x, v x ≠ 0) → ∀ cx cy, (cx = true ∨ cy = true) →
      genConv Lx Ly cx cy fx 0 cell = genConvX Lx cx fx v :=
    fun hne cx cy hcc => genConv_yconst hy hc hne hcc
  constructor
  · intro h
    have hne : ∀ x, v x ≠ 0 := fun x => by rw [← hc x y0]; exact genConv_tf_ne h.hy x y0
    have k := key hne
    exact ⟨hne, (k _ _ (.inl rfl)).symm.trans h.hz, (k _ _ (.inl rfl)).symm.trans h.hy,
      (k _ _ (.inr rfl)).symm.trans h.hx, h.hu, h.hi⟩
  · intro h
    have k := key h.hne
    exact ⟨(k _ _ (.inl rfl)).trans h.hz, (k _ _ (.inl rfl)).trans h.hy,
      (k _ _ (.inr rfl)).trans h.hx, h.hu, h.hi⟩

theorem enlarge_rowR {k nx fx : ℕ} {enh : Bool} (hk : 0 < k) (v : Fin nx → ℂ) :
    enlarge (rowR k nx v) fx 0 enh =
      if nx < (if enh then (4 * fx + 1) * nx else 4 * fx + 1) then
        (rowR k nx v).repeatCols ((if enh then (4 * fx + 1) * nx else 4 * fx + 1) / nx + 1)
      else rowR k nx v := by
  unfold enlarge
  have h1 : ¬ (rowR k nx v).ny < (if enh then (4 * 0 + 1) * (rowR k nx v).ny else 4 * 0 + 1) := by
    change ¬ k < (if enh then (4 * 0 + 1) * k else 4 * 0 + 1)
    split <;> omega
  simp only [if_neg h1]
  rfl

theorem convDiscrete_rows {la : LinAlg} {k k' nx fx : ℕ} {enh : Bool} (hk : 0 < k) (hk' : 0 < k')
    (v : Fin nx → ℂ) {c : Conv (FlatIdx fx 0)}
    (h : convDiscrete la (rowR k nx v) fx 0 enh false = .ok c) :
    convDiscrete la (rowR k' nx v) fx 0 enh false = .ok c := by
  rw [convDiscrete_fromCell] at h ⊢
  by_cases hx : nx < (if enh then (4 * fx + 1) * nx else 4 * fx + 1)
  · rw [(enlarge_rowR hk v).trans (if_pos hx)] at h
    rw [(enlarge_rowR hk' v).trans (if_pos hx)]
    obtain ⟨h1, h2, epz, hf⟩ := h
    refine ⟨by simpa [Raster.repeatCols, rowR] using hk', h2, epz, ?_⟩
    have e := (fromCell_yconst (unitFun_dft h1) (⟨0, hk⟩ : Fin k)
      (v := fun x => ((rowR 1 nx v).repeatCols ((if enh then (4 * fx + 1) * nx else 4 * fx + 1) / nx + 1)).val
        (0 : Fin 1) x ^ 2) (fun x y => rfl)).mp hf
    exact (fromCell_yconst (unitFun_dft (by simpa [Raster.repeatCols, rowR] using hk')) (⟨0, hk'⟩ : Fin k')
      (v := fun x => ((rowR 1 nx v).repeatCols ((if enh then (4 * fx + 1) * nx else 4 * fx + 1) / nx + 1)).val
        (0 : Fin 1) x ^ 2) (fun x y => rfl)).mpr e
  · rw [(enlarge_rowR hk v).trans (if_neg hx)] at h
    rw [(enlarge_rowR hk' v).trans (if_neg hx)]
    obtain ⟨h1, h2, epz, hf⟩ := h
    refine ⟨by simpa [rowR] using hk', h2, epz, ?_⟩
    have e := (fromCell_yconst (unitFun_dft h1) (⟨0, hk⟩ : Fin k)
      (v := fun x => v x ^ 2) (fun x y => rfl)).mp hf
    exact (fromCell_yconst (unitFun_dft (by simpa [rowR] using hk')) (⟨0, hk'⟩ : Fin k')
      (v := fun x => v x ^ 2) (fun x y => rfl)).mpr e

open Classical in
/-- Kept columns of a y-invariant raster. -/
noncomputable def keptColsX {nx : ℕ} (v : Fin nx → ℂ) : List (Fin nx) :=
  (List.finRange nx).filter fun j => decide (¬ v j = v (cycNext j) ∨ j.val = nx - 1)

theorem keptCols_rowR {k nx : ℕ} (hk : 0 < k) (v : Fin nx → ℂ) :
    keptCols (rowR k nx v).flipud = keptColsX v := by
  unfold keptCols keptColsX
  change List.filter _ (List.finRange nx) = _
  congr 1
  funext j
  congr 1
  have : (∀ i : Fin k, v j = v (cycNext j)) ↔ v j = v (cycNext j) := ⟨fun h => h ⟨0, hk⟩, fun h _ => h⟩
  exact propext (or_congr (not_congr this) Iff.rfl)

theorem convRC_rows {la : LinAlg} {k k' nx fx : ℕ} (hk : 0 < k) (hk' : 0 < k')
    (v : Fin nx → ℂ) {c : Conv (FlatIdx fx 0)}
    (h : convRasterContinuous la (rowR k nx v) fx 0 false = .ok c) :
    convRasterContinuous la (rowR k' nx v) fx 0 false = .ok c := by
  unfold convRasterContinuous at h ⊢
  simp only [Except.bind_ok] at h ⊢
  obtain ⟨vc, hvc, hc⟩ := h
  have hnx : 0 < nx := by
    obtain ⟨i, j, -⟩ := cell_compression_val hvc (0 : Fin vc.ny) (0 : Fin vc.nx)
    exact Nat.lt_of_le_of_lt (Nat.zero_le _) j.isLt
  obtain ⟨vc2, hvc2, -, hy2⟩ := cell_compression_ok (rowR k nx v) hk hnx
  obtain rfl := Except.ok.inj (hvc.symm.trans hvc2)
  obtain ⟨vc', hvc', hx', hy'⟩ := cell_compression_ok (rowR k' nx v) hk' hnx
  refine ⟨vc', hvc', ?_⟩
  obtain ⟨epz, hf⟩ := convContinuous_fromCell.mp hc
  refine convContinuous_fromCell.mpr ⟨epz, ?_⟩
  have u1 : UnitFun (cfsC vc.y (vc.y (-1))) 0 := unitFun_cfsC (by rw [hy2]; exact one_ne_zero)
  have u2 : UnitFun (cfsC vc'.y (vc'.y (-1))) 0 := unitFun_cfsC (by rw [hy']; exact one_ne_zero)
  clear hy2 hy' hx' hvc2 hc
  unfold cell_compression at hvc hvc'
  simp only [keptCols_rowR hk, keptCols_rowR hk'] at hvc hvc'
  unfold assembleCell at hvc hvc'
  split at hvc
  · split at hvc'
    · simp only [Except.ok.injEq] at hvc hvc'
      subst hvc hvc'
      rename_i h1 h2
      have e := (fromCell_yconst u1 (⟨0, Nat.pos_of_ne_zero h1.1⟩) (v := fun x => v ((keptColsX v).get x) ^ 2)
        (fun x y => rfl)).mp hf
      exact (fromCell_yconst u2 (⟨0, Nat.pos_of_ne_zero h2.1⟩) (v := fun x => v ((keptColsX v).get x) ^ 2)
        (fun x y => rfl)).mpr e
    · cases hvc'
  · cases hvc

end Meent
