import Verif.Lemmas.ConvMats
import Verif.Lemmas.Lorentz
import Verif.Lemmas.Orders

/-!
# Convolution matrices under reversal of the orders (helper lemmas)
-/

open Matrix

namespace Meent

set_option linter.unusedSectionVars false
set_option linter.unusedSimpArgs false

/-- Reversal of both orders. -/
def revF {fx fy : ℕ} : FlatIdx fx fy ≃ FlatIdx fx fy :=
  (finProdFinEquiv.symm.trans (Equiv.prodCongr Fin.revPerm Fin.revPerm)).trans finProdFinEquiv

theorem revF_mod {fx fy : ℕ} (i : FlatIdx fx fy) : (revF i).modNat = i.modNat.rev := modNat_prod _ _

theorem revF_div {fx fy : ℕ} (i : FlatIdx fx fy) : (revF i).divNat = i.divNat.rev := divNat_prod _ _

/-- Reversing all indices transposes. -/
def Persym {n : Type} (J : n ≃ n) (M : Matrix n n ℂ) : Prop := M.submatrix J J = Mᵀ

theorem Persym.inv {n : Type} [Fintype n] [DecidableEq n] {J : n ≃ n} {M : Matrix n n ℂ} (h : Persym J M) :
    Persym J M⁻¹ := by
  unfold Persym at *
  rw [← inv_submatrix_equiv, h, transpose_nonsing_inv]

theorem toepL_persym {N f : ℕ} (L : (Fin N → ℂ) → ℤ → ℂ) (a : Fin N → ℂ) : Persym Fin.revPerm (toepL L f a) := by
  ext r c
  simp only [submatrix_apply, transpose_apply, toepL, of_apply, Fin.revPerm_apply, Fin.val_rev]
  congr 1
  omega

theorem btoepL_persym {N f : ℕ} {m : Type} {J : m ≃ m} (L : (Fin N → ℂ) → ℤ → ℂ) {a : Fin N → Matrix m m ℂ}
    (h : ∀ x, Persym J (a x)) : Persym (Equiv.prodCongr J Fin.revPerm) (btoepL L f a) := by
  ext r c
  simp only [submatrix_apply, transpose_apply, btoepL, of_apply, Fin.revPerm_apply, Fin.val_rev, Equiv.prodCongr_apply,
    Prod.map_fst, Prod.map_snd]
  have e : (fun x => a x (J r.1) (J c.1)) = fun x => a x c.1 r.1 := by
    funext x
    exact congrFun (congrFun (h x) r.1) c.1
  rw [e]
  congr 1
  omega

theorem flatten4_persym {fx fy : ℕ} {M : Matrix (Fin (2 * fy + 1) × Fin (2 * fx + 1)) (Fin (2 * fy + 1) × Fin (2 * fx + 1)) ℂ}
    (h : Persym (Equiv.prodCongr Fin.revPerm Fin.revPerm) M) : Persym revF (flatten4 M) := by
  ext i j
  have := congrFun (congrFun h (finProdFinEquiv.symm i)) (finProdFinEquiv.symm j)
  simp only [submatrix_apply, transpose_apply, flatten4, revF, Equiv.trans_apply, Equiv.symm_apply_apply] at this ⊢
  exact this

theorem genConv_persym {Nx Ny : ℕ} {Lx : (Fin Nx → ℂ) → ℤ → ℂ} {Ly : (Fin Ny → ℂ) → ℤ → ℂ} {cx cy : Bool} {fx fy : ℕ}
    {cell : Fin Nx → Fin Ny → ℂ} {m : Matrix (FlatIdx fx fy) (FlatIdx fx fy) ℂ}
    (h : genConv Lx Ly cx cy fx fy cell = .ok m) : Persym revF m := by
  unfold genConv at h
  simp only [Except.bind_ok] at h
  obtain ⟨c', hc, a, ha, hm⟩ := h
  have ha' : ∀ x, Persym Fin.revPerm (a x) := by
    rcases invIf_ok.mp ha with ⟨-, rfl⟩ | ⟨-, -, rfl⟩
    · intro x; exact toepL_persym Ly _
    · intro x; exact (toepL_persym Ly _).inv
  have hb := flatten4_persym (btoepL_persym (f := fx) Lx ha')
  split at hm
  · simp only [Except.ok.injEq] at hm; subst hm; exact hb
  · obtain ⟨-, rfl⟩ := npInv_ok.mp hm; exact hb.inv

theorem FromCell.persym {fx fy Nx Ny : ℕ} {Lx : (Fin Nx → ℂ) → ℤ → ℂ}
    {Ly : (Fin Ny → ℂ) → ℤ → ℂ} {cell : Fin Nx → Fin Ny → ℂ} {c : Conv (FlatIdx fx fy)}
    {epz : Matrix (FlatIdx fx fy) (FlatIdx fx fy) ℂ} (h : FromCell Lx Ly cell c epz) : c.reindex revF = c.tr := by
  have hx : c.epx.submatrix revF revF = c.epxᵀ := genConv_persym h.hx
  have hy : c.epy.submatrix revF revF = c.epyᵀ := genConv_persym h.hy
  have hz : c.epzi.submatrix revF revF = c.epziᵀ := by rw [h.hi]; exact (genConv_persym h.hz).inv
  unfold Conv.reindex Conv.tr
  rw [hx, hy, hz]

/-- Every layer's matrices come from one permittivity cell. -/
theorem convMats_fromCell {la : LinAlg} {s : Settings} {convs : List (Conv (FlatIdx s.p.fto.1 s.p.fto.2))}
    (hp : s.p.use_pinv = false) (h : convMats la s = .ok convs) : ∀ c ∈ convs,
    ∃ (Nx Ny : ℕ) (Lx : (Fin Nx → ℂ) → ℤ → ℂ) (Ly : (Fin Ny → ℂ) → ℤ → ℂ) (cell : Fin Nx → Fin Ny → ℂ)
      (epz : Matrix (FlatIdx s.p.fto.1 s.p.fto.2) (FlatIdx s.p.fto.1 s.p.fto.2) ℂ), FromCell Lx Ly cell c epz := by
  intro c hc
  unfold convMats at h
  cases hu : s.ucell with
  | raster u =>
    rw [hu] at h
    simp only at h
    split at h
    · unfold to_conv_mat_raster_discrete at h
      obtain ⟨l, hl, e⟩ := mapM_mem h hc
      rw [hp] at e
      obtain ⟨-, -, epz, hf⟩ := convDiscrete_fromCell.mp e
      exact ⟨_, _, _, _, _, _, hf⟩
    · split at h
      · unfold to_conv_mat_raster_continuous at h
        obtain ⟨l, hl, e⟩ := mapM_mem h hc
        unfold convRasterContinuous at e
        rw [hp] at e
        simp only [Except.bind_ok] at e
        obtain ⟨vc, hvc, e⟩ := e
        obtain ⟨epz, hf⟩ := convContinuous_fromCell.mp e
        exact ⟨_, _, _, _, _, _, hf⟩
      · cases h
  | vector ls =>
    rw [hu] at h
    simp only [Except.bind_ok] at h
    obtain ⟨cells, hcells, h⟩ := h
    unfold to_conv_mat_vector at h
    obtain ⟨vc, hvc, e⟩ := mapM_mem h hc
    rw [hp] at e
    obtain ⟨epz, hf⟩ := convContinuous_fromCell.mp e
    exact ⟨_, _, _, _, _, _, hf⟩

theorem convMats_persym {la : LinAlg} {s : Settings} {convs : List (Conv (FlatIdx s.p.fto.1 s.p.fto.2))}
    (hp : s.p.use_pinv = false) (h : convMats la s = .ok convs) : ∀ c ∈ convs, c.reindex revF = c.tr := by
  intro c hc
  obtain ⟨_, _, _, _, _, _, hf⟩ := convMats_fromCell hp h c hc
  exact hf.persym

theorem rowIdx_rev {fx fy : ℕ} (hf : fy = 0) (i : Fin (2 * fx + 1)) :
    (rowIdx (Fin.revPerm i) : FlatIdx fx fy) = revF (rowIdx i) := by
  subst hf
  unfold rowIdx revF
  simp only [Equiv.trans_apply, Equiv.symm_apply_apply, Equiv.prodCongr_apply, Prod.map_apply]
  congr 2

theorem row_persym {fx fy : ℕ} (hf : fy = 0) {c : Conv (FlatIdx fx fy)} (h : c.reindex revF = c.tr) :
    c.row.reindex Fin.revPerm = c.row.tr := by
  have h1 : c.epx.submatrix revF revF = c.epxᵀ := congrArg Conv.epx h
  have h2 : c.epy.submatrix revF revF = c.epyᵀ := congrArg Conv.epy h
  have h3 : c.epzi.submatrix revF revF = c.epziᵀ := congrArg Conv.epzi h
  unfold Conv.reindex Conv.tr Conv.row
  congr 1
  · ext i j
    simp only [submatrix_apply, transpose_apply, rowIdx_rev hf]
    exact congrFun (congrFun h1 (rowIdx i)) (rowIdx j)
  · ext i j
    simp only [submatrix_apply, transpose_apply, rowIdx_rev hf]
    exact congrFun (congrFun h2 (rowIdx i)) (rowIdx j)
  · ext i j
    simp only [submatrix_apply, transpose_apply, rowIdx_rev hf]
    exact congrFun (congrFun h3 (rowIdx i)) (rowIdx j)

end Meent
