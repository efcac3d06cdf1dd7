import Verif.Lemmas.Edges
import Verif.Spec.Structures

/-!
# Homogeneous layers (helper lemmas)
-/

open Matrix

namespace Meent

theorem meeinv_scalar {m : Type} [Fintype m] [DecidableEq m] (la : LinAlg) {e : ℂ} (he : e ≠ 0) (b : Bool) :
    meeinv la (e • (1 : Matrix m m ℂ)) b = .ok (e⁻¹ • 1) := by
  unfold meeinv
  cases b
  · rw [if_neg (by simp), npInv_ok.mpr ⟨isUnit_det_smul_one he, rfl⟩, smul_one_inv he]
  · rw [if_pos rfl, la.pinv_law _ (isUnit_det_smul_one he), smul_one_inv he]

theorem convDiscrete_const (la : LinAlg) {ny nx : ℕ} (hy : 0 < ny) (hx : 0 < nx) (fx fy : ℕ) (enh pinv : Bool)
    {n : ℂ} (hn : n ≠ 0) :
    convDiscrete la ⟨ny, nx, fun _ _ => n⟩ fx fy enh pinv = .ok (Spec.scalarConv fx fy n) := by
  have hn2 : n ^ 2 ≠ 0 := pow_ne_zero _ hn
  obtain ⟨h1, h2, -⟩ := enlarge_spec ⟨ny, nx, fun _ _ => n⟩ fx fy enh hy hx
  have hv : (enlarge ⟨ny, nx, fun _ _ => n⟩ fx fy enh).sq.val = fun _ _ => n ^ 2 := by
    funext i j
    obtain ⟨i', j', e⟩ := enlarge_val ⟨ny, nx, fun _ _ => n⟩ fx fy enh i j
    simp only [Raster.sq, e]
  have key : ∀ cx cy, (cx = true ∨ cy = true) →
      dfs2d (enlarge ⟨ny, nx, fun _ _ => n⟩ fx fy enh).sq cx cy fx fy = .ok (n ^ 2 • 1) := by
    intro cx cy hc
    rw [dfs2d_iff_gen]
    refine ⟨by simp only [Raster.sq]; omega, by simp only [Raster.sq]; omega, ?_⟩
    rw [hv]
    exact genConv_const (unitFun_dft (by simp only [Raster.sq]; omega))
      (unitFun_dft (by simp only [Raster.sq]; omega)) hn2 hc
  unfold convDiscrete
  simp only [key true true (.inl rfl), key true false (.inl rfl), key false true (.inr rfl),
    meeinv_scalar la hn2, bind, Except.bind]
  rfl

theorem convContinuous_const (la : LinAlg) {c : VCell} (fx fy : ℕ) (pinv : Bool) {n : ℂ} (hn : n ≠ 0)
    (hv : ∀ i j, c.val i j = n) (hx : c.x (-1) ≠ 0) (hy : c.y (-1) ≠ 0) :
    convContinuous la c fx fy pinv = .ok (Spec.scalarConv fx fy n) := by
  have hn2 : n ^ 2 ≠ 0 := pow_ne_zero _ hn
  have key : ∀ cx cy, (cx = true ∨ cy = true) → cfs2d c.sq cx cy fx fy = .ok (n ^ 2 • 1) := by
    intro cx cy hc
    rw [cfs2d_eq_gen]
    have : (fun (x : Fin c.sq.nx) (y : Fin c.sq.ny) => c.sq.val y x) = fun _ _ => n ^ 2 := by
      funext x y
      exact congrArg (· ^ 2) (hv y x)
    rw [this]
    exact genConv_const (unitFun_cfsC hx) (unitFun_cfsC hy) hn2 hc
  unfold convContinuous
  simp only [key true true (.inl rfl), key true false (.inl rfl), key false true (.inr rfl),
    meeinv_scalar la hn2, bind, Except.bind]
  rfl

end Meent
