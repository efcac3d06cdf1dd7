import Verif.Lemmas.Shift
import Verif.Lemmas.Example2D

/-!
# C39: lateral translation invariance
-/

open Matrix

namespace Meent

private theorem relSame {ny nx : ℕ} {D : Fin ny → Fin nx → ℂ} (hD : ∀ j i, ‖D j i‖ = 1) {a b c e : Fin ny → Fin nx → ℂ}
    {r r' : Option (SubRes ny nx)} (h : Option.Rel (SubRes.Scaled D) r r') (hr : ∀ x, r = some x → EffBy a b c e x)
    (hr' : ∀ x, r' = some x → EffBy a b c e x) : Option.Rel Spec.SameEff r r' := by
  cases h with
  | some h => exact .some (scaled_sameEff hD h (hr _ rfl) (hr' _ rfl))
  | none => exact .none

private theorem weights_ucell {s : Settings} {u' : Structure} (hg : gratingType (Spec.withUcell s u') = gratingType s) :
    weights (Spec.withUcell s u') = weights s := by
  unfold weights
  rw [hg]

private theorem gratingType_roll {s : Settings} {u : Ucell} (hu : s.ucell = .raster u) (sy sx : ℕ) :
    gratingType (Spec.withUcell s (.raster (Spec.rollAll sy sx u))) = gratingType s := by
  unfold gratingType
  rw [hu]

/-- **C39.**  Shifting every layer's raster circularly by the same number of pixels leaves all diffraction efficiencies
unchanged: if both solves return, they report the same efficiencies.  All solvers, both Fourier types; the eigensolvers
used in the two solves may differ. -/
theorem C39_translation {la la' : LinAlg} {s : Settings} (hp : s.p.use_pinv = false) {u : Ucell} (hu : s.ucell = .raster u)
    (hy : 0 < u.ny) (hx : 0 < u.nx) (sy sx : ℕ) {sol sol' : Solved s.p.fto.1 s.p.fto.2} (h : conv_solve la s = .ok sol)
    (h' : conv_solve la' (Spec.withUcell s (.raster (Spec.rollAll sy sx u))) = .ok sol') :
    Spec.SameEfficiencies sol.result sol'.result := by
  have hg := gratingType_roll hu sy sx
  have hwx : rootZ u.nx 1 ^ sx ≠ 0 := pow_ne_zero _ (rootZ_ne _ _)
  have hnx : ‖rootZ u.nx 1 ^ sx‖ = 1 := by rw [norm_pow, norm_rootZ, one_pow]
  obtain ⟨la₂, sol₂, h₂, hS⟩ := conv_solve_gauge hp (u' := .raster (Spec.rollAll sy sx u))
    (D := shiftD (rootZ u.nx 1 ^ sx) (shiftWy s.fourier_type u.ny sy)) (shiftD_ne hwx (shiftWy_ne _ _ _))
    (shiftD_delta _ _) hg (fun cs hcs => convMats_shift hp hu hy hx sy sx hcs) h
  have hE := conv_solve_agree (s := Spec.withUcell s (.raster (Spec.rollAll sy sx u))) hp h₂ h'
  rw [hE]
  have hw := weights_ucell hg
  have e : ∀ x, Spec.Reports sol.result x → EffBy (weights s 0) (weights s 1) (weights s 2) (weights s 3) x :=
    fun x hx => conv_solve_eff h hx
  have e' : ∀ x, Spec.Reports sol₂.result x → EffBy (weights s 0) (weights s 1) (weights s 2) (weights s 3) x := by
    intro x hx
    have := conv_solve_eff (s := Spec.withUcell s (.raster (Spec.rollAll sy sx u))) h₂ hx
    rw [hw] at this
    exact this
  have hD : ∀ j i, ‖shiftD (fx := s.p.fto.1) (fy := s.p.fto.2) (rootZ u.nx 1 ^ sx) (shiftWy s.fourier_type u.ny sy)
      (finProdFinEquiv (j, i))‖ = 1 := fun j i => norm_shiftD hnx (norm_shiftWy _ _ _) _
  obtain ⟨S1, S2, S3⟩ := hS
  exact ⟨relSame hD S1 (fun x hx => e x (.inl hx)) (fun x hx => e' x (.inl hx)),
    relSame hD S2 (fun x hx => e x (.inr (.inl hx))) (fun x hx => e' x (.inr (.inl hx))),
    relSame hD S3 (fun x hx => e x (.inr (.inr hx))) (fun x hx => e' x (.inr (.inr hx)))⟩

private theorem shiftD_phase {fx fy : ℕ} (nx ny sx sy : ℕ) (ft : ℤ) (j : Fin (2 * fy + 1)) (i : Fin (2 * fx + 1)) :
    shiftD (fx := fx) (fy := fy) (rootZ nx 1 ^ sx) (shiftWy ft ny sy) (finProdFinEquiv (j, i))
      = Spec.shiftPhase (Spec.colOrder i) (sx / nx) * Spec.shiftPhase (Spec.rowOrder j) ((if ft = 0 then 1 else -1) * (sy / ny)) := by
  have key : ∀ (N k : ℕ) (m : ℤ), (rootZ N 1 ^ k) ^ m = Spec.shiftPhase m (k / N) := by
    intro N k m
    unfold rootZ Spec.shiftPhase
    rw [← Complex.exp_nat_mul, ← Complex.exp_int_mul]
    congr 1
    push_cast
    ring
  have hX : Spec.orderX (fx := fx) (fy := fy) (finProdFinEquiv (j, i)) = Spec.colOrder i := by
    have := congrArg Fin.val (modNat_prod j i)
    unfold Spec.orderX Spec.colOrder
    rw [← this]
    rfl
  have hY : Spec.orderY (fx := fx) (fy := fy) (finProdFinEquiv (j, i)) = Spec.rowOrder j := by
    have := congrArg Fin.val (divNat_prod j i)
    unfold Spec.orderY Spec.rowOrder
    rw [← this]
    rfl
  unfold shiftD shiftWy
  rw [hX, hY, key]
  congr 1
  split_ifs with h
  · rw [key, one_mul]
  · rw [_root_.inv_zpow', key]
    unfold Spec.shiftPhase
    congr 1
    push_cast
    ring

private theorem relShift {fx fy : ℕ} {qx qy : ℝ} {D : Fin (2 * fy + 1) → Fin (2 * fx + 1) → ℂ}
    (hD : ∀ j i, D j i = Spec.shiftPhase (Spec.colOrder i) qx * Spec.shiftPhase (Spec.rowOrder j) qy)
    {r r' : Option (SubRes (2 * fy + 1) (2 * fx + 1))} (h : Option.Rel (SubRes.Scaled D) r r') :
    Option.Rel (Spec.ShiftedAmplitudes qx qy) r r' := by
  cases h with
  | some h => exact .some fun j i => by rw [h.R_s, h.R_p, h.T_s, h.T_p, hD]; exact ⟨rfl, rfl, rfl, rfl⟩
  | none => exact .none

/-- **C39, amplitudes.**  The amplitude of order `(m, n)` takes the phase `exp(-2πi (m sx/nx + n sy/ny))` with discrete coefficients.
With continuous coefficients, where the image is flipped along y, the sign of the second term changes. -/
theorem C39_amplitudes {la la' : LinAlg} {s : Settings} (hp : s.p.use_pinv = false) {u : Ucell} (hu : s.ucell = .raster u)
    (hy : 0 < u.ny) (hx : 0 < u.nx) (sy sx : ℕ) {sol sol' : Solved s.p.fto.1 s.p.fto.2} (h : conv_solve la s = .ok sol)
    (h' : conv_solve la' (Spec.withUcell s (.raster (Spec.rollAll sy sx u))) = .ok sol') :
    Option.Rel (Spec.ShiftedAmplitudes (sx / u.nx) ((if s.fourier_type = 0 then 1 else -1) * (sy / u.ny))) sol.result.res sol'.result.res ∧
    Option.Rel (Spec.ShiftedAmplitudes (sx / u.nx) ((if s.fourier_type = 0 then 1 else -1) * (sy / u.ny))) sol.result.res_te_inc
      sol'.result.res_te_inc ∧
    Option.Rel (Spec.ShiftedAmplitudes (sx / u.nx) ((if s.fourier_type = 0 then 1 else -1) * (sy / u.ny))) sol.result.res_tm_inc
      sol'.result.res_tm_inc := by
  have hg := gratingType_roll hu sy sx
  have hwx : rootZ u.nx 1 ^ sx ≠ 0 := pow_ne_zero _ (rootZ_ne _ _)
  obtain ⟨la₂, sol₂, h₂, S1, S2, S3⟩ := conv_solve_gauge hp (u' := .raster (Spec.rollAll sy sx u))
    (D := shiftD (rootZ u.nx 1 ^ sx) (shiftWy s.fourier_type u.ny sy)) (shiftD_ne hwx (shiftWy_ne _ _ _))
    (shiftD_delta _ _) hg (fun cs hcs => convMats_shift hp hu hy hx sy sx hcs) h
  have hE := conv_solve_agree (s := Spec.withUcell s (.raster (Spec.rollAll sy sx u))) hp h₂ h'
  rw [hE]
  exact ⟨relShift (shiftD_phase _ _ _ _ _) S1, relShift (shiftD_phase _ _ _ _ _) S2, relShift (shiftD_phase _ _ _ _ _) S3⟩

/-- **C39, success.**  The shifted problem is solved whenever the original one is, given an eigensolver that returns
independent eigenvectors of diagonalisable matrices. -/
theorem C39_success {la la' : LinAlg} (hb : Spec.ReturnsBasis la') {s : Settings} (hp : s.p.use_pinv = false) {u : Ucell}
    (hu : s.ucell = .raster u) (hy : 0 < u.ny) (hx : 0 < u.nx) (sy sx : ℕ) {sol : Solved s.p.fto.1 s.p.fto.2}
    (h : conv_solve la s = .ok sol) :
    ∃ sol', conv_solve la' (Spec.withUcell s (.raster (Spec.rollAll sy sx u))) = .ok sol' := by
  have hwx : rootZ u.nx 1 ^ sx ≠ 0 := pow_ne_zero _ (rootZ_ne _ _)
  obtain ⟨la₂, sol₂, h₂, -⟩ := conv_solve_gauge hp (u' := .raster (Spec.rollAll sy sx u))
    (D := shiftD (rootZ u.nx 1 ^ sx) (shiftWy s.fourier_type u.ny sy)) (shiftD_ne hwx (shiftWy_ne _ _ _))
    (shiftD_delta _ _) (gratingType_roll hu sy sx) (fun cs hcs => convMats_shift hp hu hy hx sy sx hcs) h
  obtain ⟨sol', h1, -⟩ := conv_solve_basis (s := Spec.withUcell s (.raster (Spec.rollAll sy sx u))) hp hb h₂
  exact ⟨sol', h1⟩

/-- Non-vacuity: a conical problem with two materials is solved, and so is it shifted by one column, with some
eigensolver. -/
example (pol : ℝ) : ∃ la la' sol sol', conv_solve la (exSettings pol (some 0)) = .ok sol ∧
    conv_solve la' (Spec.withUcell (exSettings pol (some 0)) (.raster (Spec.rollAll 0 1 exCell))) = .ok sol' ∧
    Spec.SameEfficiencies sol.result sol'.result := by
  obtain ⟨o, ho⟩ := exCon_ok pol
  have hwx : rootZ exCell.nx 1 ^ 1 ≠ 0 := pow_ne_zero _ (rootZ_ne _ _)
  obtain ⟨la₂, sol₂, h₂, -⟩ := conv_solve_gauge (s := exSettings pol (some 0)) rfl (u' := .raster (Spec.rollAll 0 1 exCell))
    (D := shiftD (rootZ exCell.nx 1 ^ 1) (shiftWy _ exCell.ny 0)) (shiftD_ne hwx (shiftWy_ne _ _ _))
    (shiftD_delta _ _) (gratingType_roll rfl 0 1)
    (fun cs hcs => convMats_shift rfl rfl (by simp [exCell]) (by simp [exCell]) 0 1 hcs) ho
  exact ⟨_, _, _, sol₂, ho, h₂, C39_translation rfl rfl (by simp [exCell]) (by simp [exCell]) 0 1 ho h₂⟩

end Meent

#print axioms Meent.C39_translation
#print axioms Meent.C39_success
#print axioms Meent.C39_amplitudes
