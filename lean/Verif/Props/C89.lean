import Verif.Lemmas.FieldTile
import Verif.Props.C81
import Verif.Props.C87

/-!
# C89: several periods in a cell have the fields of one period, repeated
-/

open Matrix

namespace Meent

/-- **C89.**  Describe the same structure with `tx` by `ty` periods in a cell, and keep the same orders. The fields stay the same: all arrays for the original
cell, and all arrays for the larger cell, hold samples of the same functions of position, taken over one period of each cell. -/
theorem C89_supercell (la la' : LinAlg) (s : Settings) (u : Ucell) (hu : s.ucell = .raster u) (hny : 0 < u.ny) (hnx : 0 < u.nx)
    (hn : s.p.n_top ≠ 0) (hw : s.p.wavelength ≠ 0) (hp : s.p.use_pinv = false) (ha : s.algo = .tmm) (tx ty : ℕ) (htx : 0 < tx) (hty : 0 < ty) (fto' : ℕ × ℕ)
    (hx : Spec.SameOrders tx s.p.fto.1 fto'.1) (hy : Spec.SameOrders ty s.p.fto.2 fto'.2)
    (hft : s.fourier_type = 1 ∨ Spec.EnoughPixels (Spec.supercell s u tx ty fto') (Spec.tileAll tx ty u))
    (hg : gratingType (Spec.supercell s u tx ty fto') = 0 ↔ gratingType s = 0)
    (sol : Solved s.p.fto.1 s.p.fto.2) (sol' : Solved fto'.1 fto'.2) (h : conv_solve la s = .ok sol)
    (h' : conv_solve la' (Spec.supercell s u tx ty fto') = .ok sol') :
    ∃ fields : Spec.Fields Field3, Spec.AlwaysSampled s.p sol fields ∧ Spec.AlwaysSampled (Spec.supercell s u tx ty fto').p sol' fields := by
  obtain ⟨cs', hc', hq⟩ := C49_unique la' (Spec.supercell s u tx ty fto') hp ha hn sol' h'
  obtain ⟨cs, hc, E⟩ := convMats_emb (la := la) hp hu hny hnx htx hty hx hy hft hc'
  suffices hs : ∃ fields, ProblemFields s.p cs sol fields ∧ ProblemFields (Spec.supercell s u tx ty fto').p cs' sol' fields by
    obtain ⟨fields, f1, f2⟩ := hs
    exact ⟨fields, problem_sampled hp hn hw h hc f1, problem_sampled (s := Spec.supercell s u tx ty fto') hp hn hw h' hc' f2⟩
  by_cases h0 : gratingType s = 0
  · have h0' := hg.mpr h0
    obtain ⟨o, rfl⟩ : ∃ o, sol = .tetm o := by
      rcases conv_solve_cases h with ⟨-, h1⟩ | ⟨h1, -⟩ | ⟨h1, -⟩
      · exact h1
      · omega
      · omega
    obtain ⟨o', rfl⟩ : ∃ o, sol' = .tetm o := by
      rcases conv_solve_cases h' with ⟨-, h1⟩ | ⟨h1, -⟩ | ⟨h1, -⟩
      · exact h1
      · omega
      · omega
    obtain ⟨-, -, -, -, -, hf'⟩ := gratingType_zero h0'
    obtain ⟨cs1, hc1, fs, hb⟩ := tetm_bvp hp hn h
    obtain rfl := Except.ok.inj (hc.symm.trans hc1)
    have E1 : List.Forall₂ (ConvEmb (tileIdx tx _ _ hx)) (cs'.map Conv.row) (cs.map Conv.row) := by
      rw [List.forall₂_map_left_iff, List.forall₂_map_right_iff]
      exact E.imp fun _ _ => row_emb htx hty hf'
    obtain ⟨fs', hd', e⟩ := tetm_tile_fields (ty := ty) htx E1 hb (fun r hr => (hq r).mp hr)
    refine ⟨.tetm _, ⟨fs, hb, rfl⟩, fs', hd', ?_⟩
    funext k z y x
    exact congrArg (unsix s.p.pol) (congrFun (congrFun (congrFun (congrFun e k) z) y) x)
  · have h0' : gratingType (Spec.supercell s u tx ty fto') ≠ 0 := fun e => h0 (hg.mp e)
    obtain ⟨cs1, y, te, tm, hc1, er, ⟨f1, d1⟩, ⟨f2, d2⟩, ⟨f3, d3⟩⟩ := solved_bvp hp ha hn h0 h
    obtain ⟨cs2, y', te', tm', hc2, er', q1, q2, q3⟩ := solved_unique (s := Spec.supercell s u tx ty fto') hp ha hn h0' h'
    obtain rfl := Except.ok.inj (hc.symm.trans hc1)
    obtain rfl := Except.ok.inj (hc'.symm.trans hc2)
    exact ⟨.vector _ _ _, problem_vector er ⟨f1, d1, rfl⟩ ⟨f2, d2, rfl⟩ ⟨f3, d3, rfl⟩,
      problem_vector (p := (Spec.supercell s u tx ty fto').p) er' (wave_tile htx hty E d1 q1) (wave_tile htx hty E d2 q2) (wave_tile htx hty E d3 q3)⟩

/-- Not vacuous: the grating of two absorbing media in TE with the orders -1, 0 and 1, and the same with three periods in a cell and the orders
-4 to 4. -/
example : ∃ sol sol', conv_solve exLA (lossySettings 0 none 1) = .ok sol ∧
    conv_solve exLA (Spec.supercell (lossySettings 0 none 1) ⟨1, 2, [fun _ j => if j = 0 then 1 - 2 * Complex.I else 2 - Complex.I]⟩ 3 1 (4, 0)) = .ok sol' ∧
    ∃ fields : Spec.Fields Field3, Spec.AlwaysSampled (lossySettings 0 none 1).p sol fields ∧
      Spec.AlwaysSampled (Spec.supercell (lossySettings 0 none 1) ⟨1, 2, [fun _ j => if j = 0 then 1 - 2 * Complex.I else 2 - Complex.I]⟩ 3 1 (4, 0)).p sol' fields := by
  obtain ⟨o', h'⟩ := C81.lossy_super 3 (by norm_num) 4
  obtain ⟨o, h⟩ := C81.lossy_base
  exact ⟨_, _, h, h', C89_supercell exLA exLA (lossySettings 0 none 1) _ rfl (by norm_num) (by norm_num) (by simp [lossySettings, exParams])
    (by simp [lossySettings, exParams]) rfl rfl
    3 1 (by norm_num) (by norm_num) (4, 0) (by simp [Spec.SameOrders, lossySettings]) (by simp [Spec.SameOrders, lossySettings]) (.inl rfl)
    (by simp [gratingType, lossySettings, exParams]) _ _ h h'⟩

end Meent

#print axioms Meent.C89_supercell
