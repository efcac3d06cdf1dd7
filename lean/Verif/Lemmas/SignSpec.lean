import Verif.Lemmas.Sign
import Verif.Lemmas.AbsorbSpec
import Verif.Spec.Gain

/-!
# The sign of the media of a structure (helper lemmas)
-/

open Matrix

namespace Meent

set_option linter.unusedSectionVars false
set_option linter.unusedSimpArgs false
set_option linter.unusedVariables false

/-- Media of one sign. -/
def SignMedium (σ : ℝ) (n : ℂ) : Prop := 0 ≤ n.re ∧ σ * n.im ≤ 0

/-- Media strictly of one sign. -/
def StrictMedium (σ : ℝ) (n : ℂ) : Prop := 0 < n.re ∧ σ * n.im < 0

theorem signMedium_sq {σ : ℝ} {n : ℂ} (h : SignMedium σ n) : σ * (n ^ 2).im ≤ 0 := by
  have : (n ^ 2).im = 2 * (n.re * n.im) := by rw [sq, Complex.mul_im]; ring
  rw [this]
  have := mul_nonpos_of_nonneg_of_nonpos h.1 h.2
  nlinarith

theorem sign_re {σ : ℝ} {z : ℂ} : (((σ : ℂ) * Complex.I) * z).re = -(σ * z.im) := by
  rw [mul_assoc, Complex.re_ofReal_mul, Complex.I_mul_re]; ring

theorem sign_re_nonneg {σ : ℝ} {n : ℂ} (h : SignMedium σ n) : 0 ≤ (((σ : ℂ) * Complex.I) * n ^ 2).re := by
  rw [sign_re]
  linarith [signMedium_sq h]

theorem sign_re_pos {σ : ℝ} {n : ℂ} (h : StrictMedium σ n) : 0 < (((σ : ℂ) * Complex.I) * n ^ 2).re := by
  rw [sign_re]
  have : (n ^ 2).im = 2 * (n.re * n.im) := by rw [sq, Complex.mul_im]; ring
  rw [this]
  have := mul_neg_of_pos_of_neg h.1 h.2
  nlinarith

theorem drawn_layer {period : ℝ × ℝ} {ls : List VLayer} {cells : List VCell} (h : modeling_vector_instruction period ls = .ok cells)
    (hpx : 0 < period.1) (hpy : 0 < period.2) (hg : Spec.GoodGeometry period ls)
    {vc : VCell} (hvc : vc ∈ cells) : StrictMono vc.x ∧ StrictMono vc.y ∧ (∀ j, 0 < vc.x j) ∧ ∀ j, 0 < vc.y j := by
  unfold modeling_vector_instruction at h
  simp only [Except.bind_ok] at h
  obtain ⟨os, hos, h⟩ := h
  obtain ⟨bo, hbo, hd⟩ := mapM_mem h hvc
  obtain ⟨l, hl, hlo⟩ := mapM_mem hos hbo
  simp only [Except.bind_ok] at hlo
  obtain ⟨o, ho, e2⟩ := hlo
  simp only [Except.ok.injEq] at e2
  subst e2
  obtain ⟨hin, hnr, hnc⟩ := hg l hl o ho
  obtain ⟨mx, my, ex, ey⟩ := C36_grid_partial period l.base o vc hd hpx hpy hin hnr hnc
  refine ⟨mx, my, fun j => ?_, fun j => ?_⟩
  · rcases (ex (vc.x j)).mp ⟨j, rfl⟩ with h | h
    · rw [h]; exact hpx
    · exact h.1
  · rcases (ey (vc.y j)).mp ⟨j, rfl⟩ with h | h
    · rw [h]; exact hpy
    · exact h.1

theorem edge_fin {k : ℕ} [NeZero k] (x : Fin k → ℝ) (hx : StrictMono x) (h0 : ∀ j, 0 < x j) (j : Fin k) :
    0 ≤ Spec.leftEnd x j ∧ Spec.leftEnd x j < x j ∧ x j ≤ x (-1) := by
  obtain ⟨k', rfl⟩ : ∃ k', k = k' + 1 := ⟨k - 1, by have := NeZero.pos k; omega⟩
  refine ⟨?_, ?_, hx.monotone ?_⟩
  · unfold Spec.leftEnd
    split
    · exact le_rfl
    · exact (h0 _).le
  · unfold Spec.leftEnd
    split
    · exact h0 _
    · rename_i hj
      exact hx (Fin.sub_one_lt_iff.mpr (Fin.pos_of_ne_zero hj))
  · have : (-1 : Fin (k' + 1)) = Fin.last k' := by
      exact Fin.neg_one_eq_last'
    rw [this]
    exact Fin.le_last j

/-- The convolution matrices of layers of one sign. -/
theorem convMats_sign {la : LinAlg} {s : Settings} {σ : ℝ} (hσ : σ = 1 ∨ σ = -1) (hp : s.p.use_pinv = false)
    (h : Spec.MadeOf (SignMedium σ) s) {cs : List (Conv (FlatIdx s.p.fto.1 s.p.fto.2))} (hcs : convMats la s = .ok cs)
    {k : ℕ} {c : Conv (FlatIdx s.p.fto.1 s.p.fto.2)} (hk : cs[k]? = some c) :
    SignConv σ c ∧ (Spec.LayerShows s k (StrictMedium σ) → SideConv ((σ : ℂ) * Complex.I) c) := by
  have hm := h.media
  unfold convMats at hcs
  unfold Spec.Occurs at hm
  unfold Spec.LayerShows
  rcases hu : s.ucell with u | ls
  · rw [hu, hp] at hcs
    rw [hu] at hm
    simp only at hcs hm ⊢
    have hl : ∀ l, u.rasters[k]? = some l → (∃ l', u.layers[k]? = some l' ∧ l = ⟨u.ny, u.nx, l'⟩) := by
      intro l hl
      simp only [Ucell.rasters, List.getElem?_map, Option.map_eq_some_iff] at hl
      obtain ⟨a, ha, e⟩ := hl
      exact ⟨a, ha, e.symm⟩
    split at hcs
    · rename_i hf
      obtain ⟨l, hlk, e⟩ := mapM_getElem hcs k c hk
      obtain ⟨l', hl', rfl⟩ := hl l hlk
      have hs : ∀ i j, SignMedium σ (l' i j) := fun i j => hm _ ⟨l', List.mem_of_getElem? hl', i, j, rfl⟩
      obtain ⟨-, -, epz, hc⟩ := convDiscrete_fromCell.mp e
      refine ⟨hc.sign hσ posFun_dft posFun_dft fun i j => ?_, ?_⟩
      · obtain ⟨i', j', e'⟩ := enlarge_val _ _ _ s.enhanced_dfs j i
        simp only [Raster.sq, e']
        exact signMedium_sq (hs _ _)
      · rintro ⟨hcoef, l2, hl2, i, j, hst⟩
        rw [hl'] at hl2
        cases hl2
        have he : s.enhanced_dfs = true := by
          rcases hcoef with h1 | h1
          · rw [hf] at h1; exact absurd h1 (by norm_num)
          · exact h1.2
        rw [he] at hc
        obtain ⟨ky, kx, b1, b2, hv⟩ := enlarge_enhanced ⟨u.ny, u.nx, l'⟩ s.p.fto.1 s.p.fto.2 (by have := i.isLt; simp only; omega)
          (by have := j.isLt; simp only; omega) i j
        refine hc.sideOn (sideOn_dft kx b2) (sideOn_dft ky b1) (fun a b => ?_) ?_
        · obtain ⟨i', j', e'⟩ := enlarge_val ⟨u.ny, u.nx, l'⟩ s.p.fto.1 s.p.fto.2 true b a
          simp only [Raster.sq, e']
          exact sign_re_nonneg (hs _ _)
        · intro a b ha hb
          simp only [Raster.sq]
          rw [hv b a hb.1 hb.2 ha.1 ha.2]
          exact sign_re_pos hst
    · split at hcs
      · obtain ⟨l, hlk, e⟩ := mapM_getElem hcs k c hk
        obtain ⟨l', hl', rfl⟩ := hl l hlk
        have hs : ∀ i j, SignMedium σ (l' i j) := fun i j => hm _ ⟨l', List.mem_of_getElem? hl', i, j, rfl⟩
        have hny : 0 < u.ny ∧ 0 < u.nx := by
          unfold convRasterContinuous at e
          simp only [Except.bind_ok] at e
          obtain ⟨vc, hvc, -⟩ := e
          obtain ⟨i', j', -⟩ := cell_compression_val hvc ⟨0, Nat.pos_of_ne_zero vc.hy.ne⟩ ⟨0, Nat.pos_of_ne_zero vc.hx.ne⟩
          have h1 := i'.isLt
          have h2 := j'.isLt
          simp only at h1 h2
          exact ⟨by omega, by omega⟩
        haveI : NeZero (⟨u.ny, u.nx, l'⟩ : Raster).ny := ⟨hny.1.ne'⟩
        haveI : NeZero (⟨u.ny, u.nx, l'⟩ : Raster).nx := ⟨hny.2.ne'⟩
        obtain ⟨epz, hc⟩ := convRaster_fromCell.mp e
        refine ⟨hc.sign hσ (posFun_pixL _) (posFun_pixL _) fun i j => signMedium_sq (hs _ _), ?_⟩
        rintro ⟨hcoef, l2, hl2, i, j, hst⟩
        rw [hl'] at hl2
        cases hl2
        refine hc.sideOn (sideOn_pixL _ _ j) (sideOn_pixL _ _ i.rev) (fun a b => sign_re_nonneg (hs _ _)) ?_
        rintro a b rfl rfl
        rw [Fin.rev_rev]; exact sign_re_pos hst
      · cases hcs
  · rw [hu, hp] at hcs
    rw [hu] at hm
    simp only [Except.bind_ok] at hcs hm ⊢
    obtain ⟨cells, hcells, hcs⟩ := hcs
    unfold to_conv_mat_vector at hcs
    obtain ⟨vc, hvk, e⟩ := mapM_getElem hcs k c hk
    have hvc := List.mem_of_getElem? hvk
    obtain ⟨l, hl, hmed⟩ := drawn_media hcells hvc
    have hs : ∀ i j, SignMedium σ (vc.val i j) := fun i j => hm _ ⟨l, hl, hmed i j⟩
    obtain ⟨epz, hf⟩ := convContinuous_fromCell.mp e
    obtain ⟨mx, my, px, py⟩ := drawn_layer hcells h.period_x_pos h.period_y_pos (h.geometry ls hu) hvc
    haveI := vc.hx
    haveI := vc.hy
    refine ⟨hf.sign hσ (posFun_cfsC (ordered_of_strictMono mx px) (px _)) (posFun_cfsC (ordered_of_strictMono my py) (py _))
      fun i j => signMedium_sq (hs j i), ?_⟩
    rintro ⟨cells', vc', hcells', hvk', i, j, hst⟩
    rw [hcells] at hcells'
    cases hcells'
    rw [hvk] at hvk'
    cases hvk'
    obtain ⟨x0, x1, x2⟩ := edge_fin _ mx px j
    obtain ⟨y0, y1, y2⟩ := edge_fin _ my py i
    refine hf.sideOn (sideOn_cfsC (ordered_of_strictMono mx px) (px _) j x0 x1 x2)
      (sideOn_cfsC (ordered_of_strictMono my py) (py _) i y0 y1 y2) (fun a b => sign_re_nonneg (hs b a)) ?_
    rintro a b rfl rfl
    exact sign_re_pos hst

theorem SignConv.row {fx fy : ℕ} {σ : ℝ} {c : Conv (FlatIdx fx fy)} (h : SignConv σ c) : SignConv σ c.row :=
  ⟨h.x.submatrix _, h.y.submatrix _, h.z.submatrix _⟩

/-- The sign of the power balance of a structure. -/
theorem conv_solve_sign {la : LinAlg} {s : Settings} {σ : ℝ} (hσ : σ = 1 ∨ σ = -1) (hp : s.p.use_pinv = false) (ha : s.algo = .tmm)
    (h : Spec.MadeOf (SignMedium σ) s) {sol : Solved s.p.fto.1 s.p.fto.2} (hs : conv_solve la s = .ok sol) :
    (gratingType s = 0 → ∃ r, sol.result.res = some r ∧ Balance σ (Spec.Shows s (StrictMedium σ)) (Spec.totalEfficiency r)) ∧
    (gratingType s = 1 ∨ gratingType s = 2 → ∃ r rte rtm, sol.result = ⟨some r, some rte, some rtm⟩ ∧
      Balance σ (Spec.Shows s (StrictMedium σ)) (Spec.totalEfficiency r) ∧ Balance σ (Spec.Shows s (StrictMedium σ)) (Spec.totalEfficiency rte) ∧
      Balance σ (Spec.Shows s (StrictMedium σ)) (Spec.totalEfficiency rtm)) := by
  have hi := RealIncidence.of_spec h.toRealIllumination
  obtain ⟨ph, hph⟩ := phi_real h.toRealIllumination
  have hpsi : s.p.psi = ((s.p.psi.re : ℝ) : ℂ) := Complex.ext rfl h.psi_real
  have mono : ∀ {S S' : Prop} {x : ℝ}, (S' → S) → Balance σ S x → Balance σ S' x := fun hS hB => ⟨hB.1, fun h => hB.2 (hS h)⟩
  have hsign : ∀ {cs}, convMats la s = .ok cs → ∀ c ∈ cs, SignConv σ c := by
    intro cs hcs c hc
    obtain ⟨k, hk⟩ := List.mem_iff_getElem?.mp hc
    exact (convMats_sign hσ hp h hcs hk).1
  have hstrict : ∀ {cs}, convMats la s = .ok cs → s.p.thickness.length ≤ cs.length → Spec.Shows s (StrictMedium σ) →
      ∃ x ∈ cs.zip s.p.thickness, SideConv ((σ : ℂ) * Complex.I) x.1 ∧ 0 < x.2 := by
    rintro cs hcs hlen ⟨k, d, hkd, hd, hsh⟩
    have hk : k < s.p.thickness.length := (List.getElem?_eq_some_iff.mp hkd).1
    have hk2 : k < cs.length := by omega
    have hc : cs[k]? = some cs[k] := List.getElem?_eq_getElem hk2
    refine ⟨(cs[k], d), ?_, (convMats_sign hσ hp h hcs hc).2 hsh, hd⟩
    rw [List.mem_iff_getElem?]
    exact ⟨k, by rw [List.getElem?_zip_eq_some]; exact ⟨hc, hkd⟩⟩
  rcases conv_solve_cases hs with ⟨hg, o, rfl⟩ | ⟨hg, ⟨o, rfl⟩ | rfl⟩ | ⟨hg, o, rfl⟩
  · refine ⟨fun _ => ?_, fun h => by omega⟩
    obtain ⟨cs, hcs, -, -, ho⟩ := conv_solve_tetm.mp hs
    obtain ⟨u, hu, -, hpol, hphi, hf⟩ := gratingType_zero hg
    have := solve_1d_sign (σ := σ) hp hphi hi h.wavelength_pos h.thickness_nonneg (fun c hc => by
      obtain ⟨c', hc', rfl⟩ := List.mem_map.mp hc
      exact (hsign hcs c' hc').row) ho
    have hlen : s.p.thickness.length ≤ cs.length := by
      unfold solve_1d at ho
      simp only [Except.bind_ok] at ho
      obtain ⟨init, -, r, hl, -⟩ := ho
      simpa using (layerLoop_ok_len hl).1
    refine ⟨_, rfl, ?_⟩
    have e : ∀ {fy : ℕ}, fy = 0 → Spec.totalEfficiency (o.res.row1 fy) = Spec.totalEfficiency o.res := by
      intro fy hfy; subst hfy; rfl
    rw [e hf]
    refine mono (fun hS => ?_) this
    obtain ⟨x, hx, h1, h2⟩ := hstrict hcs hlen hS
    refine ⟨(x.1.row, x.2), ?_, h1.row hf, h2⟩
    rw [List.zip_map_left]
    exact List.mem_map.mpr ⟨x, hx, rfl⟩
  · refine ⟨fun h => by omega, fun _ => ?_⟩
    obtain ⟨cs, hcs, -, -, ho⟩ := conv_solve_conical.mp hs
    obtain ⟨⟨ny, nx, ls⟩, hu, hny, -⟩ := gratingType_one hg
    simp only at hny
    subst hny
    obtain ⟨a, b, c⟩ := solve_con_sign (σ := σ) hp hph hpsi hi h.wavelength_pos h.thickness_nonneg (hsign hcs)
      (convMats_epzi_epy hp hu (fun l _ i i' j => by rw [Subsingleton.elim i i']) hcs) ho rfl
    have hst := hstrict hcs ((solve_con_iff hp).mp ho).1
    exact ⟨_, _, _, rfl, mono hst a, mono hst b, mono hst c⟩
  · have := (solve_for_conv_smm.mp (conv_solve_ok.mp hs).choose_spec.2).2
    rw [ha] at this; cases this
  · refine ⟨fun h => by omega, fun _ => ?_⟩
    obtain ⟨cs, hcs, -, -, ho⟩ := conv_solve_twoD.mp hs
    obtain ⟨a, b, c⟩ := solve_2d_sign (σ := σ) hp hph hpsi hi h.wavelength_pos h.thickness_nonneg (hsign hcs) ho rfl
    have hst := hstrict hcs ((solve_2d_iff hp).mp ho).1
    exact ⟨_, _, _, rfl, mono hst a, mono hst b, mono hst c⟩

end Meent
