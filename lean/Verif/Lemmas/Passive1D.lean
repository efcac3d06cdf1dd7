import Verif.Lemmas.Passive
import Verif.Lemmas.CfsConv
import Verif.Lemmas.Energy1DSolve
import Verif.Spec.Passive
import Verif.Props.C36

/-!
# Passive layers in the 1D solver (helper lemmas)
-/

open Matrix

namespace Meent

set_option linter.unusedSectionVars false
set_option linter.unusedSimpArgs false
set_option linter.unusedVariables false

theorem passive_sq {n : ℂ} (h : Spec.PassiveMedium n) : (n ^ 2).im ≤ 0 := by
  have : (n ^ 2).im = 2 * (n.re * n.im) := by
    rw [sq, Complex.mul_im]; ring
  rw [this]
  have := mul_nonpos_of_nonneg_of_nonpos h.1 h.2
  linarith

theorem posFun_pixL (N : ℕ) [NeZero N] : PosFun (pixL N) := by
  have := posFun_cfsC (pixEdge_ordered N) (by rw [pixEdge_last]; norm_num)
  exact this

theorem ordered_of_strictMono {k : ℕ} [NeZero k] {x : Fin k → ℝ} (h : StrictMono x) (hpos : ∀ j, 0 < x j) : Spec.Ordered x := by
  intro j
  unfold Spec.leftEnd
  split
  · exact (hpos j).le
  · rename_i hj
    refine (h ?_).le
    obtain ⟨k', rfl⟩ : ∃ k', k = k' + 1 := ⟨k - 1, by have := NeZero.pos k; omega⟩
    exact Fin.sub_one_lt_iff.mpr (Fin.pos_of_ne_zero hj)

theorem convMats_lossy {la : LinAlg} {s : Settings}
    {convs : List (Conv (FlatIdx s.p.fto.1 s.p.fto.2))} (hp : s.p.use_pinv = false)
    (hs : Spec.PassiveProblem s) (h : convMats la s = .ok convs) :
    ∀ c ∈ convs, LossyConv c := by
  intro c hc
  have hr := hs.layers_passive
  unfold convMats at h
  cases hu : s.ucell with
  | raster u =>
    rw [hu] at h hr
    simp only at h hr
    have hreal : ∀ l ∈ u.rasters, ∀ i j, ((l.val i j) ^ 2).im ≤ 0 := by
      intro l hl i j
      obtain ⟨l', hl', rfl⟩ := List.mem_map.mp hl
      exact passive_sq (hr l' hl' i j)
    split at h
    · unfold to_conv_mat_raster_discrete at h
      obtain ⟨l, hl, e⟩ := mapM_mem h hc
      rw [hp] at e
      obtain ⟨-, -, epz, hf⟩ := convDiscrete_fromCell.mp e
      refine hf.lossy posFun_dft posFun_dft fun i j => ?_
      obtain ⟨i', j', e'⟩ := enlarge_val l _ _ s.enhanced_dfs j i
      simp only [Raster.sq, e']
      exact hreal l hl _ _
    · split at h
      · unfold to_conv_mat_raster_continuous at h
        obtain ⟨l, hl, e⟩ := mapM_mem h hc
        have hy : NeZero l.ny := by
          refine ⟨fun h0 => ?_⟩
          unfold convRasterContinuous at e
          simp only [Except.bind_ok] at e
          obtain ⟨vc, hvc, -⟩ := e
          obtain ⟨i', j', -⟩ := cell_compression_val hvc ⟨0, Nat.pos_of_ne_zero vc.hy.ne⟩ ⟨0, Nat.pos_of_ne_zero vc.hx.ne⟩
          exact absurd i'.isLt (by omega)
        have hx : NeZero l.nx := by
          refine ⟨fun h0 => ?_⟩
          unfold convRasterContinuous at e
          simp only [Except.bind_ok] at e
          obtain ⟨vc, hvc, -⟩ := e
          obtain ⟨i', j', -⟩ := cell_compression_val hvc ⟨0, Nat.pos_of_ne_zero vc.hy.ne⟩ ⟨0, Nat.pos_of_ne_zero vc.hx.ne⟩
          exact absurd j'.isLt (by omega)
        rw [hp] at e
        obtain ⟨epz, hf⟩ := convRaster_fromCell.mp e
        exact hf.lossy (posFun_pixL _) (posFun_pixL _) fun i j => hreal l hl _ _
      · cases h
  | vector ls =>
    rw [hu] at h hr
    simp only [Except.bind_ok] at h hr
    obtain ⟨cells, hcells, h⟩ := h
    unfold to_conv_mat_vector at h
    obtain ⟨vc, hvc, e⟩ := mapM_mem h hc
    rw [hp] at e
    obtain ⟨epz, hf⟩ := convContinuous_fromCell.mp e
    unfold modeling_vector_instruction at hcells
    simp only [Except.bind_ok] at hcells
    obtain ⟨os, hos, hcells⟩ := hcells
    obtain ⟨bo, hbo, hd⟩ := mapM_mem hcells hvc
    obtain ⟨l, hl, hlo⟩ := mapM_mem hos hbo
    simp only [Except.bind_ok] at hlo
    obtain ⟨o, ho, e2⟩ := hlo
    simp only [Except.ok.injEq] at e2
    subst e2
    obtain ⟨hb, hn, hg⟩ := hr l hl
    obtain ⟨hin, hnr, hnc⟩ := hg o ho
    obtain ⟨mx, my, ex, ey⟩ := C36_grid_partial s.p.period l.base o vc hd hs.period_x_pos hs.period_y_pos hin hnr hnc
    have px : ∀ j, 0 < vc.x j := by
      intro j
      rcases (ex (vc.x j)).mp ⟨j, rfl⟩ with h | h
      · rw [h]; exact hs.period_x_pos
      · exact h.1
    have py : ∀ j, 0 < vc.y j := by
      intro j
      rcases (ey (vc.y j)).mp ⟨j, rfl⟩ with h | h
      · rw [h]; exact hs.period_y_pos
      · exact h.1
    refine hf.lossy (posFun_cfsC (ordered_of_strictMono mx px) (px _)) (posFun_cfsC (ordered_of_strictMono my py) (py _))
      fun i j => ?_
    rcases drawLayer_val hd j i with e3 | ⟨ob, hob, e3⟩
    · simp only at e3; rw [e3]; exact passive_sq hb
    · rw [e3]
      apply passive_sq
      unfold VLayer.objs at ho
      simp only [Except.bind_ok] at ho
      obtain ⟨oss, hoss, e4⟩ := ho
      simp only [Except.ok.injEq] at e4
      subst e4
      obtain ⟨ol, hol, hob⟩ := List.mem_flatten.mp hob
      obtain ⟨v, hv, hrun⟩ := mapM_mem hoss hol
      have := hn v hv
      cases v with
      | rectangle cx cy lx ly n angle nt np =>
        simp only [VInstr.run] at hrun
        rw [rectangle_n hrun ob hob]
        exact this
      | ellipse cx cy lx ly n angle nw nh =>
        simp only [VInstr.run] at hrun
        rw [ellipse_n hrun ob hob]
        exact this
      | unknown => cases hrun

section
variable {n : Type} [Fintype n] [DecidableEq n]

theorem modes1d_dissipative {la : LinAlg} {pol : ℝ} {kx : n → ℂ} {c : Conv n} {m : Modes n}
    (hk : ∀ i, star (kx i) = kx i) (hc : LossyConv c)
    (h : transfer_1d_2 la pol kx c false = .ok m) : Dissipative 1 m.W m.V m.q := by
  have hone : ∀ v : n → ℂ, (beta (1 : Matrix n n ℂ) v v).im = 0 := fun v => IsHermitian.beta_im isHermitian_one v
  unfold transfer_1d_2 at h
  simp only at h
  split at h
  · simp only [Except.ok.injEq] at h
    subst h
    have hA := la.eig_law (diagonal (fun i => kx i ^ 2) - c.epy)
    refine Dissipative.of_PR (P := 1) (R := diagonal (fun i => kx i ^ 2) - c.epy) ?_ ?_ ?_ ?_
    · simp
    · rw [hA, Matrix.mul_assoc, diag_csqrt_mul]
    · rw [Matrix.one_mul]
      intro v
      rw [beta_sub_mat, Complex.sub_im, IsHermitian.beta_im (isHermitian_diagonal_real (fun i => by rw [star_pow, hk]))]
      linarith [hc.y v]
    · intro v
      simp [hone]
  · split at h
    · simp only [Except.bind_ok, meeinv_false_ok] at h
      obtain ⟨M, ⟨hu, rfl⟩, e⟩ := h
      simp only [Except.ok.injEq] at e
      subst e
      set B := diagonal kx * c.epzi * diagonal kx - 1 with hB
      have hE := la.eig_law (c.epx * B)
      refine Dissipative.of_PR (P := c.epx) (R := B) ?_ ?_ ?_ ?_
      · simp only [← Matrix.mul_assoc]
        rw [mul_nonsing_inv _ hu, Matrix.one_mul]
      · simp only [Matrix.mul_assoc]
        rw [diag_csqrt_mul, ← hE, ← Matrix.mul_assoc, ← Matrix.mul_assoc, nonsing_inv_mul _ hu,
          Matrix.one_mul]
      · rw [Matrix.one_mul, hB]
        intro v
        have hK := (isHermitian_diagonal_real hk).eq
        rw [beta_sub_mat, Complex.sub_im, hone, sub_zero]
        have := beta_sandwich (diagonal kx) c.epzi v
        rw [hK] at this
        rw [this]
        exact hc.z _
      · simpa using hc.x
    · cases h

end

/-- Passive layers: the 1D solver reports at most the incident power. -/
theorem solve_1d_passive {la : LinAlg} {p : Params} {wl nt th : ℝ}
    {convs : List (Conv (Fin (2 * p.fto.1 + 1)))} {o : Out1D (2 * p.fto.1 + 1)}
    (hp : p.use_pinv = false) (hphi : p.phi = none) (hi : RealIncidence p nt th) (hwl : 0 < wl)
    (hd : ∀ d ∈ p.thickness, 0 ≤ d)
    (hh : ∀ c ∈ convs, LossyConv c)
    (h : solve_1d la p wl convs = .ok o) :
    ∑ j, ∑ i, o.res.de_ri j i + ∑ j, ∑ i, o.res.de_ti j i ≤ 1 := by
  obtain ⟨s0, s, l, y, hy, hl, hT, e1, e2⟩ := solve_1d_balance hp hphi hi h
  have inv : FluxDec 1 s0 s := by
    have hs : ∀ (i : ℕ) c d s r, convs[i]? = some c → p.thickness[i]? = some d →
        step1d la p (2 * Real.pi / wl) (kxVec p wl) c d s = .ok r → FluxDec 1 s0 s →
        FluxDec 1 s0 r.1 := by
      intro i c d s r hc hdi hs hP
      have hcl := hh c (List.mem_of_getElem? hc)
      unfold step1d at hs
      simp only [Except.bind_ok, hp] at hs
      obtain ⟨m, hm, r3, h3, e⟩ := hs
      simp only [Except.ok.injEq] at e
      subst e
      have hm' := modes1d_dissipative (hi.kx_real hphi wl) hcl hm
      exact StepData.fluxDec (by positivity) (hd d (List.mem_of_getElem? hdi)) (tmmStep_ok.mp h3) hm' hP
    have h0 : FluxDec 1 s0 s0 := by intro t; simp [hT]
    exact layerLoop_inv (FluxDec 1 s0) hs p.thickness.length (s0, []) (s, l) hl h0
  have := inv o.T1
  rw [e1, e2] at this
  have := le_of_mul_le_mul_left this hy
  linarith

end Meent
