import Verif.Lemmas.Homog
import Verif.Lemmas.VectorOne
import Verif.Lemmas.Example

/-!
# C18: homogeneous layers give scalar convolution matrices
-/

open Matrix

namespace Meent

/-- **C18, discrete Fourier.** -/
theorem C18_homogeneous_discrete (la : LinAlg) (ny nx : ℕ) (hy : 0 < ny) (hx : 0 < nx)
    (ns : List ℂ) (hn : ∀ n ∈ ns, n ≠ 0) (fx fy : ℕ) (enh pinv : Bool) :
    to_conv_mat_raster_discrete la (Spec.homogeneousRaster ny nx ns) fx fy enh pinv
      = .ok (ns.map (Spec.scalarConv fx fy)) := by
  unfold to_conv_mat_raster_discrete
  rw [mapM_ok]
  simp only [Ucell.rasters, Spec.homogeneousRaster, List.map_map, List.forall₂_map_left_iff,
    List.forall₂_map_right_iff, List.forall₂_same]
  intro n h
  exact convDiscrete_const la hy hx fx fy enh pinv (hn n h)

/-- **C18, continuous Fourier on a raster.** -/
theorem C18_homogeneous_continuous (la : LinAlg) (ny nx : ℕ) (hy : 0 < ny) (hx : 0 < nx)
    (ns : List ℂ) (hn : ∀ n ∈ ns, n ≠ 0) (fx fy : ℕ) (pinv : Bool) :
    to_conv_mat_raster_continuous la (Spec.homogeneousRaster ny nx ns) fx fy pinv
      = .ok (ns.map (Spec.scalarConv fx fy)) := by
  unfold to_conv_mat_raster_continuous
  rw [mapM_ok]
  simp only [Ucell.rasters, Spec.homogeneousRaster, List.map_map, List.forall₂_map_left_iff,
    List.forall₂_map_right_iff, List.forall₂_same]
  intro n h
  obtain ⟨c, hc, h1, h2⟩ := cell_compression_ok ⟨ny, nx, fun _ _ => n⟩ hy hx
  simp only [Function.comp, convRasterContinuous, hc, bind, Except.bind]
  refine convContinuous_const la fx fy pinv (hn n h) (fun i j => ?_) (by rw [h1]; norm_num)
    (by rw [h2]; norm_num)
  obtain ⟨i', j', e⟩ := cell_compression_val hc i j
  exact e

/-- **C18, vector modeling.** Whatever shapes are drawn, if they all have the base index of their
layer the convolution matrices are scalar. -/
theorem C18_homogeneous_vector (la : LinAlg) (period : ℝ × ℝ) (hx : period.1 ≠ 0) (hy : period.2 ≠ 0)
    (ns : List ℂ) (hn : ∀ n ∈ ns, n ≠ 0) (ls : List VLayer)
    (hl : List.Forall₂ Spec.HomogeneousVLayer ns ls) (fx fy : ℕ) (pinv : Bool) (cells : List VCell)
    (h : modeling_vector_instruction period ls = .ok cells) :
    to_conv_mat_vector la cells fx fy pinv = .ok (ns.map (Spec.scalarConv fx fy)) := by
  unfold modeling_vector_instruction at h
  simp only [Except.bind_ok] at h
  obtain ⟨os, h1, h2⟩ := h
  rw [mapM_ok] at h1 h2
  unfold to_conv_mat_vector
  rw [mapM_ok, List.forall₂_map_right_iff]
  induction hl generalizing os cells with
  | nil =>
    cases h1; cases h2; exact .nil
  | cons hd _ ih =>
    rename_i n l ns ls _
    cases h1 with
    | cons ha h1 =>
      cases h2 with
      | cons hb h2 =>
        refine .cons ?_ (ih (fun n h => hn n (by simp [h])) _ _ h1 h2)
        simp only [Except.bind_ok, Except.ok.injEq, VLayer.objs] at ha
        obtain ⟨o, ⟨os, hm, rfl⟩, rfl⟩ := ha
        obtain ⟨e1, e2⟩ := drawLayer_last hx hy hb
        refine convContinuous_const la fx fy pinv (hn n (by simp)) (fun i j => ?_) (by rw [e1]; exact hx)
          (by rw [e2]; exact hy)
        rcases drawLayer_val hb i j with e | ⟨o, ho, e⟩
        · rw [e, hd.1]
        · rw [e]
          obtain ⟨os', hos, ho'⟩ := List.mem_flatten.mp ho
          obtain ⟨v, hv, hr⟩ := mapM_mem hm hos
          have := hd.2 v hv
          cases v with
          | rectangle cx cy lx ly m a nt np =>
            simp only at this
            subst this
            exact rectangle_n hr o ho'
          | ellipse cx cy lx ly m a nt np =>
            simp only at this
            subst this
            exact ellipse_n hr o ho'
          | unknown => simp [VInstr.run] at hr

/-- Non-vacuity: a glass slab under a film, any raster size. -/
example : (0 < 3 ∧ 0 < 7) ∧ ∀ n ∈ [(3 / 2 : ℂ), 2 - Complex.I], n ≠ 0 := by
  refine ⟨by decide, ?_⟩
  intro n hn
  simp only [List.mem_cons, List.not_mem_nil, or_false] at hn
  rcases hn with rfl | rfl
  · norm_num
  · intro h; have := congrArg Complex.re h; simp at this

/-- Non-vacuity: a vector layer of index 2 with a rectangle of the same index drawn on it. -/
example : ∃ cells, modeling_vector_instruction (1, 1)
      [⟨2, [.rectangle (1 / 2) (1 / 2) (1 / 2) (1 / 2) 2 0 1 1]⟩] = .ok cells ∧
    List.Forall₂ Spec.HomogeneousVLayer [2] [⟨2, [.rectangle (1 / 2) (1 / 2) (1 / 2) (1 / 2) 2 0 1 1]⟩] := by
  obtain ⟨c, hc⟩ := drawLayer_one (px := 1) (py := 1) (r0 := 1 / 4) (r1 := 3 / 4) (c0 := 1 / 4) (c1 := 3 / 4)
    (base := 2) (n := 2) (by norm_num) (by norm_num) (by norm_num) (by norm_num) (by norm_num) (by norm_num)
  refine ⟨[c], ?_, .cons ⟨rfl, by simp⟩ .nil⟩
  unfold modeling_vector_instruction
  simp only [Except.bind_ok, mapM_ok]
  refine ⟨[(2, [⟨1 / 4, 1 / 4, 3 / 4, 3 / 4, 2⟩])], .cons ?_ .nil, .cons hc .nil⟩
  simp only [VLayer.objs, Except.bind_ok, mapM_ok, Except.ok.injEq]
  refine ⟨_, ⟨_, .cons (b := rectNoApprox (1 / 2) (1 / 2) (1 / 2) (1 / 2) 2) (rectangle_angle_zero _ _ _ _ _ _ _) .nil, rfl⟩, ?_⟩
  simp [rectNoApprox]; norm_num

end Meent

#print axioms Meent.C18_homogeneous_discrete
#print axioms Meent.C18_homogeneous_continuous
#print axioms Meent.C18_homogeneous_vector
