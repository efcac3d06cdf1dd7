import Verif.Lemmas.DiscreteConv
import Verif.Spec.Structures
import Verif.Lemmas.Example

/-!
# C16: discrete convolution matrices hold the Fourier coefficients, without aliasing
-/

open Matrix

namespace Meent

/-- **C16.** Whenever the discrete convolution matrices are computed, each layer's matrices are the
Toeplitz matrices of discrete Fourier coefficients of the (repeated) permittivity image, with enough
samples that no coefficient is aliased. -/
theorem C16_discrete_conv (la : LinAlg) (u : Ucell) (hy : 0 < u.ny) (hx : 0 < u.nx) (fx fy : ℕ)
    (enh : Bool) (convs : List (Conv (FlatIdx fx fy)))
    (h : to_conv_mat_raster_discrete la u fx fy enh false = .ok convs) :
    List.Forall₂ (fun layer c => Spec.DiscreteConv layer c) u.layers convs := by
  unfold to_conv_mat_raster_discrete Ucell.rasters at h
  rw [mapM_ok, List.forall₂_map_left_iff] at h
  refine h.imp fun layer c hc => ?_
  obtain ⟨-, -, epz, hf⟩ := convDiscrete_fromCell.mp hc
  obtain ⟨h1, h2, h3⟩ := enlarge_spec ⟨u.ny, u.nx, layer⟩ fx fy enh hy hx
  refine ⟨_, _, _, h3, h1, h2, ⟨epz, ?_, hf.hu, hf.hi⟩, ?_, ?_⟩
  · exact genConv_direct hf.hz
  · exact (genConv_invY hf.hy).2
  · exact genConv_invX hf.hx

/-- **C16, no out-of-bounds index.** The lookup of Fourier coefficients never raises IndexError, for
any raster with at least one pixel. -/
theorem C16_no_index_error (la : LinAlg) (u : Ucell) (hy : 0 < u.ny) (hx : 0 < u.nx) (fx fy : ℕ)
    (enh pinv : Bool) : to_conv_mat_raster_discrete la u fx fy enh pinv ≠ .error .indexError := by
  intro h
  obtain ⟨l, hl, he⟩ := mapM_error h
  obtain ⟨layer, -, rfl⟩ := List.mem_map.mp hl
  obtain ⟨h1, h2, -⟩ := enlarge_spec ⟨u.ny, u.nx, layer⟩ fx fy enh hy hx
  unfold convDiscrete at he
  simp only [Except.bind_error] at he
  have key : ∀ cx cy, dfs2d (enlarge ⟨u.ny, u.nx, layer⟩ fx fy enh).sq cx cy fx fy ≠ .error .indexError :=
    fun cx cy => dfs2d_ne_index (by simp only [Raster.sq]; omega) (by simp only [Raster.sq]; omega)
  rcases he with h | ⟨_, -, h | ⟨_, -, h | ⟨_, -, h | ⟨_, -, h⟩⟩⟩⟩
  · exact key _ _ h
  · exact key _ _ h
  · exact key _ _ h
  · exact meeinv_ne_index _ _ _ h
  · simp at h

/-- **C16, no aliasing.** With at least `4 f + 1` samples the `4 f + 1` Fourier orders used by the
Toeplitz matrix are read from pairwise different entries of the transform. -/
theorem C16_no_alias (N f : ℕ) (h : 4 * f + 1 ≤ N) (j k : ℤ) (hj : |j| ≤ 2 * f) (hk : |k| ≤ 2 * f) :
    (pyIdx N j).isSome ∧ (pyIdx N j = pyIdx N k → j = k) := by
  rw [abs_le] at hj hk
  refine ⟨pyIdx_isSome.mpr (by omega), fun e => ?_⟩
  have h1 : (pyIdx N j).isSome := pyIdx_isSome.mpr (by omega)
  have h2 : (pyIdx N k).isSome := pyIdx_isSome.mpr (by omega)
  obtain ⟨m, hm⟩ := pyIdx_val h1
  obtain ⟨m', hm'⟩ := pyIdx_val h2
  have e' : (((pyIdx N j).get h1).val : ℤ) = ((pyIdx N k).get h2).val := by simp only [e]
  rw [hm, hm'] at e'
  have e2 : j - k = (m' - m) * N := by linarith
  by_contra hne
  have h3 : (N : ℤ) ∣ j - k := ⟨m' - m, by rw [e2]; ring⟩
  have h4 := Int.le_of_dvd (abs_pos.mpr (sub_ne_zero.mpr hne)) ((dvd_abs _ _).mpr h3)
  have h5 : |j - k| ≤ 4 * f := by rw [abs_le]; omega
  omega

/-- Non-vacuity: the two-pixel grating has discrete convolution matrices. -/
example : ∃ convs, 0 < exCell.ny ∧ 0 < exCell.nx ∧
    to_conv_mat_raster_discrete exLA exCell 0 0 false false = .ok convs :=
  ⟨_, by decide, by decide, exCell_conv exLA⟩

end Meent

#print axioms Meent.C16_discrete_conv
#print axioms Meent.C16_no_index_error
#print axioms Meent.C16_no_alias
