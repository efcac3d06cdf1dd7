import Verif.Lemmas.CfsConv

/-!
# C20: raster refinement does not change continuous-Fourier results
-/

open Matrix

namespace Meent

/-- **C20.**  If every layer of `u'` is the corresponding layer of `u` with pixels repeated along y and x, the continuous
Fourier path gives exactly the same outcome for `u'` as for `u`: the same convolution matrices, or the same exception. -/
theorem C20_refinement (la : LinAlg) (u u' : Ucell) (hy : 0 < u.ny) (hx : 0 < u.nx)
    (h : List.Forall₂ (fun a b => Spec.IsRepeated a b) u.layers u'.layers) (fx fy : ℕ) (use_pinv : Bool) :
    to_conv_mat_raster_continuous la u' fx fy use_pinv = to_conv_mat_raster_continuous la u fx fy use_pinv := by
  unfold to_conv_mat_raster_continuous Ucell.rasters
  obtain ⟨ny, nx, layers⟩ := u
  obtain ⟨ny', nx', layers'⟩ := u'
  simp only at h hy hx ⊢

  induction h with
  | nil => rfl
  | cons hab _ ih =>
    simp only [List.map_cons, List.mapM_cons]
    rw [convRaster_repeat la hy hx hab, ih]

/-- Non-vacuity: a 2 × 2 raster with rows and columns repeated three times. -/
example : Spec.IsRepeated (fun (i j : Fin 2) => if i.val = 0 ∧ j.val = 1 then (2 : ℂ) else 1)
    (fun (i j : Fin 6) => if i.val / 3 = 0 ∧ j.val / 3 = 1 then (2 : ℂ) else 1) :=
  ⟨3, 3, by norm_num, by norm_num, rfl, rfl, fun i j i' j' hi hj => by simp only [hi, hj]⟩

end Meent

#print axioms Meent.C20_refinement
