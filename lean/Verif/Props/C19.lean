import Verif.Lemmas.CfsConv
import Verif.Lemmas.Example

/-!
# C19: continuous Fourier coefficients are the exact integrals
-/

open Matrix

namespace Meent

/-- **C19.**  `_cfs` returns, in every column, the exact Fourier coefficient of the piecewise constant function given by
the breakpoints `x` and the values of the row. -/
theorem C19_coefficient {ι : Type} {k : ℕ} [NeZero k] (x : Fin k → ℝ) (hx : Spec.Ordered x) (hp : x (-1) ≠ 0)
    (cell : ι → Fin k → ℂ) (fto : ℕ) (r : ι) (mode : Fin (4 * fto + 1)) (f : ℝ → ℂ) (hf : Spec.IsStepFun x (cell r) f) :
    cfs1 x cell fto (x (-1)) r mode = Spec.fourierCoeffOn f (x (-1)) ((mode.val : ℤ) - 2 * (fto : ℤ)) := by
  rw [cfs1_eq, cfsC_eq_fourier hx hp hf]

/-- **C19, convolution matrices of a drawn layer.**  Given breakpoints in order, the matrices are those of the drawn
permittivity `f`, with exact integrals. -/
theorem C19_vector_matrices (la : LinAlg) (v : VCell) (hx : Spec.Ordered v.x) (hy : Spec.Ordered v.y) (hpx : v.x (-1) ≠ 0)
    (hpy : v.y (-1) ≠ 0) (fx fy : ℕ) (c : Conv (FlatIdx fx fy)) (h : convContinuous la v fx fy false = .ok c)
    (f : ℝ → ℝ → ℂ) (hf : Spec.IsStepFun2 v.y v.x (fun i j => v.val i j ^ 2) f) :
    Spec.ContinuousConv f (v.y (-1)) (v.x (-1)) c := by
  obtain ⟨epz, he⟩ := convContinuous_fromCell.mp h
  exact genConv_fourier hx hy hpx hpy (cell := fun x y => v.val y x ^ 2) hf he

/-- **C19, convolution matrices of a raster layer** with `fourier_type = 1`: those of the pixel image of the permittivity
on the unit cell, first row at the far end of y, with exact integrals. -/
theorem C19_raster_matrices (la : LinAlg) (c : Raster) (hy : 0 < c.ny) (hx : 0 < c.nx) (fx fy : ℕ) (cv : Conv (FlatIdx fx fy))
    (h : convRasterContinuous la c fx fy false = .ok cv) :
    Spec.ContinuousConv (Spec.pixelFun fun i j => c.val i.rev j ^ 2) 1 1 cv := by
  have : NeZero c.ny := ⟨hy.ne'⟩
  have : NeZero c.nx := ⟨hx.ne'⟩
  obtain ⟨epz, he⟩ := convRaster_fromCell.mp h
  have := genConv_fourier (pixEdge_ordered c.nx) (pixEdge_ordered c.ny) (by rw [pixEdge_last]; exact one_ne_zero)
    (by rw [pixEdge_last]; exact one_ne_zero) (cell := fun x y => (c.val y.rev x) ^ 2)
    (pixelFun_step fun i j => c.val i.rev j ^ 2) he
  rwa [pixEdge_last, pixEdge_last] at this

/-- Non-vacuity: two pieces with breakpoints 1/3 and 1, order 1. -/
example : cfs1 ![1 / 3, 1] (fun _ : Unit => ![1, 4]) 1 1 () 3
    = Spec.fourierCoeffOn (fun t => if t < 1 / 3 then 1 else 4) 1 1 := by
  refine C19_coefficient ![1 / 3, 1] ?_ ?_ (fun _ : Unit => ![1, 4]) 1 () 3 _ ?_
  · intro j
    fin_cases j
    · simp [Spec.leftEnd]
    · simp only [Spec.leftEnd]; norm_num
  · show (1 : ℝ) ≠ 0; norm_num
  · intro j t h1 h2
    fin_cases j
    · have : t < 1 / 3 := h2
      simp only [this, if_true]; rfl
    · have : (1 / 3 : ℝ) < t := h1
      exact if_neg (not_lt.mpr this.le)

end Meent

#print axioms Meent.C19_coefficient
#print axioms Meent.C19_vector_matrices
#print axioms Meent.C19_raster_matrices
