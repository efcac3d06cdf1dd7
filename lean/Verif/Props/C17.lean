import Verif.Lemmas.Example1D
import Verif.Spec.Optics

/-!
# C17: lossless patterns give Hermitian convolution matrices
-/

open Matrix

namespace Meent

/-- **C17.** If every refractive index of the structure is real, the convolution matrices of every
layer are Hermitian, for both Fourier types of a raster and for vector modeling. -/
theorem C17_hermitian (la : LinAlg) (s : Settings) (hp : s.p.use_pinv = false)
    (hr : Spec.RealStructure s.ucell) (convs : List (Conv (FlatIdx s.p.fto.1 s.p.fto.2)))
    (h : convMats la s = .ok convs) :
    ∀ c ∈ convs, c.epx.IsHermitian ∧ c.epy.IsHermitian ∧ c.epzi.IsHermitian :=
  convMats_isHermitian hp hr h

/-- Non-vacuity: the two-pixel grating. -/
example : ∃ convs, Spec.RealStructure (exSettings 0 none).ucell ∧
    convMats exLA (exSettings 0 none) = .ok convs ∧ convs ≠ [] :=
  ⟨[exConv], (exSettings_lossless 0 none (by simp)).structure_real, exConvMats 0 none, by simp⟩

end Meent

#print axioms Meent.C17_hermitian
