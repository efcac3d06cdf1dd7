import Verif.Lemmas.ScatteringReciprocity
import Verif.Lemmas.ScatteringFilm
import Verif.Lemmas.ReciprocitySolve
import Verif.Lemmas.ReciprocityExample
import Verif.Spec.Reciprocity

/-!
# C99: scattering matrices are reciprocal
-/

open Matrix

namespace Meent

/-- **C99.**  A TE or TM problem and the same with the light coming from the opposite side.  The layers may absorb, come in any order and have any thicknesses; the substrate
may absorb.  `Vr` and `Vt` hold the admittances of the orders in both half spaces.  Scattering from order `i` to order `j`, on the same side or across the stack, weighted with the
admittances, equals scattering from order `-j` to order `-i` in the opposite problem. -/
theorem C99_reciprocal (la la' : LinAlg) (s : Settings) (hi : Spec.RealIllumination s.p) (hinv : s.p.use_pinv = false) (hg : gratingType s = 0)
    (convs : List (Conv (FlatIdx s.p.fto.1 s.p.fto.2))) (hc : convMats la s = .ok convs) (Ls Ls' : List (Spec.SLayer (Fin (2 * s.p.fto.1 + 1))))
    (hL : List.Forall₂ (fun L L' => L'.d = L.d ∧ ∃ c ∈ convs, Spec.LayerOf la s.p.pol (kxVec s.p s.p.wavelength) c.row L ∧
      Spec.LayerOf la' s.p.pol (kxVec (Spec.opposite s).p s.p.wavelength) c.row L') Ls Ls')
    (k0 : ℝ) (Vg Vg' Vr Vr' Vt Vt' : Matrix (Fin (2 * s.p.fto.1 + 1)) (Fin (2 * s.p.fto.1 + 1)) ℂ) (Kr Kr' Kt Kt' : Fin (2 * s.p.fto.1 + 1) → ℂ)
    (hr : homogeneous_1D (kxVec s.p s.p.wavelength) s.p.n_top (some s.p.pol) = .ok (Vr, Kr))
    (hr' : homogeneous_1D (kxVec (Spec.opposite s).p s.p.wavelength) s.p.n_top (some s.p.pol) = .ok (Vr', Kr'))
    (ht : homogeneous_1D (kxVec s.p s.p.wavelength) s.p.n_bot (some s.p.pol) = .ok (Vt, Kt))
    (ht' : homogeneous_1D (kxVec (Spec.opposite s).p s.p.wavelength) s.p.n_bot (some s.p.pol) = .ok (Vt', Kt'))
    (S S' : SDict (Fin (2 * s.p.fto.1 + 1))) (hS : Spec.scatteringMatrix k0 Vg Vr Vt Ls = .ok S) (hS' : Spec.scatteringMatrix k0 Vg' Vr' Vt' Ls' = .ok S')
    (i j : Fin (2 * s.p.fto.1 + 1)) :
    Vr j j * S.S11 j i = Vr i i * S'.S11 i.rev j.rev ∧ Vt j j * S.S21 j i = Vr i i * S'.S12 i.rev j.rev ∧
      Vr j j * S.S12 j i = Vt i i * S'.S21 i.rev j.rev ∧ Vt j j * S.S22 j i = Vt i i * S'.S22 i.rev j.rev := by
  obtain ⟨u, hu, hy, hpol, hphi, hf⟩ := gratingType_zero hg
  have hk : ∀ i : Fin (2 * s.p.fto.1 + 1), kxVec (Spec.opposite s).p s.p.wavelength (Fin.revPerm i) = -kxVec s.p s.p.wavelength i := fun i => kx_rev (inc_opposite hi) _
  have hJ := convMats_persym hinv hc
  have hl : List.Forall₂ (fun L L' : Spec.SLayer (Fin (2 * s.p.fto.1 + 1)) => L'.d = L.d ∧ ∃ P R, Pencil P R L.W L.V L.q ∧
      Pencil Pᵀ Rᵀ (L'.W.submatrix Fin.revPerm id) (L'.V.submatrix Fin.revPerm id) L'.q) Ls Ls' := by
    refine hL.imp ?_
    rintro L L' ⟨hd, c, hcm, ⟨M, hM, e1, e2, e3⟩, M', hM', e4, e5, e6⟩
    have p1 := modes1d_pencil hM
    have p2 := modes1d_pencil_rev hk (row_persym hf (hJ c hcm)) hM'
    rw [← e1, ← e2, ← e3] at p1
    rw [← e4, ← e5, ← e6] at p2
    exact ⟨hd, _, _, p1, p2⟩
  obtain ⟨y, y', rfl, rfl, ey⟩ := homogeneous_even hk hr hr'
  obtain ⟨z, z', rfl, rfl, ez⟩ := homogeneous_even hk ht ht'
  have key : ∀ a1 a2 a1' a2' : Fin (2 * s.p.fto.1 + 1) → ℂ,
      ∑ l, y l * ((S.S11 *ᵥ a1 + S.S12 *ᵥ a2) l * a1' l.rev - a1 l * (S'.S11 *ᵥ a1' + S'.S12 *ᵥ a2') l.rev) =
      ∑ l, z l * (a2 l * (S'.S21 *ᵥ a1' + S'.S22 *ᵥ a2') l.rev - (S.S21 *ᵥ a1 + S.S22 *ᵥ a2) l * a2' l.rev) := by
    intro a1 a2 a1' a2'
    have h1 := (scatteringMatrix_scatters hS a1 a2 _ _).mp ⟨rfl, rfl⟩
    have h2 := (scatteringMatrix_scatters hS' a1' a2' _ _).mp ⟨rfl, rfl⟩
    have h3 := through_bil hl h1 h2
    rw [half_bil ey, half_bil ez] at h3
    exact mul_left_cancel₀ two_ne_zero h3
  have sum1 : ∀ (w b : Fin (2 * s.p.fto.1 + 1) → ℂ) (j), ∑ l, w l * (b l * (Pi.single j.rev 1 : Fin (2 * s.p.fto.1 + 1) → ℂ) l.rev) = w j * b j := by
    intro w b j
    rw [Finset.sum_eq_single j]
    · rw [Pi.single_eq_same, mul_one]
    · intro l _ hl
      rw [Pi.single_eq_of_ne (fun h => hl (Fin.rev_injective h)), mul_zero, mul_zero]
    · intro h
      exact absurd (Finset.mem_univ j) h
  have sum2 : ∀ (w b : Fin (2 * s.p.fto.1 + 1) → ℂ) (i), ∑ l, w l * ((Pi.single i 1 : Fin (2 * s.p.fto.1 + 1) → ℂ) l * b l) = w i * b i := by
    intro w b i
    rw [Finset.sum_eq_single i]
    · rw [Pi.single_eq_same, one_mul]
    · intro l _ hl
      rw [Pi.single_eq_of_ne hl, zero_mul, mul_zero]
    · intro h
      exact absurd (Finset.mem_univ i) h
  have col : ∀ (A : Matrix (Fin (2 * s.p.fto.1 + 1)) (Fin (2 * s.p.fto.1 + 1)) ℂ) (i l), (A *ᵥ Pi.single i 1) l = A l i := fun A i l => by
    rw [mulVec_single_one, col_apply]
  simp only [diagonal_apply_eq]
  have k1 := key (Pi.single i 1) 0 (Pi.single j.rev 1) 0
  have k2 := key (Pi.single i 1) 0 0 (Pi.single j.rev 1)
  have k3 := key 0 (Pi.single i 1) (Pi.single j.rev 1) 0
  have k4 := key 0 (Pi.single i 1) 0 (Pi.single j.rev 1)
  simp only [mul_sub, Finset.sum_sub_distrib, mulVec_zero, add_zero, zero_add, Pi.zero_apply, zero_mul, mul_zero, Finset.sum_const_zero, sum1, sum2, col] at k1 k2 k3 k4
  refine ⟨?_, ?_, ?_, ?_⟩
  · linear_combination k1
  · linear_combination k2
  · linear_combination k3
  · linear_combination k4

theorem C99_half (pol : ℝ) : homogeneous_1D (kxVec (oppParams pol none) 1) 1 (some pol) =
    .ok ((Complex.I * ((Real.sqrt 3 / 2 : ℝ) : ℂ)) • 1, fun _ => ((Real.sqrt 3 / 2 : ℝ) : ℂ)) := by
  have e : homogeneous_1D (kxVec (oppParams pol none) 1) 1 (some pol) = homogeneous_1D (kxVec (exParams pol none) 1) 1 (some pol) := by
    have e1 : kxVec (oppParams pol none) 1 = fun _ => -(1 / 2) := funext fun i => oppKx pol i
    have e2 : kxVec (exParams pol none) 1 = fun _ => 1 / 2 := funext fun i => exKx pol i
    rw [e1, e2]
    unfold homogeneous_1D
    simp only [neg_sq]
    rfl
  exact e.trans (exHomogeneous pol (some pol))

/-- Non-vacuity: a two-pixel grating of indices `1` and `2 - i` in air at 30° and -30°, TE and TM. -/
example (pol : ℝ) (hpol : pol = 0 ∨ pol = 1) : Spec.RealIllumination (absSettings pol none).p ∧ gratingType (absSettings pol none) = 0 ∧
    ∃ convs, convMats exLA (absSettings pol none) = .ok convs ∧ ∃ Ls Ls' : List (Spec.SLayer (Fin (2 * (absSettings pol none).p.fto.1 + 1))), Ls ≠ [] ∧
      List.Forall₂ (fun L L' => L'.d = L.d ∧ ∃ c ∈ convs, Spec.LayerOf exLA pol (kxVec (absSettings pol none).p 1) c.row L ∧
        Spec.LayerOf exLA pol (kxVec (Spec.opposite (absSettings pol none)).p 1) c.row L') Ls Ls' ∧
      ∃ V K V' K', homogeneous_1D (kxVec (absSettings pol none).p 1) 1 (some pol) = .ok (V, K) ∧
        homogeneous_1D (kxVec (Spec.opposite (absSettings pol none)).p 1) 1 (some pol) = .ok (V', K') ∧
        ∃ Vg S S', Spec.scatteringMatrix (2 * Real.pi / 1) Vg V V Ls = .ok S ∧ Spec.scatteringMatrix (2 * Real.pi / 1) Vg V' V' Ls' = .ok S' := by
  obtain ⟨hq, hv⟩ := abs_dq hpol
  obtain ⟨S, hS⟩ := film_scatters (n := Fin (2 * (exParams pol none).fto.1 + 1)) (k0 := 2 * Real.pi / 1) (d := 1 / 3) (by positivity) (by norm_num) hq.le hv
  have hopp : (Spec.opposite (absSettings pol none)).p = oppParams pol none := rfl
  refine ⟨(absSettings_passive pol none (by simp)).toRealIllumination, abs_grating pol hpol, _, absConvMats pol none,
    [⟨1, diagonal fun _ => dv pol (1 / 2) ((7 - Complex.I) / 4) (2 - 2 * Complex.I) ((1 + Complex.I) / 4),
      fun _ => dq pol (1 / 2) ((7 - Complex.I) / 4) (2 - 2 * Complex.I) ((1 + Complex.I) / 4), 1 / 3⟩], _, by simp,
    .cons ⟨rfl, _, List.mem_singleton.mpr rfl, ⟨_, (congrArg (fun c => transfer_1d_2 exLA pol (kxVec (exParams pol none) 1) c false) absConv_row).trans
      (transfer_1d_2_diag hpol (kxVec (exParams pol none) 1) (fun _ => (7 - Complex.I) / 4) (fun _ => 2 - 2 * Complex.I) (fun _ => (1 + Complex.I) / 4) (fun _ => ne_of_im (by norm_num))), rfl, ?_, ?_⟩,
      ⟨_, (congrArg (fun c => transfer_1d_2 exLA pol (kxVec (oppParams pol none) 1) c false) absConv_row).trans
      (transfer_1d_2_diag hpol (kxVec (oppParams pol none) 1) (fun _ => (7 - Complex.I) / 4) (fun _ => 2 - 2 * Complex.I) (fun _ => (1 + Complex.I) / 4) (fun _ => ne_of_im (by norm_num))), rfl, ?_, ?_⟩⟩ .nil,
    _, _, _, _, exHomogeneous pol (some pol), C99_half pol, _, S, S, hS, hS⟩
  · simp only [exKx]; rfl
  · simp only [exKx]; rfl
  · simp only [oppKx, dv_neg]; rfl
  · simp only [oppKx, dq_neg]; rfl

end Meent

#print axioms Meent.C99_reciprocal
