import Verif.Lemmas.ScatteringEnergy
import Verif.Lemmas.ScatteringFilm
import Verif.Props.C95
import Verif.Lemmas.ConvMats

/-!
# C97: scattering matrices of lossless stacks conserve power for all illuminations
-/

open Matrix

namespace Meent

/-- **C97.**  A TE or TM stack of layers of a lossless structure (any of its layers, in any order, of any thicknesses) between lossless half spaces, no order at grazing.  Whatever
propagating waves fall on it from both sides in all orders at once, the outgoing waves that the scattering matrix predicts carry the incoming power. -/
theorem C97_unitary (la : LinAlg) (s : Settings) (hp : Spec.LosslessProblem s) (hinv : s.p.use_pinv = false) (hphi : s.p.phi = none) (hg : Spec.NoGrazing s.p)
    (convs : List (Conv (FlatIdx s.p.fto.1 s.p.fto.2))) (hc : convMats la s = .ok convs)
    (Ls : List (Spec.SLayer (Fin (2 * s.p.fto.1 + 1)))) (hL : ∀ L ∈ Ls, ∃ c ∈ convs, Spec.LayerOf la s.p.pol (kxVec s.p s.p.wavelength) c.row L)
    (k0 : ℝ) (Vg Vr Vt : Matrix (Fin (2 * s.p.fto.1 + 1)) (Fin (2 * s.p.fto.1 + 1)) ℂ) (Kr Kt : Fin (2 * s.p.fto.1 + 1) → ℂ)
    (hr : homogeneous_1D (kxVec s.p s.p.wavelength) s.p.n_top (some s.p.pol) = .ok (Vr, Kr))
    (ht : homogeneous_1D (kxVec s.p s.p.wavelength) s.p.n_bot (some s.p.pol) = .ok (Vt, Kt))
    (S : SDict (Fin (2 * s.p.fto.1 + 1))) (hS : Spec.scatteringMatrix k0 Vg Vr Vt Ls = .ok S) (a1 a2 b1 b2 : Fin (2 * s.p.fto.1 + 1) → ℂ)
    (h1 : Spec.PropagatingWaves s.p.n_top (kxVec s.p s.p.wavelength) a1) (h2 : Spec.PropagatingWaves s.p.n_bot (kxVec s.p s.p.wavelength) a2)
    (hb : Spec.Scatters S a1 a2 b1 b2) :
    Spec.power s.p.pol s.p.n_top (kxVec s.p s.p.wavelength) b1 + Spec.power s.p.pol s.p.n_bot (kxVec s.p s.p.wavelength) b2 =
      Spec.power s.p.pol s.p.n_top (kxVec s.p s.p.wavelength) a1 + Spec.power s.p.pol s.p.n_bot (kxVec s.p s.p.wavelength) a2 := by
  have hs := (scatteringMatrix_scatters hS _ _ _ _).mp hb
  have hl : ∀ L ∈ Ls, Lossless 1 L.W L.V L.q := by
    intro L h
    obtain ⟨c, hcm, M, hM, eW, eV, eq⟩ := hL L h
    obtain ⟨x, y, z⟩ := convMats_isHermitian hinv hp.structure_real hc c hcm
    rw [eW, eV, eq]
    exact modes1d_lossless (fun i => Complex.conj_eq_iff_im.mpr (real_kx hp.toRealIllumination hphi i)) (x.submatrix _) (y.submatrix _) (z.submatrix _) hM
  obtain ⟨f1, f2⟩ := stack_flux ⟨hp.toRealIllumination, hp.n_bot_real, hp.n_bot_pos⟩ hphi hg hr ht b1 b2 h1 h2
  have hf := through_flux hl hs
  linarith

/-- **C97, absorbing layers.**  The layers may absorb (`n - i k` with `n, k ≥ 0`) if their thicknesses are not negative.  The outgoing waves then carry at most the incoming
power, for every illumination. -/
theorem C97_passive (la : LinAlg) (s : Settings) (hp : Spec.PassiveProblem s) (hinv : s.p.use_pinv = false) (hphi : s.p.phi = none) (hg : Spec.NoGrazing s.p)
    (convs : List (Conv (FlatIdx s.p.fto.1 s.p.fto.2))) (hc : convMats la s = .ok convs)
    (Ls : List (Spec.SLayer (Fin (2 * s.p.fto.1 + 1)))) (hL : ∀ L ∈ Ls, 0 ≤ L.d ∧ ∃ c ∈ convs, Spec.LayerOf la s.p.pol (kxVec s.p s.p.wavelength) c.row L)
    (k0 : ℝ) (hk : 0 ≤ k0) (Vg Vr Vt : Matrix (Fin (2 * s.p.fto.1 + 1)) (Fin (2 * s.p.fto.1 + 1)) ℂ) (Kr Kt : Fin (2 * s.p.fto.1 + 1) → ℂ)
    (hr : homogeneous_1D (kxVec s.p s.p.wavelength) s.p.n_top (some s.p.pol) = .ok (Vr, Kr))
    (ht : homogeneous_1D (kxVec s.p s.p.wavelength) s.p.n_bot (some s.p.pol) = .ok (Vt, Kt))
    (S : SDict (Fin (2 * s.p.fto.1 + 1))) (hS : Spec.scatteringMatrix k0 Vg Vr Vt Ls = .ok S) (a1 a2 b1 b2 : Fin (2 * s.p.fto.1 + 1) → ℂ)
    (h1 : Spec.PropagatingWaves s.p.n_top (kxVec s.p s.p.wavelength) a1) (h2 : Spec.PropagatingWaves s.p.n_bot (kxVec s.p s.p.wavelength) a2)
    (hb : Spec.Scatters S a1 a2 b1 b2) :
    Spec.power s.p.pol s.p.n_top (kxVec s.p s.p.wavelength) b1 + Spec.power s.p.pol s.p.n_bot (kxVec s.p s.p.wavelength) b2 ≤
      Spec.power s.p.pol s.p.n_top (kxVec s.p s.p.wavelength) a1 + Spec.power s.p.pol s.p.n_bot (kxVec s.p s.p.wavelength) a2 := by
  have hs := (scatteringMatrix_scatters hS _ _ _ _).mp hb
  have hl : ∀ L ∈ Ls, 0 ≤ L.d ∧ Dissipative 1 L.W L.V L.q := by
    intro L h
    obtain ⟨hd, c, hcm, M, hM, eW, eV, eq⟩ := hL L h
    obtain ⟨x, y, z⟩ := convMats_lossy hinv hp hc c hcm
    have hlc : LossyConv c.row := ⟨x.submatrix _, y.submatrix _, z.submatrix _⟩
    rw [eW, eV, eq]
    exact ⟨hd, modes1d_dissipative (fun i => Complex.conj_eq_iff_im.mpr (real_kx hp.toRealIllumination hphi i)) hlc hM⟩
  obtain ⟨f1, f2⟩ := stack_flux ⟨hp.toRealIllumination, hp.n_bot_real, hp.n_bot_pos⟩ hphi hg hr ht b1 b2 h1 h2
  have hf := through_flux_le hk hl hs
  linarith

theorem C97_waves (pol : ℝ) (a : Fin (2 * (exParams pol none).fto.1 + 1) → ℂ) : Spec.PropagatingWaves 1 (kxVec (exParams pol none) 1) a := by
  have h3 : (Real.sqrt 3) ^ 2 = 3 := Real.sq_sqrt (by norm_num)
  have e : (1 : ℂ) - (1 / 2) ^ 2 = ((Real.sqrt 3 / 2 : ℝ) : ℂ) ^ 2 := by
    rw [← Complex.ofReal_pow, div_pow (Real.sqrt 3), h3]; push_cast; norm_num
  intro i h
  unfold kz1d at h
  rw [exKx, one_pow, e, csqrt_ofReal_sq (by positivity), Complex.star_def, Complex.conj_ofReal, Complex.ofReal_re] at h
  have : 0 < Real.sqrt 3 / 2 := by positivity
  exact absurd h this.ne'

/-- Non-vacuity: a two-pixel lossless grating in air at 30°, TE and TM, any incoming waves. -/
example (pol : ℝ) (hpol : pol = 0 ∨ pol = 1) (a1 a2 : Fin (2 * (exSettings pol none).p.fto.1 + 1) → ℂ) :
    Spec.LosslessProblem (exSettings pol none) ∧ Spec.NoGrazing (exSettings pol none).p ∧
    ∃ convs, convMats exLA (exSettings pol none) = .ok convs ∧ ∃ Ls : List (Spec.SLayer (Fin (2 * (exSettings pol none).p.fto.1 + 1))), Ls ≠ [] ∧
      (∀ L ∈ Ls, ∃ c ∈ convs, Spec.LayerOf exLA pol (kxVec (exSettings pol none).p 1) c.row L) ∧
      ∃ V K, homogeneous_1D (kxVec (exSettings pol none).p 1) 1 (some pol) = .ok (V, K) ∧
      ∃ Vg S, Spec.scatteringMatrix (2 * Real.pi / 1) Vg V V Ls = .ok S ∧ Spec.PropagatingWaves 1 (kxVec (exSettings pol none).p 1) a1 ∧
        Spec.PropagatingWaves 1 (kxVec (exSettings pol none).p 1) a2 ∧ ∃ b1 b2, Spec.Scatters S a1 a2 b1 b2 := by
  obtain ⟨q, v, hq, hv, hv0⟩ : ∃ q v : ℝ, dq pol (1 / 2) (8 / 5) (5 / 2) (2 / 5) = Complex.I * (q : ℂ) ∧ dv pol (1 / 2) (8 / 5) (5 / 2) (2 / 5) = Complex.I * (v : ℂ) ∧ 0 < v := by
    rcases hpol with rfl | rfl
    · have hq : dq 0 (1 / 2) (8 / 5) (5 / 2) (2 / 5) = Complex.I * ((3 / 2 : ℝ) : ℂ) := by
        unfold dq; rw [if_pos rfl, ← csqrt_neg_sq (by norm_num)]; congr 1; push_cast; norm_num
      exact ⟨3 / 2, 3 / 2, hq, by unfold dv; rw [if_pos rfl, hq], by norm_num⟩
    · have hq : dq 1 (1 / 2) (8 / 5) (5 / 2) (2 / 5) = Complex.I * ((6 / 5 : ℝ) : ℂ) := by
        unfold dq; rw [if_neg one_ne_zero, ← csqrt_neg_sq (by norm_num)]; congr 1; push_cast; norm_num
      exact ⟨6 / 5, 3 / 4, hq, by unfold dv; rw [if_neg one_ne_zero, hq]; push_cast; ring, by norm_num⟩
  obtain ⟨S, hS⟩ := film_scatters (n := Fin (2 * (exParams pol none).fto.1 + 1)) (k0 := 2 * Real.pi / 1) (d := 1 / 3) (q := Complex.I * q) (v := Complex.I * v)
    (by positivity) (by norm_num) (by simp) (by simpa using hv0)
  refine ⟨exSettings_lossless pol none (by simp), C95_noGrazing pol, _, exConvMats pol none, [⟨1, diagonal fun _ => Complex.I * v, fun _ => Complex.I * q, 1 / 3⟩], by simp, ?_, _, _,
    exHomogeneous pol (some pol), _, S, hS, C97_waves pol a1, C97_waves pol a2, _, _, rfl, rfl⟩
  intro L hL
  obtain rfl := List.mem_singleton.mp hL
  refine ⟨_, List.mem_singleton.mpr rfl, _, (congrArg (fun c => transfer_1d_2 exLA pol (kxVec (exParams pol none) 1) c false) exConv_row).trans
    (transfer_1d_2_diag hpol (kxVec (exParams pol none) 1) (fun _ => 8 / 5) (fun _ => 5 / 2) (fun _ => 2 / 5) (fun _ => by norm_num)), rfl, ?_, ?_⟩
  · simp only [exKx, hv]; rfl
  · simp only [exKx, hq]; rfl

/-- Non-vacuity: a two-pixel grating of indices `1` and `2 - i` in air at 30°, TE and TM, any incoming waves. -/
example (pol : ℝ) (hpol : pol = 0 ∨ pol = 1) (a1 a2 : Fin (2 * (absSettings pol none).p.fto.1 + 1) → ℂ) :
    Spec.PassiveProblem (absSettings pol none) ∧ Spec.NoGrazing (absSettings pol none).p ∧
    ∃ convs, convMats exLA (absSettings pol none) = .ok convs ∧ ∃ Ls : List (Spec.SLayer (Fin (2 * (absSettings pol none).p.fto.1 + 1))), Ls ≠ [] ∧
      (∀ L ∈ Ls, 0 ≤ L.d ∧ ∃ c ∈ convs, Spec.LayerOf exLA pol (kxVec (absSettings pol none).p 1) c.row L) ∧
      ∃ V K, homogeneous_1D (kxVec (absSettings pol none).p 1) 1 (some pol) = .ok (V, K) ∧
      ∃ Vg S, Spec.scatteringMatrix (2 * Real.pi / 1) Vg V V Ls = .ok S ∧ Spec.PropagatingWaves 1 (kxVec (absSettings pol none).p 1) a1 ∧
        Spec.PropagatingWaves 1 (kxVec (absSettings pol none).p 1) a2 ∧ ∃ b1 b2, Spec.Scatters S a1 a2 b1 b2 := by
  obtain ⟨hq, hv⟩ := abs_dq hpol
  obtain ⟨S, hS⟩ := film_scatters (n := Fin (2 * (exParams pol none).fto.1 + 1)) (k0 := 2 * Real.pi / 1) (d := 1 / 3) (by positivity) (by norm_num) hq.le hv
  refine ⟨absSettings_passive pol none (by simp), C95_noGrazing pol, _, absConvMats pol none, [⟨1, diagonal fun _ => dv pol (1 / 2) ((7 - Complex.I) / 4) (2 - 2 * Complex.I) ((1 + Complex.I) / 4),
    fun _ => dq pol (1 / 2) ((7 - Complex.I) / 4) (2 - 2 * Complex.I) ((1 + Complex.I) / 4), 1 / 3⟩], by simp, ?_, _, _,
    exHomogeneous pol (some pol), _, S, hS, C97_waves pol a1, C97_waves pol a2, _, _, rfl, rfl⟩
  intro L hL
  obtain rfl := List.mem_singleton.mp hL
  refine ⟨by norm_num, _, List.mem_singleton.mpr rfl, _, (congrArg (fun c => transfer_1d_2 exLA pol (kxVec (exParams pol none) 1) c false) absConv_row).trans
    (transfer_1d_2_diag hpol (kxVec (exParams pol none) 1) (fun _ => (7 - Complex.I) / 4) (fun _ => 2 - 2 * Complex.I) (fun _ => (1 + Complex.I) / 4) (fun _ => ne_of_im (by norm_num))), rfl, ?_, ?_⟩
  · simp only [exKx]; rfl
  · simp only [exKx]; rfl

end Meent

#print axioms Meent.C97_unitary
#print axioms Meent.C97_passive
