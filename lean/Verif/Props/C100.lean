import Verif.Lemmas.ScatteringEnergy2D
import Verif.Lemmas.Guided
import Verif.Lemmas.ScatteringNormal

/-!
# C100: scattering matrices of 2D stacks conserve power for all illuminations
-/

open Matrix

namespace Meent

/-- **C100 (partial).**  A 2D stack of layers of a lossless structure (any of its layers, in any order, of any thicknesses) between lossless half spaces, no order at grazing.
Whatever propagating waves of both polarizations fall on it from both sides in all orders at once, the outgoing waves that the scattering matrix predicts carry the incoming power.
Missing: orders without a wave number along x or along y, for which the modes of the half spaces are wrong (`C96_half_space_negation`). -/
theorem C100_unitary_partial (la : LinAlg) (s : Settings) (hs : Spec.RealStructure s.ucell) (hinv : s.p.use_pinv = false)
    (convs : List (Conv (FlatIdx s.p.fto.1 s.p.fto.2))) (hc : convMats la s = .ok convs)
    (kx ky : FlatIdx s.p.fto.1 s.p.fto.2 → ℂ) (hx : ∀ i, Spec.IsReal (kx i)) (hy : ∀ i, Spec.IsReal (ky i)) (hxy : ∀ i, kx i * ky i ≠ 0)
    (Ls : List (Spec.SLayer (FlatIdx s.p.fto.1 s.p.fto.2 ⊕ FlatIdx s.p.fto.1 s.p.fto.2))) (hL : ∀ L ∈ Ls, ∃ c ∈ convs, Spec.Layer2D la kx ky c L)
    (er et : ℂ) (her : Spec.IsReal er) (het : Spec.IsReal et) (her0 : er ≠ 0) (het0 : et ≠ 0)
    (hgr : ∀ i, er ≠ kx i ^ 2 + ky i ^ 2) (hgt : ∀ i, et ≠ kx i ^ 2 + ky i ^ 2)
    (k0 : ℝ) (Vg Vr Vt : Matrix (FlatIdx s.p.fto.1 s.p.fto.2 ⊕ FlatIdx s.p.fto.1 s.p.fto.2) (FlatIdx s.p.fto.1 s.p.fto.2 ⊕ FlatIdx s.p.fto.1 s.p.fto.2) ℂ)
    (Kr Kt : FlatIdx s.p.fto.1 s.p.fto.2 → ℂ) (hr : homogeneous_module kx ky er = .ok (Vr, Kr)) (ht : homogeneous_module kx ky et = .ok (Vt, Kt))
    (S : SDict (FlatIdx s.p.fto.1 s.p.fto.2 ⊕ FlatIdx s.p.fto.1 s.p.fto.2)) (hS : Spec.scatteringMatrix k0 Vg Vr Vt Ls = .ok S)
    (a1 a2 b1 b2 : FlatIdx s.p.fto.1 s.p.fto.2 ⊕ FlatIdx s.p.fto.1 s.p.fto.2 → ℂ)
    (h1 : Spec.PropagatingWaves2D er kx ky a1) (h2 : Spec.PropagatingWaves2D et kx ky a2) (hb : Spec.Scatters S a1 a2 b1 b2) :
    Spec.power2D er kx ky b1 + Spec.power2D et kx ky b2 = Spec.power2D er kx ky a1 + Spec.power2D et kx ky a2 := by
  have hs' := (scatteringMatrix_scatters hS _ _ _ _).mp hb
  have hl : ∀ L ∈ Ls, Lossless jXY L.W (-L.V) L.q := by
    intro L h
    obtain ⟨c, hcm, M, hM, eW, eV, eq⟩ := hL L h
    obtain ⟨x, y, z⟩ := convMats_isHermitian hinv hs hc c hcm
    rw [eW, eV, eq]
    exact (modePair_2d (scattering_2d_wv_ok.mp hM).2).lossless (fun i => Complex.conj_eq_iff_im.mpr (hx i)) (fun i => Complex.conj_eq_iff_im.mpr (hy i)) x y z
  have f1 := half_flux_2d her her0 hx hy hxy hgr hr h1 b1
  have f2 := half_flux_2d' het het0 hx hy hxy hgt ht h2 b2
  have hf := through_flux_neg hl hs'
  linarith

/-- **C100, absorbing layers (partial).**  The layers may absorb if their thicknesses are not negative.  The outgoing waves then carry at most the incoming power, for every
illumination.  Missing: the same orders. -/
theorem C100_passive_partial (la : LinAlg) (s : Settings) (hs : Spec.PassiveProblem s) (hinv : s.p.use_pinv = false)
    (convs : List (Conv (FlatIdx s.p.fto.1 s.p.fto.2))) (hc : convMats la s = .ok convs)
    (kx ky : FlatIdx s.p.fto.1 s.p.fto.2 → ℂ) (hx : ∀ i, Spec.IsReal (kx i)) (hy : ∀ i, Spec.IsReal (ky i)) (hxy : ∀ i, kx i * ky i ≠ 0)
    (Ls : List (Spec.SLayer (FlatIdx s.p.fto.1 s.p.fto.2 ⊕ FlatIdx s.p.fto.1 s.p.fto.2))) (hL : ∀ L ∈ Ls, 0 ≤ L.d ∧ ∃ c ∈ convs, Spec.Layer2D la kx ky c L)
    (er et : ℂ) (her : Spec.IsReal er) (het : Spec.IsReal et) (her0 : er ≠ 0) (het0 : et ≠ 0)
    (hgr : ∀ i, er ≠ kx i ^ 2 + ky i ^ 2) (hgt : ∀ i, et ≠ kx i ^ 2 + ky i ^ 2)
    (k0 : ℝ) (hk : 0 ≤ k0) (Vg Vr Vt : Matrix (FlatIdx s.p.fto.1 s.p.fto.2 ⊕ FlatIdx s.p.fto.1 s.p.fto.2) (FlatIdx s.p.fto.1 s.p.fto.2 ⊕ FlatIdx s.p.fto.1 s.p.fto.2) ℂ)
    (Kr Kt : FlatIdx s.p.fto.1 s.p.fto.2 → ℂ) (hr : homogeneous_module kx ky er = .ok (Vr, Kr)) (ht : homogeneous_module kx ky et = .ok (Vt, Kt))
    (S : SDict (FlatIdx s.p.fto.1 s.p.fto.2 ⊕ FlatIdx s.p.fto.1 s.p.fto.2)) (hS : Spec.scatteringMatrix k0 Vg Vr Vt Ls = .ok S)
    (a1 a2 b1 b2 : FlatIdx s.p.fto.1 s.p.fto.2 ⊕ FlatIdx s.p.fto.1 s.p.fto.2 → ℂ)
    (h1 : Spec.PropagatingWaves2D er kx ky a1) (h2 : Spec.PropagatingWaves2D et kx ky a2) (hb : Spec.Scatters S a1 a2 b1 b2) :
    Spec.power2D er kx ky b1 + Spec.power2D et kx ky b2 ≤ Spec.power2D er kx ky a1 + Spec.power2D et kx ky a2 := by
  have hs' := (scatteringMatrix_scatters hS _ _ _ _).mp hb
  have hl : ∀ L ∈ Ls, 0 ≤ L.d ∧ Dissipative jXY L.W (-L.V) L.q := by
    intro L h
    obtain ⟨hd, c, hcm, M, hM, eW, eV, eq⟩ := hL L h
    have hlc := convMats_lossy hinv hs hc c hcm
    rw [eW, eV, eq]
    exact ⟨hd, (modePair_2d (scattering_2d_wv_ok.mp hM).2).dissipative (fun i => Complex.conj_eq_iff_im.mpr (hx i)) (fun i => Complex.conj_eq_iff_im.mpr (hy i)) hlc⟩
  have f1 := half_flux_2d her her0 hx hy hxy hgr hr h1 b1
  have f2 := half_flux_2d' het het0 hx hy hxy hgt ht h2 b2
  have hf := through_flux_neg_le hk hl hs'
  linarith

section
variable {m : Type} [Fintype m] [DecidableEq m]

/-- **C100 is violated at normal incidence.**  Air above glass of index 2, no layers, a circularly polarized wave in orders without transverse wave numbers: the matrix exists and the
outgoing waves carry more power than the incoming one, because `homogeneous_module` replaces the zeros on the diagonal of `Q`. -/
theorem C100_negation [Nonempty m] (k0 : ℝ) :
    ∃ (Vg Vr Vt : Matrix (m ⊕ m) (m ⊕ m) ℂ) (Kr Kt : m → ℂ) (S : SDict (m ⊕ m)) (a1 b1 b2 : m ⊕ m → ℂ),
      homogeneous_module (fun _ => 0) (fun _ => 0) 1 = .ok (Vr, Kr) ∧ homogeneous_module (fun _ => 0) (fun _ => 0) 4 = .ok (Vt, Kt) ∧
      Spec.scatteringMatrix k0 Vg Vr Vt [] = .ok S ∧ Spec.PropagatingWaves2D 1 (fun _ => 0) (fun _ => 0) a1 ∧ Spec.Scatters S a1 0 b1 b2 ∧
      Spec.power2D 1 (fun _ => 0) (fun _ => 0) a1 < Spec.power2D 1 (fun _ => 0) (fun _ => 0) b1 + Spec.power2D 4 (fun _ => 0) (fun _ => 0) b2 := by
  have hr := homogeneous_module_normal (m := m) one_pos
  have ht := homogeneous_module_normal (m := m) two_pos
  have hw := depthWave_normal (m := m) one_pos
  have p1 := power_normal (m := m) one_pos
  have p2 := power_normal (m := m) two_pos
  have e1 : ((1 : ℝ) : ℂ) ^ 2 = 1 := by norm_num
  have e2 : ((2 : ℝ) : ℂ) ^ 2 = 4 := by norm_num
  rw [e1] at hr hw p1
  rw [e2] at ht p2
  set Vr := circ m (-Complex.I * (1 / 10 ^ 10) / (1 : ℝ)) (-Complex.I * (1 : ℝ)) with hVr
  set Vt := circ m (-Complex.I * (1 / 10 ^ 10) / (2 : ℝ)) (-Complex.I * (2 : ℝ)) with hVt
  have hu : IsUnit Vr.det := circ_isUnit (by
    simp only [mul_pow, div_pow, neg_sq, Complex.I_sq]
    norm_num)
  have hs : IsUnit (Vr + Vt).det := by
    rw [hVr, hVt, circ_add]
    refine circ_isUnit ?_
    have : ∀ x y : ℂ, (-Complex.I * (1 / 10 ^ 10) / x + -Complex.I * (1 / 10 ^ 10) / y) ^ 2 + (-Complex.I * x + -Complex.I * y) ^ 2 =
        -((1 / 10 ^ 10 / x + 1 / 10 ^ 10 / y) ^ 2 + (x + y) ^ 2) := by
      intro x y
      linear_combination ((1 / 10 ^ 10 / x + 1 / 10 ^ 10 / y) ^ 2 + (x + y) ^ 2) * Complex.I_sq
    rw [this]
    push_cast
    norm_num
  have hA : IsUnit (1 + Vr⁻¹ * Vt).det := by
    have : (1 + Vr⁻¹ * Vt) = Vr⁻¹ * (Vr + Vt) := by rw [Matrix.mul_add, nonsing_inv_mul _ hu]
    rw [this, det_mul]
    exact (isUnit_nonsing_inv_det _ hu).mul hs
  obtain ⟨S, hS⟩ : ∃ S, Spec.scatteringMatrix k0 Vr Vr Vt [] = .ok S := by
    refine ⟨_, Except.bind_ok.mpr ⟨_, half_same hu, Except.bind_ok.mpr ⟨_, S_RT_same _, Except.bind_ok.mpr ⟨_, rfl, Except.bind_ok.mpr ⟨_,
      Except.bind_ok.mpr ⟨_, npInv_ok.mpr ⟨hu, rfl⟩, rfl⟩, Except.bind_ok.mpr ⟨_, Except.bind_ok.mpr ⟨_, npInv_ok.mpr ⟨hA, rfl⟩, rfl⟩, star_one_left _⟩⟩⟩⟩⟩⟩
  refine ⟨Vr, Vr, Vt, _, _, S, circular m (3 - 3 / 2 * (1 / 10 ^ 10) * Complex.I), circular m (-1 - 1 / 2 * (1 / 10 ^ 10) * Complex.I),
    circular m (2 - 2 * (1 / 10 ^ 10) * Complex.I), hr, ht, hS, ?_, ?_, ?_⟩
  · intro i h
    rw [hw] at h
    norm_num at h
  · refine (scatteringMatrix_scatters hS _ _ _ _).mpr ⟨?_, ?_⟩
    · rw [add_zero, circular_add]
      congr 1
      ring
    · rw [sub_zero, circular_sub, hVr, hVt, circ_mulVec, circ_mulVec]
      congr 1
      push_cast
      linear_combination (-3 / 10 ^ 10 : ℂ) * Complex.I * Complex.I_sq
  · rw [p1, p1, p2]
    have hc : (0 : ℝ) < Fintype.card m := by exact_mod_cast Fintype.card_pos
    rw [← mul_add]
    refine mul_lt_mul_of_pos_left ?_ hc
    simp [Complex.normSq_apply]
    norm_num

omit [Fintype m] [DecidableEq m] in
theorem C100_wave (i : m) : Spec.depthWave 4 (fun _ : m => (1 / 2 : ℂ)) (fun _ => 1 / 2) i = (Real.sqrt (7 / 2) : ℝ) := by
  have h : (Real.sqrt (7 / 2)) ^ 2 = 7 / 2 := Real.sq_sqrt (by norm_num)
  have e : (4 : ℂ) - (1 / 2) ^ 2 - (1 / 2) ^ 2 = ((Real.sqrt (7 / 2) : ℝ) : ℂ) ^ 2 := by
    rw [← Complex.ofReal_pow, h]; push_cast; norm_num
  unfold Spec.depthWave
  rw [e, csqrt_ofReal_sq (by positivity), Complex.star_def, Complex.conj_ofReal]

/-- Glass: the modes of the half space and of a layer are the same. -/
theorem C100_glass : ∃ V K, IsUnit V.det ∧ homogeneous_module (fun _ : m => (1 / 2 : ℂ)) (fun _ => 1 / 2) 4 = .ok (V, K) ∧
    scattering_2d_wv exLA (fun _ : m => (1 / 2 : ℂ)) (fun _ => 1 / 2) (Spec.constant m 4) = .ok ⟨1, V, fun _ => Complex.I * (Real.sqrt (7 / 2) : ℝ)⟩ := by
  have hpos : 0 < Real.sqrt (7 / 2) := by positivity
  have h : (Real.sqrt (7 / 2)) ^ 2 = 7 / 2 := Real.sq_sqrt (by norm_num)
  have hk : (Complex.I * ((Real.sqrt (7 / 2) : ℝ) : ℂ)) ≠ 0 := mul_ne_zero Complex.I_ne_zero (by exact_mod_cast hpos.ne')
  have hk2 : (Complex.I * ((Real.sqrt (7 / 2) : ℝ) : ℂ)) ^ 2 = -(7 / 2) := by
    rw [mul_pow, Complex.I_sq, ← Complex.ofReal_pow, h]; push_cast; ring
  have hm := homogeneous_module_value (m := m) (kx := fun _ => 1 / 2) (ky := fun _ => 1 / 2) (e := 4) (by norm_num) (fun _ => by norm_num)
    (fun i => by rw [C100_wave]; exact_mod_cast hpos.ne')
  simp only [C100_wave] at hm
  have hd : IsUnit (Spec.constant m 4).epzi.det := by
    unfold Spec.constant
    rw [det_diagonal, isUnit_iff_ne_zero, Finset.prod_ne_zero_iff]
    intros
    norm_num
  have hq : (fun j : m ⊕ m => csqrt ((Sum.elim (fun _ => -(4 - (1 / 2) ^ 2 - (1 / 2) ^ 2)) fun _ => -(4 - (1 / 2) ^ 2 - (1 / 2) ^ 2) : m ⊕ m → ℂ) j)) =
      fun _ => Complex.I * (Real.sqrt (7 / 2) : ℝ) := by
    have e : -((4 : ℂ) - (1 / 2) ^ 2 - (1 / 2) ^ 2) = -(((Real.sqrt (7 / 2) : ℝ) : ℂ) ^ 2) := by
      rw [← Complex.ofReal_pow, h]; push_cast; norm_num
    funext j
    rcases j with i | i
    · simp only [Sum.elim_inl]; rw [e, csqrt_neg_sq hpos]
    · simp only [Sum.elim_inr]; rw [e, csqrt_neg_sq hpos]
  have hV : (-omegaR (fun _ : m => (1 / 2 : ℂ)) (fun _ => 1 / 2) (Spec.constant m 4) * diagonal (Sum.elim (fun _ => (Complex.I * ((Real.sqrt (7 / 2) : ℝ) : ℂ))⁻¹)
      fun _ => (Complex.I * ((Real.sqrt (7 / 2) : ℝ) : ℂ))⁻¹)) = (Complex.I * ((Real.sqrt (7 / 2) : ℝ) : ℂ))⁻¹ • -omegaR (fun _ : m => (1 / 2 : ℂ)) (fun _ => 1 / 2) (Spec.constant m 4) := by
    have e : (Sum.elim (fun _ => (Complex.I * ((Real.sqrt (7 / 2) : ℝ) : ℂ))⁻¹) fun _ => (Complex.I * ((Real.sqrt (7 / 2) : ℝ) : ℂ))⁻¹ : m ⊕ m → ℂ) =
        fun _ => (Complex.I * ((Real.sqrt (7 / 2) : ℝ) : ℂ))⁻¹ := by
      funext j
      rcases j with i | i <;> rfl
    rw [e, ← smul_one_eq_diagonal, Matrix.mul_smul, Matrix.mul_one]
  have hQ : -omegaR (fun _ : m => (1 / 2 : ℂ)) (fun _ => 1 / 2) (Spec.constant m 4) * -omegaR (fun _ : m => (1 / 2 : ℂ)) (fun _ => 1 / 2) (Spec.constant m 4) = (-14 : ℂ) • 1 := by
    rw [omegaR_constant, fromBlocks_multiply, ← fromBlocks_one, fromBlocks_smul]
    simp only [diagonal_mul_diagonal, diagonal_add, smul_one_eq_diagonal, smul_zero]
    rw [← diagonal_zero]
    congr 1 <;> congr 1 <;> funext i <;> norm_num
  refine ⟨_, _, ?_, hm, ?_⟩
  · rw [hV, isUnit_iff_ne_zero]
    intro h0
    have h2 := congrArg det hQ
    rw [det_mul, det_smul, det_one] at h2
    rw [det_smul] at h0
    rcases mul_eq_zero.mp h0 with h3 | h3
    · exact absurd h3 (pow_ne_zero _ (inv_ne_zero hk))
    · rw [h3, zero_mul] at h2
      exact absurd h2.symm (mul_ne_zero (pow_ne_zero _ (by norm_num)) one_ne_zero)
  · rw [scattering_2d_wv_ok]
    refine ⟨hd, ?_⟩
    unfold transfer_2d_2
    rw [omega2LR_constant _ _ (by norm_num), exLA_eig_diagonal]
    dsimp only
    rw [hq, hV]
    refine Except.bind_ok.mpr ⟨_, meeinv_false_ok.mpr ⟨?_, rfl⟩, ?_⟩
    · rw [det_diagonal, isUnit_iff_ne_zero, Finset.prod_ne_zero_iff]
      exact fun _ _ => hk
    · rw [inv_diagonal' fun _ => hk, ← smul_one_eq_diagonal]
      simp

omit [Fintype m] [DecidableEq m] in
theorem C100_waves (a : m ⊕ m → ℂ) : Spec.PropagatingWaves2D 4 (fun _ : m => (1 / 2 : ℂ)) (fun _ => 1 / 2) a := by
  intro i h
  rw [C100_wave, Complex.ofReal_re] at h
  exact absurd h (by positivity)

end

theorem C100_convMats : convMats exLA guidedSettings = .ok [Spec.constant _ 4] := by
  have hc : convMats exLA guidedSettings = .ok [Spec.scalarConv 1 0 2] :=
    C18_homogeneous_discrete exLA 1 1 one_pos one_pos [2] (by simp) 1 0 true false
  rw [hc]
  unfold Spec.scalarConv Spec.constant
  simp only [smul_one_eq_diagonal]
  norm_num
  rfl

theorem C100_passive : Spec.PassiveProblem guidedSettings where
  toRealIllumination := guided_lossless.toRealIllumination
  layers_passive := by
    intro l hl i j
    obtain rfl := List.mem_singleton.mp hl
    simp [Spec.PassiveMedium]
  thickness_nonneg := by
    intro d hd
    obtain rfl := List.mem_singleton.mp hd
    positivity
  n_bot_real := guided_lossless.n_bot_real
  n_bot_pos := guided_lossless.n_bot_pos

/-- Non-vacuity: a glass layer of three orders in glass, obliquely to both axes, any incoming waves. -/
example (a1 a2 : FlatIdx guidedSettings.p.fto.1 guidedSettings.p.fto.2 ⊕ FlatIdx guidedSettings.p.fto.1 guidedSettings.p.fto.2 → ℂ) :
    Spec.RealStructure guidedSettings.ucell ∧ Spec.PassiveProblem guidedSettings ∧ guidedSettings.p.use_pinv = false ∧ ∃ convs, convMats exLA guidedSettings = .ok convs ∧
    ∃ kx ky : FlatIdx guidedSettings.p.fto.1 guidedSettings.p.fto.2 → ℂ, (∀ i, Spec.IsReal (kx i)) ∧ (∀ i, Spec.IsReal (ky i)) ∧ (∀ i, kx i * ky i ≠ 0) ∧
      (∀ i, 4 ≠ kx i ^ 2 + ky i ^ 2) ∧ Spec.PropagatingWaves2D 4 kx ky a1 ∧ Spec.PropagatingWaves2D 4 kx ky a2 ∧
      ∃ Ls, Ls ≠ [] ∧ (∀ L ∈ Ls, 0 ≤ L.d ∧ ∃ c ∈ convs, Spec.Layer2D exLA kx ky c L) ∧
      ∃ V K, homogeneous_module kx ky 4 = .ok (V, K) ∧ ∃ Vg S, Spec.scatteringMatrix (2 * Real.pi) Vg V V Ls = .ok S ∧ ∃ b1 b2, Spec.Scatters S a1 a2 b1 b2 := by
  obtain ⟨V, K, hV, hm, hw⟩ := C100_glass (m := FlatIdx guidedSettings.p.fto.1 guidedSettings.p.fto.2)
  obtain ⟨S, hS⟩ := matched_film (k0 := 2 * Real.pi) (d := 1 / 3) hV fun _ => Complex.I * (Real.sqrt (7 / 2) : ℝ)
  refine ⟨guided_lossless.structure_real, C100_passive, rfl, _, C100_convMats, fun _ => 1 / 2, fun _ => 1 / 2, fun _ => by simp [Spec.IsReal], fun _ => by simp [Spec.IsReal], fun _ => by norm_num,
    fun _ => by norm_num, C100_waves a1, C100_waves a2, _, by simp, ?_, V, K, hm, V, S, hS, _, _, rfl, rfl⟩
  intro L hL
  obtain rfl := List.mem_singleton.mp hL
  exact ⟨by norm_num, _, List.mem_singleton.mpr rfl, _, hw, rfl, rfl, rfl⟩

end Meent

#print axioms Meent.C100_unitary_partial
#print axioms Meent.C100_passive_partial
#print axioms Meent.C100_negation
