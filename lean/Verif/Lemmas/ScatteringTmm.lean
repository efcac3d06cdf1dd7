import Verif.Lemmas.Scattering
import Verif.Lemmas.Dispatch
import Verif.Lemmas.Orders
import Verif.Lemmas.Diag
import Verif.Lemmas.Energy1DSolve
import Verif.Lemmas.Example1D
import Verif.Spec.Backends

/-!
# Scattering matrices and transfer matrices agree (helper lemmas)
-/

open Matrix

namespace Meent

set_option linter.unusedSectionVars false

section
variable {n : Type} [Fintype n] [DecidableEq n]

theorem step1d_crosses {la : LinAlg} {p : Params} (hp : p.use_pinv = false) {k0 : ℝ} {kx : n → ℂ} {c : Conv n} {d : ℝ} {s : TState n}
    {r : TState n × LayerInfo n n} (h : step1d la p k0 kx c d s = .ok r) (t : n → ℂ) :
    ∃ t0, Spec.Crosses k0 r.2.scattering (r.1.F *ᵥ t) (r.1.G *ᵥ t) (s.F *ᵥ t0) (s.G *ᵥ t0) ∧ r.1.T *ᵥ t = s.T *ᵥ t0 := by
  obtain ⟨m, hm, h⟩ := Except.bind_ok.mp h
  obtain ⟨⟨s', Ai, B⟩, hr, h⟩ := Except.bind_ok.mp h
  obtain rfl := Except.ok.inj h
  unfold transfer_1d_3 at hr
  rw [hp] at hr
  unfold tmmStep at hr
  obtain ⟨Wi, hW, hr⟩ := Except.bind_ok.mp hr
  obtain ⟨Vi, hV, hr⟩ := Except.bind_ok.mp hr
  obtain ⟨hWu, rfl⟩ := meeinv_false_ok.mp hW
  obtain ⟨hVu, rfl⟩ := meeinv_false_ok.mp hV
  obtain ⟨Ai', hA, hr⟩ := Except.bind_ok.mp hr
  obtain ⟨hAu, rfl⟩ := meeinv_false_ok.mp hA
  have e := Except.ok.inj hr
  obtain ⟨e1, e2⟩ := Prod.mk.inj e
  obtain ⟨e2, e3⟩ := Prod.mk.inj e2
  subst e1 e2 e3
  have hX' : (⟨m.W, m.V, m.q, d⟩ : Spec.SLayer n).X k0 = phaseX k0 m.q d := rfl
  unfold LayerInfo.scattering
  dsimp only
  generalize hAe : (1 / 2 : ℂ) • (m.W⁻¹ * s.F + m.V⁻¹ * s.G) = A at *
  generalize hBe : (1 / 2 : ℂ) • (m.W⁻¹ * s.F - m.V⁻¹ * s.G) = B at *
  generalize hXe : phaseX k0 m.q d = X at *
  refine ⟨A⁻¹ *ᵥ X *ᵥ t, ⟨t, B *ᵥ A⁻¹ *ᵥ X *ᵥ t, ?_, ?_, ?_, ?_⟩, ?_⟩
  · rw [hX']
    simp only [← mulVec_mulVec, add_mulVec, one_mulVec]
  · rw [hX']
    simp only [← mulVec_mulVec, sub_mulVec, one_mulVec]
  · rw [hX']
    have k : X *ᵥ t = A *ᵥ A⁻¹ *ᵥ X *ᵥ t := by rw [mulVec_mulVec, mul_nonsing_inv _ hAu, one_mulVec]
    have k2 : s.F = m.W * (A + B) := by
      rw [← hAe, ← hBe, ← smul_add, add_add_sub_cancel, ← two_smul ℂ, smul_smul, ← Matrix.mul_smul, ← Matrix.mul_assoc, mul_nonsing_inv _ hWu]
      norm_num
    rw [k2, ← mulVec_mulVec, add_mulVec, ← k]
  · rw [hX']
    have k : X *ᵥ t = A *ᵥ A⁻¹ *ᵥ X *ᵥ t := by rw [mulVec_mulVec, mul_nonsing_inv _ hAu, one_mulVec]
    have k2 : s.G = m.V * (A - B) := by
      rw [← hAe, ← hBe, ← smul_sub, add_sub_sub_cancel, ← two_smul ℂ, smul_smul, ← Matrix.mul_smul, ← Matrix.mul_assoc, mul_nonsing_inv _ hVu]
      norm_num
    rw [k2, ← mulVec_mulVec, sub_mulVec, ← k]
  · simp only [← mulVec_mulVec]

theorem layerLoop_through {la : LinAlg} {p : Params} (hp : p.use_pinv = false) {k0 : ℝ} {kx : n → ℂ} {convs : List (Conv n)} {th : List ℝ} :
    ∀ {i : ℕ} {s : TState n} {is : List (LayerInfo n n)} {r : TState n × List (LayerInfo n n)},
      layerLoop (step1d la p k0 kx) convs th i (s, is) = .ok r → ∃ new, r.2 = is ++ new ∧ ∀ t, ∃ t0,
        Spec.Through k0 (new.reverse.map LayerInfo.scattering) (r.1.F *ᵥ t) (r.1.G *ᵥ t) (s.F *ᵥ t0) (s.G *ᵥ t0) ∧ r.1.T *ᵥ t = s.T *ᵥ t0
  | 0, s, is, r, h => by
    obtain rfl := Except.ok.inj h
    exact ⟨[], by simp, fun t => ⟨t, ⟨rfl, rfl⟩, rfl⟩⟩
  | i + 1, s, is, r, h => by
    obtain ⟨c, -, h⟩ := Except.bind_ok.mp h
    obtain ⟨d, -, h⟩ := Except.bind_ok.mp h
    obtain ⟨r1, h1, h⟩ := Except.bind_ok.mp h
    obtain ⟨new, e, k⟩ := layerLoop_through hp h
    refine ⟨r1.2 :: new, by rw [e]; simp, fun t => ?_⟩
    obtain ⟨t1, k1, k2⟩ := k t
    obtain ⟨t0, k3, k4⟩ := step1d_crosses hp h1 t1
    refine ⟨t0, ?_, k2.trans k4⟩
    rw [List.reverse_cons, List.map_append, through_append]
    exact ⟨_, _, k1, _, _, k3, rfl, rfl⟩

/-- The half spaces of the scattering functions, away from grazing orders. -/
theorem homogeneous_1D_ok {kx : n → ℂ} {nn : ℂ} {pol : ℝ} {x : Matrix n n ℂ × (n → ℂ)} (hk : ∀ i, kz1d nn kx i ^ 2 = nn ^ 2 - kx i ^ 2)
    (hz : ∀ i, nn ^ 2 - kx i ^ 2 ≠ 0) (hn : nn ≠ 0) (h : homogeneous_1D kx nn (some pol) = .ok x) :
    x.1 = diagonal (fun i => Complex.I * (kz1d nn kx i / (if pol = 0 then 1 else nn ^ 2))) ∧
      x.2 = fun i => kz1d nn kx i * (if pol = 0 then 1 else nn ^ 2) := by
  have hk0 : ∀ i, kz1d nn kx i ≠ 0 := fun i h0 => hz i (by rw [← hk, h0]; ring)
  have eQ : (fun i => if nn ^ 2 - kx i ^ 2 = 0 then (1 / 10 ^ 10 : ℂ) else nn ^ 2 - kx i ^ 2) = fun i => kz1d nn kx i ^ 2 :=
    funext fun i => by rw [if_neg (hz i), hk]
  unfold homogeneous_1D at h
  have eK' : ∀ i, (if star (csqrt (nn ^ 2 - kx i ^ 2)) = 0 then (1 / 10 ^ 10 : ℂ) else star (csqrt (nn ^ 2 - kx i ^ 2))) = kz1d nn kx i := fun i => if_neg (hk0 i)
  simp only [eQ, eK', Option.getD_some] at h
  have eP : (if pol = 0 then kz1d nn kx else fun i => kz1d nn kx i * nn ^ 2) = fun i => kz1d nn kx i * (if pol = 0 then 1 else nn ^ 2) := by
    split <;> simp
  rw [eP] at h
  set y : ℂ := if pol = 0 then 1 else nn ^ 2 with hy
  have hy0 : y ≠ 0 := by
    rw [hy]
    split
    · exact one_ne_zero
    · exact pow_ne_zero 2 hn
  obtain ⟨M, hM, h⟩ := Except.bind_ok.mp h
  obtain ⟨-, rfl⟩ := npInv_ok.mp hM
  obtain rfl := Except.ok.inj h
  refine ⟨?_, rfl⟩
  dsimp only
  rw [inv_diagonal' (fun i => mul_ne_zero (neg_ne_zero.mpr Complex.I_ne_zero) (mul_ne_zero (hk0 i) hy0)), diagonal_mul_diagonal]
  congr 1
  funext i
  have := hk0 i
  have hI := Complex.I_ne_zero
  field_simp
  rw [Complex.I_sq]

end

theorem transfer_1d_1_scatter {n : Type} [Fintype n] [DecidableEq n] {pol : ℝ} {kx : n → ℂ} {nt nb : ℂ} {r : (n → ℂ) × (n → ℂ) × TState n}
    (h : transfer_1d_1 pol kx nt nb = .ok r) : r.1 = kz1d nt kx ∧ r.2.1 = kz1d nb kx ∧ r.2.2.F = 1 ∧ r.2.2.T = 1 ∧
      r.2.2.G = diagonal (fun i => Complex.I * (kz1d nb kx i / (if pol = 0 then 1 else nb ^ 2))) := by
  unfold transfer_1d_1 at h
  dsimp only at h
  split at h
  · rename_i h0
    obtain rfl := Except.ok.inj h
    refine ⟨rfl, rfl, rfl, rfl, ?_⟩
    simp only [h0, if_true, div_one]
    exact (diagonal_smul _ _).symm
  · split at h
    · rename_i h0 h1
      obtain rfl := Except.ok.inj h
      refine ⟨rfl, rfl, rfl, rfl, ?_⟩
      simp only [h0, if_false]
      exact (diagonal_smul _ _).symm
    · cases h

/-- The amplitudes of the solver are waves around the stack. -/
theorem solve_1d_scatters {la : LinAlg} {p : Params} {nt th wl : ℝ} (hI : RealIncidence p nt th) (hphi : p.phi = none) (hpinv : p.use_pinv = false)
    {convs : List (Conv (Fin (2 * p.fto.1 + 1)))} {o : Out1D (2 * p.fto.1 + 1)} (h : solve_1d la p wl convs = .ok o) :
    ∃ R T : Fin (2 * p.fto.1 + 1) → ℂ,
      Spec.StackScatters (2 * Real.pi / wl) (diagonal fun i => Complex.I * (kz1d p.n_top (kxVec p wl) i / (if p.pol = 0 then 1 else p.n_top ^ 2)))
        (diagonal fun i => Complex.I * (kz1d p.n_bot (kxVec p wl) i / (if p.pol = 0 then 1 else p.n_bot ^ 2))) (o.infos.reverse.map LayerInfo.scattering)
        (Pi.single (ctr p.fto.1) 1) 0 R T ∧
      (∀ j i, o.res.de_ri j i = effOf (R i) (kz1d p.n_top (kxVec p wl) i / (p.n_top * Complex.cos p.theta))) ∧
      (p.pol = 0 ∧ (∀ j i, o.res.de_ti j i = effOf (T i) (kz1d p.n_bot (kxVec p wl) i / (p.n_top * Complex.cos p.theta))) ∨
        p.pol = 1 ∧ (∀ j i, o.res.de_ti j i = effOf (T i) (kz1d p.n_bot (kxVec p wl) i / p.n_bot ^ 2 / (Complex.cos p.theta / p.n_top)))) := by
  obtain ⟨init, hi, h⟩ := Except.bind_ok.mp h
  obtain ⟨r, hr, h⟩ := Except.bind_ok.mp h
  obtain ⟨q, hq, h⟩ := Except.bind_ok.mp h
  obtain rfl := Except.ok.inj h
  obtain ⟨i1, i2, iF, iT, iG⟩ := transfer_1d_1_scatter hi
  obtain ⟨new, en, hth⟩ := layerLoop_through hpinv hr
  rw [hpinv, i1, i2] at hq
  obtain ⟨R, T, hF, hT, hre, hc⟩ := transfer_1d_4_ok hq
  obtain ⟨t0, k1, k2⟩ := hth q.2
  rw [List.nil_append] at en
  rw [iF, one_mulVec, iG, hF] at k1
  rw [iT, one_mulVec, ← hT] at k2
  subst k2
  have hδ : (deltaI0 : Fin (2 * p.fto.1 + 1) → ℂ) = Pi.single (ctr p.fto.1) 1 := by
    funext i
    rw [deltaI0_eq, Pi.single_apply]
  have hk := hI.kz_ctr hphi wl
  have hn : p.n_top ≠ 0 := by
    rw [hI.hn]
    exact_mod_cast hI.hnt.ne'
  have hG : r.1.G *ᵥ q.2 = (diagonal fun i => Complex.I * (kz1d p.n_top (kxVec p wl) i / (if p.pol = 0 then 1 else p.n_top ^ 2)))
      *ᵥ (Pi.single (ctr p.fto.1) 1 - R) := by
    have hcs : p.n_top * Complex.cos p.theta = kz1d p.n_top (kxVec p wl) (ctr p.fto.1) := by
      rw [hk, hI.hn, hI.cos_eq]
      push_cast
      ring
    rcases hc with ⟨h0, e, -⟩ | ⟨h1, e, -⟩
    · rw [e, if_pos h0]
      funext i
      rw [mulVec_diagonal, hcs, hδ]
      by_cases hi : i = ctr p.fto.1
      · subst hi
        simp only [Pi.sub_apply, Pi.single_eq_same]
        ring
      · simp only [Pi.sub_apply, Pi.single_eq_of_ne hi]
        ring
    · have h0 : p.pol ≠ 0 := by rw [h1]; exact one_ne_zero
      rw [e, if_neg h0]
      have hcs' : Complex.cos p.theta / p.n_top = kz1d p.n_top (kxVec p wl) (ctr p.fto.1) / p.n_top ^ 2 := by
        rw [← hcs]
        field_simp
      funext i
      rw [mulVec_diagonal, hcs', hδ]
      by_cases hi : i = ctr p.fto.1
      · subst hi
        simp only [Pi.sub_apply, Pi.single_eq_same]
        ring
      · simp only [Pi.sub_apply, Pi.single_eq_of_ne hi]
        ring
  refine ⟨R, T, ?_, hre, ?_⟩
  · unfold Spec.StackScatters
    dsimp only
    rw [en, ← hG, add_zero, sub_zero, add_comm (Pi.single (ctr p.fto.1) (1 : ℂ)) R, ← hδ]
    exact k1
  · rcases hc with ⟨h0, -, e, -⟩ | ⟨h1, -, e, -⟩
    · exact Or.inl ⟨h0, e⟩
    · exact Or.inr ⟨h1, e⟩

theorem scattering_kx {p : Params} {nt th : ℝ} (hI : RealIncidence p nt th) (hphi : p.phi = none) :
    (fun i : Fin (2 * p.fto.1 + 1) => p.n_top * Complex.sin p.theta * Complex.cos (p.phi.getD 0) -
      (((p.fto.1 : ℤ) - (i : ℤ) : ℤ) : ℂ) * ((2 * Real.pi / (2 * Real.pi / p.wavelength) / p.period.1 : ℝ) : ℂ)) = kxVec p p.wavelength := by
  funext i
  have e : 2 * Real.pi / (2 * Real.pi / p.wavelength) = p.wavelength := by
    rw [div_div_eq_mul_div, mul_div_cancel_left₀ _ (by positivity)]
  rw [e, hI.kx_eq hphi, hphi, hI.hn, hI.hth]
  simp only [Option.getD_none, Complex.cos_zero, mul_one]
  push_cast
  ring

/-- What the calls of the scattering functions amount to, away from grazing orders. -/
theorem scatter1d_ok {p : Params} (hp : Spec.LosslessCladdings p) (hphi : p.phi = none) (hg : Spec.NoGrazing p)
    {Ls : List (Spec.SLayer (Fin (2 * p.fto.1 + 1)))} {x : (Fin (2 * p.fto.1 + 1) → ℂ) × (Fin (2 * p.fto.1 + 1) → ℂ)}
    (h : Spec.scatter1d p Ls = .ok x) :
    ∃ (Vg : Matrix _ _ ℂ) (S : SDict (Fin (2 * p.fto.1 + 1))), Spec.scatteringMatrix (2 * Real.pi / p.wavelength) Vg
        (diagonal fun i => Complex.I * (kz1d p.n_top (kxVec p p.wavelength) i / (if p.pol = 0 then 1 else p.n_top ^ 2)))
        (diagonal fun i => Complex.I * (kz1d p.n_bot (kxVec p p.wavelength) i / (if p.pol = 0 then 1 else p.n_bot ^ 2))) Ls = .ok S ∧
      x.1 = (fun i => ((effOf ((S.S11 *ᵥ Pi.single (ctr p.fto.1) 1) i) (kz1d p.n_top (kxVec p p.wavelength) i / (p.n_top * Complex.cos p.theta)) : ℝ) : ℂ)) ∧
      (p.pol = 0 → x.2 = (fun i => ((effOf ((S.S21 *ᵥ Pi.single (ctr p.fto.1) 1) i) (kz1d p.n_bot (kxVec p p.wavelength) i / (p.n_top * Complex.cos p.theta)) : ℝ) : ℂ))) ∧
      (p.pol = 1 → x.2 = (fun i => ((effOf ((S.S21 *ᵥ Pi.single (ctr p.fto.1) 1) i)
        (kz1d p.n_bot (kxVec p p.wavelength) i / p.n_bot ^ 2 / (Complex.cos p.theta / p.n_top)) : ℝ) : ℂ))) := by
  have hI := RealIncidence.of_spec hp.toRealIllumination
  obtain ⟨nb, hnb, hnb0⟩ : ∃ nb : ℝ, p.n_bot = (nb : ℂ) ∧ 0 < nb := ⟨p.n_bot.re, Complex.ext rfl hp.n_bot_real, hp.n_bot_pos⟩
  have hn : p.n_top ≠ 0 := by
    rw [hI.hn]
    exact_mod_cast hI.hnt.ne'
  have hb : p.n_bot ≠ 0 := by
    rw [hnb]
    exact_mod_cast hnb0.ne'
  have hsq : ∀ {nn : ℂ} (_ : ∃ r : ℝ, nn = r) (i), kz1d nn (kxVec p p.wavelength) i ^ 2 = nn ^ 2 - kxVec p p.wavelength i ^ 2 := by
    rintro nn ⟨r, rfl⟩ i
    unfold kz1d
    rw [← star_pow, csqrt_sq, hI.kx_eq hphi, Complex.star_def, ← Complex.ofReal_pow, ← Complex.ofReal_pow, ← Complex.ofReal_sub, Complex.conj_ofReal]
  unfold Spec.scatter1d at h
  dsimp only at h
  obtain ⟨r, hr, h⟩ := Except.bind_ok.mp h
  obtain ⟨Sg, hS, h⟩ := Except.bind_ok.mp h
  unfold scattering_1d_1 at hr
  dsimp only at hr
  rw [scattering_kx hI hphi] at hr
  obtain ⟨g, -, hr⟩ := Except.bind_ok.mp hr
  obtain ⟨a, ha, hr⟩ := Except.bind_ok.mp hr
  obtain ⟨b, hbb, hr⟩ := Except.bind_ok.mp hr
  obtain ⟨AB, hAB, hr⟩ := Except.bind_ok.mp hr
  obtain ⟨S0, hS0, hr⟩ := Except.bind_ok.mp hr
  obtain rfl := Except.ok.inj hr
  obtain ⟨a1, a2⟩ := homogeneous_1D_ok (hsq ⟨_, hI.hn⟩) (fun i => sub_ne_zero.mpr (hg i).1) hn ha
  obtain ⟨b1, b2⟩ := homogeneous_1D_ok (hsq ⟨_, hnb⟩) (fun i => sub_ne_zero.mpr (hg i).2) hb hbb
  dsimp only at hS h
  unfold scattering_1d_3 at h
  obtain ⟨AB', hAB', h⟩ := Except.bind_ok.mp h
  obtain ⟨St, hSt, h⟩ := Except.bind_ok.mp h
  obtain ⟨S, hSS, h⟩ := Except.bind_ok.mp h
  rw [a1] at hAB
  rw [b1] at hAB'
  rw [a2, b2] at h
  refine ⟨g.1, S, Except.bind_ok.mpr ⟨_, hAB, Except.bind_ok.mpr ⟨_, hS0, Except.bind_ok.mpr ⟨_, hS, Except.bind_ok.mpr ⟨_, hAB',
    Except.bind_ok.mpr ⟨_, hSt, hSS⟩⟩⟩⟩⟩, ?_⟩
  have ec : (⟨p.fto.1, by omega⟩ : Fin (2 * p.fto.1 + 1)) = ctr p.fto.1 := rfl
  rw [ec] at h
  have hcos : p.n_top * Complex.cos p.theta = ((p.n_top.re * Real.cos p.theta.re : ℝ) : ℂ) := by
    rw [hI.cos_eq]
    nth_rewrite 1 [hI.hn]
    push_cast
    rfl
  have hc0 : 0 < Real.cos p.theta.re := Real.cos_pos_of_mem_Ioo ⟨hI.lo, hI.hi⟩
  set N := p.n_top.re with hN
  set C := Real.cos p.theta.re with hC
  have hN0 : 0 < N := hI.hnt
  have e1 : ∀ (z K : ℂ), effOf z (K / (p.n_top * Complex.cos p.theta)) = K.re * ‖z‖ ^ 2 / (p.n_top * Complex.cos p.theta).re := by
    intro z K
    rw [effOf_eq, hcos, Complex.div_ofReal_re, Complex.ofReal_re, Complex.normSq_eq_norm_sq]
    ring
  have hmr : ∀ (K : ℂ) (r : ℝ), (K * (r : ℂ) ^ 2).re = K.re * r ^ 2 := fun K r => by
    rw [← Complex.ofReal_pow, Complex.re_mul_ofReal]
  by_cases h0 : p.pol = 0
  · rw [if_pos h0] at h
    obtain rfl := Except.ok.inj h
    refine ⟨?_, fun _ => ?_, fun h1 => absurd (h0.symm.trans h1) zero_ne_one⟩
    · funext i
      rw [e1]
      simp only [h0, if_true, mul_one]
    · funext i
      rw [e1]
      simp only [h0, if_true, mul_one]
  · rw [if_neg h0] at h
    by_cases h1 : p.pol = 1
    · rw [if_pos h1] at h
      obtain rfl := Except.ok.inj h
      refine ⟨?_, fun h2 => absurd h2 h0, fun _ => ?_⟩
      · funext i
        rw [e1]
        simp only [h0, if_false]
        rw [hcos, hI.hn, hmr, Complex.ofReal_re]
        push_cast
        have : (N : ℂ) ≠ 0 := by exact_mod_cast hN0.ne'
        field_simp
      · funext i
        have e2 : p.n_bot ^ 2 * (Complex.cos p.theta / p.n_top) = ((nb ^ 2 * (C / N) : ℝ) : ℂ) := by
          rw [hI.cos_eq, hI.hn, hnb, ← hC]
          push_cast
          rfl
        rw [div_div, e2, effOf_eq, Complex.div_ofReal_re, Complex.normSq_eq_norm_sq]
        simp only [h0, if_false]
        rw [hcos, hI.hn, hnb, hmr, Complex.ofReal_re]
        push_cast
        have hNc : (N : ℂ) ≠ 0 := by exact_mod_cast hN0.ne'
        have hCc : (C : ℂ) ≠ 0 := by exact_mod_cast hc0.ne'
        have hbc : (nb : ℂ) ≠ 0 := by exact_mod_cast hnb0.ne'
        field_simp
    · rw [if_neg h1] at h
      cases h

end Meent
