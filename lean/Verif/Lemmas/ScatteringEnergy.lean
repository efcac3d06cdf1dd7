import Verif.Lemmas.ScatteringTmm
import Verif.Lemmas.Energy1D
import Verif.Lemmas.Passive1D

/-!
# Power in scattering matrices (helper lemmas)
-/

open Matrix

namespace Meent

section
variable {n : Type} [Fintype n] [DecidableEq n]

theorem crosses_flux {k0 : ℝ} {L : Spec.SLayer n} (hl : Lossless 1 L.W L.V L.q) {E H E' H' : n → ℂ} (h : Spec.Crosses k0 L E H E' H') :
    flux 1 E H = flux 1 E' H' := by
  obtain ⟨u, v, rfl, rfl, rfl, rfl⟩ := h
  have hX : L.X k0 = phaseX k0 L.q L.d := rfl
  obtain ⟨hD, hH⟩ := phase_conds (L.Wᴴ * 1 * L.V) L.q k0 L.d hl.nq hl.nhq
  rw [← hX] at hD hH
  unfold flux
  simp only [beta_mulVec_left, beta_mulVec_right]
  rw [← Matrix.mul_assoc]
  exact flux_balance _ _ hD hH u v

theorem through_flux {k0 : ℝ} : ∀ {Ls : List (Spec.SLayer n)} (_ : ∀ L ∈ Ls, Lossless 1 L.W L.V L.q) {E H E' H' : n → ℂ},
    Spec.Through k0 Ls E H E' H' → flux 1 E H = flux 1 E' H'
  | [], _, _, _, _, _, ⟨h1, h2⟩ => by rw [h1, h2]
  | L :: _, hl, _, _, _, _, ⟨_, _, h1, h2⟩ =>
    (crosses_flux (hl L List.mem_cons_self) h1).trans (through_flux (fun L' h => hl L' (List.mem_cons_of_mem _ h)) h2)

theorem crosses_flux_le {k0 : ℝ} (hk : 0 ≤ k0) {L : Spec.SLayer n} (hd : 0 ≤ L.d) (hl : Dissipative 1 L.W L.V L.q) {E H E' H' : n → ℂ}
    (h : Spec.Crosses k0 L E H E' H') : flux 1 E' H' ≤ flux 1 E H := by
  obtain ⟨u, v, rfl, rfl, rfl, rfl⟩ := h
  unfold flux
  simp only [beta_mulVec_left, beta_mulVec_right]
  rw [← Matrix.mul_assoc]
  exact flux_decreases _ L.q hk hd hl.nq hl.nhq u v

theorem through_flux_le {k0 : ℝ} (hk : 0 ≤ k0) : ∀ {Ls : List (Spec.SLayer n)} (_ : ∀ L ∈ Ls, 0 ≤ L.d ∧ Dissipative 1 L.W L.V L.q) {E H E' H' : n → ℂ},
    Spec.Through k0 Ls E H E' H' → flux 1 E' H' ≤ flux 1 E H
  | [], _, _, _, _, _, ⟨h1, h2⟩ => by rw [h1, h2]
  | L :: _, hl, _, _, _, _, ⟨_, _, h1, h2⟩ =>
    (through_flux_le hk (fun L' h => hl L' (List.mem_cons_of_mem _ h)) h2).trans
      (crosses_flux_le hk (hl L List.mem_cons_self).1 (hl L List.mem_cons_self).2 h1)

theorem order_flux {y a b : ℂ} (h : y.im = 0 ∨ a = 0) : (star (a + b) * (Complex.I * y * (a - b))).im = y.re * (‖a‖ ^ 2 - ‖b‖ ^ 2) := by
  rw [← Complex.normSq_eq_norm_sq, ← Complex.normSq_eq_norm_sq, Complex.normSq_apply, Complex.normSq_apply]
  rcases h with h | h
  · simp [h]
    ring
  · simp [h]
    ring

omit [Fintype n] [DecidableEq n] in
theorem kz1d_real_or {nn : ℂ} {kx : n → ℂ} (hk : ∀ i, kz1d nn kx i ^ 2 = nn ^ 2 - kx i ^ 2) (hr : ∀ i, (nn ^ 2 - kx i ^ 2).im = 0) (i : n) :
    (kz1d nn kx i).im = 0 ∨ (kz1d nn kx i).re = 0 := by
  have h := congrArg Complex.im (hk i)
  rw [hr i, pow_two, Complex.mul_im] at h
  have h' : (kz1d nn kx i).re * (kz1d nn kx i).im = 0 := by linarith
  rcases mul_eq_zero.mp h' with h | h
  · exact .inr h
  · exact .inl h

theorem half_flux {pol : ℝ} {nn : ℂ} {kx : n → ℂ} (hn : nn.im = 0) (hk : ∀ i, kz1d nn kx i ^ 2 = nn ^ 2 - kx i ^ 2) (hr : ∀ i, (nn ^ 2 - kx i ^ 2).im = 0)
    {a : n → ℂ} (ha : Spec.PropagatingWaves nn kx a) (b : n → ℂ) :
    flux 1 (a + b) ((diagonal fun i => Complex.I * (kz1d nn kx i / (if pol = 0 then 1 else nn ^ 2))) *ᵥ (a - b)) =
      Spec.power pol nn kx a - Spec.power pol nn kx b := by
  obtain ⟨w, hw, hw'⟩ : ∃ w : ℝ, (if pol = 0 then 1 else nn ^ 2 : ℂ) = (w : ℂ) ∧ w = (if pol = 0 then 1 else nn.re ^ 2) := by
    have hnn : nn = (nn.re : ℂ) := Complex.ext rfl hn
    refine ⟨_, ?_, rfl⟩
    split
    · simp
    · conv_lhs => rw [hnn]
      push_cast
      rfl
  unfold Spec.power
  rw [← hw', ← Finset.sum_sub_distrib, flux_one_eq]
  refine Finset.sum_congr rfl fun i _ => ?_
  rw [mulVec_diagonal, hw, Pi.add_apply, Pi.sub_apply, order_flux, Complex.div_ofReal_re]
  · ring
  · rcases kz1d_real_or hk hr i with h | h
    · left
      rw [Complex.div_ofReal_im, h, zero_div]
    · exact .inr (ha i h)

theorem half_flux' {pol : ℝ} {nn : ℂ} {kx : n → ℂ} (hn : nn.im = 0) (hk : ∀ i, kz1d nn kx i ^ 2 = nn ^ 2 - kx i ^ 2) (hr : ∀ i, (nn ^ 2 - kx i ^ 2).im = 0)
    {a : n → ℂ} (ha : Spec.PropagatingWaves nn kx a) (b : n → ℂ) :
    flux 1 (b + a) ((diagonal fun i => Complex.I * (kz1d nn kx i / (if pol = 0 then 1 else nn ^ 2))) *ᵥ (b - a)) =
      Spec.power pol nn kx b - Spec.power pol nn kx a := by
  have h := half_flux (pol := pol) hn hk hr ha b
  have e : ∀ U : n → ℂ, flux 1 (a + b) (-U) = -flux 1 (a + b) U := by
    intro U
    rw [flux_one_eq, flux_one_eq, ← Finset.sum_neg_distrib]
    refine Finset.sum_congr rfl fun i _ => ?_
    rw [Pi.neg_apply, mul_neg, Complex.neg_im]
  rw [add_comm b a, ← neg_sub a b, mulVec_neg, e, h]
  ring

end

theorem real_kx {p : Params} (hp : Spec.RealIllumination p) (hphi : p.phi = none) (i : Fin (2 * p.fto.1 + 1)) : (kxVec p p.wavelength i).im = 0 := by
  rw [(RealIncidence.of_spec hp).kx_eq hphi, Complex.ofReal_im]

/-- The flux through both ends of the stack. -/
theorem stack_flux {p : Params} (hp : Spec.LosslessCladdings p) (hphi : p.phi = none) (hg : Spec.NoGrazing p)
    {Vr Vt : Matrix (Fin (2 * p.fto.1 + 1)) (Fin (2 * p.fto.1 + 1)) ℂ} {Kr Kt : Fin (2 * p.fto.1 + 1) → ℂ}
    (hr : homogeneous_1D (kxVec p p.wavelength) p.n_top (some p.pol) = .ok (Vr, Kr))
    (ht : homogeneous_1D (kxVec p p.wavelength) p.n_bot (some p.pol) = .ok (Vt, Kt)) {a1 a2 : Fin (2 * p.fto.1 + 1) → ℂ} (b1 b2 : Fin (2 * p.fto.1 + 1) → ℂ)
    (h1 : Spec.PropagatingWaves p.n_top (kxVec p p.wavelength) a1) (h2 : Spec.PropagatingWaves p.n_bot (kxVec p p.wavelength) a2) :
    flux 1 (a1 + b1) (Vr *ᵥ (a1 - b1)) = Spec.power p.pol p.n_top (kxVec p p.wavelength) a1 - Spec.power p.pol p.n_top (kxVec p p.wavelength) b1 ∧
      flux 1 (b2 + a2) (Vt *ᵥ (b2 - a2)) = Spec.power p.pol p.n_bot (kxVec p p.wavelength) b2 - Spec.power p.pol p.n_bot (kxVec p p.wavelength) a2 := by
  have hkr := real_kx hp.toRealIllumination hphi
  have him : ∀ {nn : ℂ} (_ : nn.im = 0) (i), (nn ^ 2 - kxVec p p.wavelength i ^ 2).im = 0 := by
    intro nn hn i
    rw [Complex.sub_im, pow_two, pow_two, Complex.mul_im, Complex.mul_im, hn, hkr]
    ring
  have hsq : ∀ {nn : ℂ} (_ : nn.im = 0) (i), kz1d nn (kxVec p p.wavelength) i ^ 2 = nn ^ 2 - kxVec p p.wavelength i ^ 2 := by
    intro nn hn i
    unfold kz1d
    rw [← star_pow, csqrt_sq, Complex.star_def, Complex.conj_eq_iff_im.mpr (him hn i)]
  have hn0 : p.n_top ≠ 0 := fun h => by
    have := hp.n_top_pos
    rw [h, Complex.zero_re] at this
    exact lt_irrefl _ this
  have hb0 : p.n_bot ≠ 0 := fun h => by
    have := hp.n_bot_pos
    rw [h, Complex.zero_re] at this
    exact lt_irrefl _ this
  obtain ⟨er, -⟩ := homogeneous_1D_ok (hsq hp.n_top_real) (fun i => sub_ne_zero.mpr (hg i).1) hn0 hr
  obtain ⟨et, -⟩ := homogeneous_1D_ok (hsq hp.n_bot_real) (fun i => sub_ne_zero.mpr (hg i).2) hb0 ht
  dsimp only at er et
  rw [er, et]
  exact ⟨half_flux hp.n_top_real (hsq hp.n_top_real) (him hp.n_top_real) h1 b1, half_flux' hp.n_bot_real (hsq hp.n_bot_real) (him hp.n_bot_real) h2 b2⟩

end Meent
