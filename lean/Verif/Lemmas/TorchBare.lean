import Verif.Lemmas.Torch
import Verif.Lemmas.Bare
import Verif.Lemmas.Branch
import Verif.Lemmas.BareExample

/-!
# The PyTorch backend on a bare interface (helper lemmas)
-/

set_option linter.unusedSimpArgs false

open Matrix

namespace Meent

/-- The longitudinal wavenumber is unique. -/
theorem outgoing_unique {nn a b : ℂ} {k2 : ℝ} (hn : nn.im ≤ 0) (ha : Spec.OutgoingKz nn k2 a)
    (hb : Spec.OutgoingKz nn k2 b) : a = b := by
  have hsq : a ^ 2 = b ^ 2 := by
    have h1 := ha.dispersion
    have h2 := hb.dispersion
    linear_combination h1 - h2
  rcases sq_eq_sq_iff_eq_or_eq_neg.mp hsq with h | h
  · exact h
  · have key : ∀ {x y : ℂ}, x = -y → Spec.Decays x → Spec.Decays y → x = y := by
      intro x y e h1 h2
      rw [decays_iff] at h1 h2
      rw [e, Complex.neg_im] at h1
      linarith
    rcases hn.lt_or_eq with hi | hi
    · exact key h (ha.absorbing hi) (hb.absorbing hi)
    · rcases le_or_gt k2 (nn.re ^ 2) with hk | hk
      · obtain ⟨a1, a2⟩ := ha.propagating hi hk
        obtain ⟨b1, b2⟩ := hb.propagating hi hk
        rw [h, Complex.neg_re] at a2
        have : b.re = 0 := by linarith
        have hb0 : b = 0 := Complex.ext this b1
        rw [h, hb0, neg_zero]
      · exact key h (ha.evanescent hi hk) (hb.evanescent hi hk)

theorem kz_over_sq_re {nn z : ℂ} {k2 : ℝ} (hk : 0 ≤ k2) (hz : z ^ 2 = nn ^ 2 - k2) (hr : 0 ≤ z.re) :
    0 ≤ (z / nn ^ 2).re := by
  have e : nn ^ 2 = z ^ 2 + k2 := by rw [hz]; ring
  rw [e, Complex.div_re]
  have h1 : (z ^ 2 + (k2 : ℂ)).re = z.re ^ 2 - z.im ^ 2 + k2 := by simp [pow_two]
  have h2 : (z ^ 2 + (k2 : ℂ)).im = 2 * z.re * z.im := by simp [pow_two]; ring
  rw [h1, h2, ← add_div]
  refine div_nonneg ?_ (Complex.normSq_nonneg _)
  have : z.re * (z.re ^ 2 - z.im ^ 2 + k2) + z.im * (2 * z.re * z.im) = z.re * (z.re ^ 2 + z.im ^ 2 + k2) := by ring
  rw [this]
  positivity

/-- When its real part vanishes there, the medium is lossless and the wave evanescent. -/
theorem kz_over_sq_zero {nn z : ℂ} {k2 : ℝ} (hn : Spec.PassiveIndex nn) (hk : 0 ≤ k2) (hz : z ^ 2 = nn ^ 2 - k2)
    (hr : 0 ≤ z.re) (hi : z.im ≤ 0) (h0 : (z / nn ^ 2).re = 0) : (z / nn ^ 2).im ≤ 0 ∧ ((z / nn ^ 2).im = 0 → z = 0) := by
  have e : nn ^ 2 = z ^ 2 + k2 := by rw [hz]; ring
  have h1 : (z ^ 2 + (k2 : ℂ)).re = z.re ^ 2 - z.im ^ 2 + k2 := by simp [pow_two]
  have h2 : (z ^ 2 + (k2 : ℂ)).im = 2 * z.re * z.im := by simp [pow_two]; ring
  have hn2 : nn ^ 2 ≠ 0 := by
    refine pow_ne_zero 2 fun h => ?_
    have := hn.1
    rw [h] at this
    simp at this
  have hq : 0 < Complex.normSq (nn ^ 2) := Complex.normSq_pos.mpr hn2
  have hzre : z.re = 0 := by
    rw [Complex.div_re, ← add_div, div_eq_zero_iff] at h0
    have h0 := h0.resolve_right hq.ne'
    rw [e, h1, h2] at h0
    have h3 : z.re * (z.re ^ 2 + z.im ^ 2 + k2) = 0 := by linarith
    rcases mul_eq_zero.mp h3 with h | h
    · exact h
    · nlinarith [sq_nonneg z.re, sq_nonneg z.im]
  have him : nn.im = 0 := by
    have := congrArg Complex.im e
    rw [h2, hzre, sq_im] at this
    have h4 : nn.re * nn.im = 0 := by linarith
    exact (mul_eq_zero.mp h4).resolve_left hn.1.ne'
  have hn2' : nn ^ 2 = ((nn.re ^ 2 : ℝ) : ℂ) := by
    apply Complex.ext <;> simp [pow_two, him]
  have hp : 0 < nn.re ^ 2 := by have := hn.1; positivity
  rw [hn2', Complex.div_ofReal_im]
  refine ⟨div_nonpos_of_nonpos_of_nonneg hi hp.le, fun h => ?_⟩
  rcases div_eq_zero_iff.mp h with h | h
  · exact Complex.ext hzre h
  · exact absurd h hp.ne'

theorem kz_sum_ne {a b : ℂ} (ha : 0 ≤ a.re) (ha' : a.im ≤ 0) (hb : 0 ≤ b.re) (hb' : b.im ≤ 0) (h : a ≠ 0 ∨ b ≠ 0) :
    a + b ≠ 0 := by
  intro h0
  have h1 := congrArg Complex.re h0
  have h2 := congrArg Complex.im h0
  simp only [Complex.add_re, Complex.add_im, Complex.zero_re, Complex.zero_im] at h1 h2
  rcases h with h | h
  · exact h (Complex.ext (by simp; linarith) (by simp; linarith))
  · exact h (Complex.ext (by simp; linarith) (by simp; linarith))

theorem kz_tm_sum_ne {n1 n2 a b : ℂ} {k2 : ℝ} (h1 : Spec.PassiveIndex n1) (h2 : Spec.PassiveIndex n2) (hk : 0 ≤ k2)
    (ea : a ^ 2 = n1 ^ 2 - k2) (eb : b ^ 2 = n2 ^ 2 - k2)
    (ha : 0 ≤ a.re) (ha' : a.im ≤ 0) (hb : 0 ≤ b.re) (hb' : b.im ≤ 0) (h : a ≠ 0 ∨ b ≠ 0) :
    a / n1 ^ 2 + b / n2 ^ 2 ≠ 0 := by
  intro h0
  have r1 := kz_over_sq_re hk ea ha
  have r2 := kz_over_sq_re hk eb hb
  have g1 := congrArg Complex.re h0
  have g2 := congrArg Complex.im h0
  simp only [Complex.add_re, Complex.add_im, Complex.zero_re, Complex.zero_im] at g1 g2
  obtain ⟨i1, j1⟩ := kz_over_sq_zero h1 hk ea ha ha' (by linarith)
  obtain ⟨i2, j2⟩ := kz_over_sq_zero h2 hk eb hb hb' (by linarith)
  rcases h with h | h
  · exact h (j1 (by linarith))
  · exact h (j2 (by linarith))

theorem top_passive' {p : Params} (h : Spec.RealIllumination p) : Spec.PassiveIndex p.n_top :=
  ⟨h.n_top_pos, le_of_eq h.n_top_real⟩

theorem kzPhys_ne {nn : ℂ} {k2 : ℝ} (h : (k2 : ℂ) ≠ nn ^ 2) : kzPhys nn k2 ≠ 0 := by
  intro h0
  have := kzPhys_sq nn k2
  rw [h0] at this
  exact h (by linear_combination this)

/-- The amplitudes the PyTorch 1D solver reports for a bare interface. -/
theorem tBare_1d {la : LinAlg} {p : Params} {convs} (hp : p.use_pinv = false) (ht : p.thickness = [])
    (hpol : p.pol = 0 ∨ p.pol = 1) (hi : Spec.RealIllumination p) (hb : Spec.PassiveIndex p.n_bot)
    (hg : Spec.NoDoubleGrazing p) :
    ∃ o, tSolve_1d la p p.wavelength convs = .ok o ∧ ∃ R T : Fin (2 * p.fto.1 + 1) → ℂ, T = R + deltaI0 ∧
      (∀ j i, o.res.de_ri j i = effOf (R i) (kzPhys p.n_top (Spec.orderKx p (Spec.colOrder i) ^ 2)
        / (p.n_top * Complex.cos p.theta))) ∧
      ((p.pol = 0 ∧ (∀ j i, o.res.R_s j i = phaseConv (tKxVec p p.wavelength) i * star (R i)) ∧
        (∀ j i, o.res.T_s j i = phaseConv (tKxVec p p.wavelength) i * star (T i)) ∧
        (∀ i, kzPhys p.n_bot (Spec.orderKx p (Spec.colOrder i) ^ 2) * T i = p.n_top * Complex.cos p.theta * deltaI0 i
          - kzPhys p.n_top (Spec.orderKx p (Spec.colOrder i) ^ 2) * R i)) ∨
       (p.pol = 1 ∧ (∀ j i, o.res.R_p j i = phaseConv (tKxVec p p.wavelength) i * star (R i)) ∧
        (∀ j i, o.res.T_p j i = phaseConv (tKxVec p p.wavelength) i * star (T i)) ∧
        (∀ i, kzPhys p.n_bot (Spec.orderKx p (Spec.colOrder i) ^ 2) / p.n_bot ^ 2 * T i
          = Complex.cos p.theta / p.n_top * deltaI0 i
          - kzPhys p.n_top (Spec.orderKx p (Spec.colOrder i) ^ 2) / p.n_top ^ 2 * R i))) := by
  have ek : ∀ nn, tKz1d nn (tKxVec p p.wavelength) = fun i => kzPhys nn (Spec.orderKx p (Spec.colOrder i) ^ 2) := by
    intro nn
    funext i
    rw [tKxVec_eq hi, tKz1d_real nn _ i _ (kxVec_order hi i)]
  set kt := fun i : Fin (2 * p.fto.1 + 1) => kzPhys p.n_top (Spec.orderKx p (Spec.colOrder i) ^ 2) with hkt
  set kb := fun i : Fin (2 * p.fto.1 + 1) => kzPhys p.n_bot (Spec.orderKx p (Spec.colOrder i) ^ 2) with hkb
  have hne : ∀ i, kt i ≠ 0 ∨ kb i ≠ 0 := fun i => (hg (Spec.colOrder i)).imp kzPhys_ne kzPhys_ne
  have st : ∀ i, 0 ≤ (kt i).re ∧ (kt i).im ≤ 0 := fun i => kzPhys_signs (top_passive' hi) _
  have sb : ∀ i, 0 ≤ (kb i).re ∧ (kb i).im ≤ 0 := fun i => kzPhys_signs hb _
  rcases hpol with h0 | h0
  · have h4 : ∃ x, transfer_1d_4 la p.pol ⟨1, Complex.I • diagonal kb, 1⟩ kt kb p.theta p.n_top p.n_bot false = .ok x := by
      unfold transfer_1d_4
      simp only [h0, if_true, bind, Except.bind, mul_one]
      rw [← diagonal_smul, ← diagonal_smul, diagonal_add]
      rw [meeinv_diagonal la (by
        intro i
        simp only [Pi.smul_apply, smul_eq_mul, ← mul_add]
        exact mul_ne_zero Complex.I_ne_zero (kz_sum_ne (sb i).1 (sb i).2 (st i).1 (st i).2 (hne i).symm))]
      exact ⟨_, rfl⟩
    obtain ⟨x, hx⟩ := h4
    obtain ⟨x', hx', e1, e2, e3⟩ := tTransfer_1d_4_of_ok (tKxVec p p.wavelength) hx
    obtain ⟨R, T, hF, hT, hde, hc⟩ := transfer_1d_4_ok hx
    refine ⟨⟨x'.1, x'.2, []⟩, ?_, R, T, ?_, ?_, Or.inl ⟨h0, ?_⟩⟩
    · unfold tSolve_1d tTransfer_1d_1
      simp only [h0, if_true, ht, List.length_nil, layerLoop, ek, bind, Except.bind, hp]
      rw [h0] at hx'
      rw [hx']
    · rw [hT, ← hF]
    · intro j i
      exact (congrFun (congrFun e2.de_ri j) i).trans (hde j i)
    · obtain ⟨-, hG, -, hRs, hTs, -⟩ := hc.resolve_right (fun h => by rw [h0] at h; exact zero_ne_one h.1)
      refine ⟨fun j i => ?_, fun j i => ?_, fun i => ?_⟩
      · rw [← hRs j]; exact e3.R_s j i
      · rw [← hTs j]; exact e3.T_s j i
      · have := congrFun hG i
        have hTe : x.2 = T := by rw [hT, one_mulVec]
        rw [smul_mulVec, Pi.smul_apply, mulVec_diagonal, hTe, smul_eq_mul] at this
        refine mul_left_cancel₀ Complex.I_ne_zero ?_
        rw [this]; ring
  · have h4 : ∃ x, transfer_1d_4 la p.pol ⟨1, Complex.I • diagonal (fun i => kb i / p.n_bot ^ 2), 1⟩ kt kb p.theta
        p.n_top p.n_bot false = .ok x := by
      unfold transfer_1d_4
      simp only [h0, one_ne_zero, if_true, if_false, bind, Except.bind, mul_one]
      rw [← diagonal_smul, ← diagonal_smul, ← diagonal_smul, diagonal_add]
      rw [meeinv_diagonal la (by
        intro i
        simp only [Pi.smul_apply, smul_eq_mul]
        have := kz_tm_sum_ne hb (top_passive' hi) (sq_nonneg (Spec.orderKx p (Spec.colOrder i)))
          (kzPhys_sq _ _) (kzPhys_sq _ _) (sb i).1 (sb i).2 (st i).1 (st i).2 (hne i).symm
        intro h1
        apply this
        refine mul_left_cancel₀ Complex.I_ne_zero ?_
        rw [mul_zero, ← h1]
        ring)]
      exact ⟨_, rfl⟩
    obtain ⟨x, hx⟩ := h4
    obtain ⟨x', hx', e1, e2, e3⟩ := tTransfer_1d_4_of_ok (tKxVec p p.wavelength) hx
    obtain ⟨R, T, hF, hT, hde, hc⟩ := transfer_1d_4_ok hx
    refine ⟨⟨x'.1, x'.2, []⟩, ?_, R, T, ?_, ?_, Or.inr ⟨h0, ?_⟩⟩
    · unfold tSolve_1d tTransfer_1d_1
      simp only [h0, one_ne_zero, if_true, if_false, ht, List.length_nil, layerLoop, ek, bind, Except.bind, hp]
      rw [h0] at hx'
      rw [hx']
    · rw [hT, ← hF]
    · intro j i
      exact (congrFun (congrFun e2.de_ri j) i).trans (hde j i)
    · obtain ⟨-, hG, -, hRs, hTs, -⟩ := hc.resolve_left (fun h => by rw [h0] at h; exact one_ne_zero h.1)
      refine ⟨fun j i => ?_, fun j i => ?_, fun i => ?_⟩
      · rw [← hRs j]
        have := e3.R_p j i
        rw [one_mul] at this
        exact this
      · rw [← hTs j]
        have := e3.T_p j i
        rw [one_mul] at this
        exact this
      · have := congrFun hG i
        have hTe : x.2 = T := by rw [hT, one_mulVec]
        rw [smul_mulVec, Pi.smul_apply, mulVec_diagonal, hTe, smul_eq_mul] at this
        refine mul_left_cancel₀ Complex.I_ne_zero ?_
        rw [this]; ring

end Meent
