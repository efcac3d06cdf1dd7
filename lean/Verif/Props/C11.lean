import Verif.Lemmas.Orders
import Verif.Props.C01
import Verif.Props.C02
import Verif.Props.C13

/-!
# C11: efficiencies are non-negative, evanescent orders carry none
-/

namespace Meent

private theorem pWeights_nonneg (s : Settings) : 0 ≤ (pWeights s).1 ∧ 0 ≤ (pWeights s).2 := by
  unfold pWeights
  split
  · exact ⟨zero_le_one, by positivity⟩
  · exact ⟨by positivity, by positivity⟩

private theorem orderKzRe_nonneg (p : Params) (n : ℝ) (m k : ℤ) : 0 ≤ Spec.orderKzRe p n m k := Real.sqrt_nonneg _

private theorem orderKzRe_evanescent {p : Params} {n : ℝ} {m k : ℤ} (h : ¬Spec.Propagating p n m k) :
    Spec.orderKzRe p n m k = 0 := by
  unfold Spec.Propagating at h
  exact Real.sqrt_eq_zero'.mpr (by linarith)

/-- **C11, signs.**  Real illumination and a real substrate index: in every reported dictionary each
efficiency is non-negative and the totals are the sums of the s and p parts.  No assumption on the layers, which may
absorb, nor on the inversion routine. -/
theorem C11_nonneg (la : LinAlg) (s : Settings) (h : Spec.RealIllumination s.p) (hb : Spec.IsReal s.p.n_bot)
    (sol : Solved s.p.fto.1 s.p.fto.2) (hs : conv_solve la s = .ok sol) (x) (hx : Spec.Reports sol.result x) :
    ∀ j i, 0 ≤ x.de_ri_s j i ∧ 0 ≤ x.de_ri_p j i ∧ 0 ≤ x.de_ti_s j i ∧ 0 ≤ x.de_ti_p j i ∧
      0 ≤ x.de_ri j i ∧ 0 ≤ x.de_ti j i ∧
      x.de_ri j i = x.de_ri_s j i + x.de_ri_p j i ∧ x.de_ti j i = x.de_ti_s j i + x.de_ti_p j i := by
  intro j i
  have law := conv_solve_law h hb hs hx
  obtain ⟨w1, w2⟩ := pWeights_nonneg s
  have hc : 0 < s.p.n_top.re * Real.cos s.p.theta.re := mul_pos h.n_top_pos (RealIncidence.of_spec h).cos_pos
  have k1 : ∀ n, 0 ≤ Spec.orderKzRe s.p n (Spec.colOrder i) (Spec.rowOrder j) / (s.p.n_top.re * Real.cos s.p.theta.re) :=
    fun n => div_nonneg (orderKzRe_nonneg _ _ _ _) hc.le
  have a1 : 0 ≤ x.de_ri_s j i := by rw [law.ri_s]; exact mul_nonneg (by positivity) (k1 _)
  have a2 : 0 ≤ x.de_ri_p j i := by rw [law.ri_p]; exact mul_nonneg (by positivity) (k1 _)
  have a3 : 0 ≤ x.de_ti_s j i := by rw [law.ti_s]; exact mul_nonneg (by positivity) (k1 _)
  have a4 : 0 ≤ x.de_ti_p j i := by rw [law.ti_p]; exact mul_nonneg (by positivity) (k1 _)
  refine ⟨a1, a2, a3, a4, ?_, ?_, law.ri j i, law.ti j i⟩
  · rw [law.ri]; exact add_nonneg a1 a2
  · rw [law.ti]; exact add_nonneg a3 a4

/-- **C11, evanescent orders.**  Entry `[j, i]` of the reflected efficiencies is zero when order
`(i - fto_x, j - fto_y)` is evanescent in the cover, and of the transmitted ones when it is evanescent in the
substrate. -/
theorem C11_evanescent (la : LinAlg) (s : Settings) (h : Spec.RealIllumination s.p) (hb : Spec.IsReal s.p.n_bot)
    (sol : Solved s.p.fto.1 s.p.fto.2) (hs : conv_solve la s = .ok sol) (x) (hx : Spec.Reports sol.result x) :
    ∀ j i, (¬Spec.Propagating s.p s.p.n_top.re (Spec.colOrder i) (Spec.rowOrder j) →
        x.de_ri_s j i = 0 ∧ x.de_ri_p j i = 0 ∧ x.de_ri j i = 0) ∧
      (¬Spec.Propagating s.p s.p.n_bot.re (Spec.colOrder i) (Spec.rowOrder j) →
        x.de_ti_s j i = 0 ∧ x.de_ti_p j i = 0 ∧ x.de_ti j i = 0) := by
  intro j i
  have law := conv_solve_law h hb hs hx
  constructor
  · intro he
    have a1 : x.de_ri_s j i = 0 := by rw [law.ri_s, orderKzRe_evanescent he, zero_div, mul_zero]
    have a2 : x.de_ri_p j i = 0 := by rw [law.ri_p, orderKzRe_evanescent he, zero_div, mul_zero]
    exact ⟨a1, a2, by rw [law.ri, a1, a2, add_zero]⟩
  · intro he
    have a1 : x.de_ti_s j i = 0 := by rw [law.ti_s, orderKzRe_evanescent he, zero_div, mul_zero]
    have a2 : x.de_ti_p j i = 0 := by rw [law.ti_p, orderKzRe_evanescent he, zero_div, mul_zero]
    exact ⟨a1, a2, by rw [law.ti, a1, a2, add_zero]⟩

/-- **C11, upper bound.**  For a lossless problem no efficiency exceeds 1. -/
theorem C11_le_one (la : LinAlg) (s : Settings) (h : Spec.LosslessProblem s) (hp : s.p.use_pinv = false)
    (sol : Solved s.p.fto.1 s.p.fto.2) (hs : conv_solve la s = .ok sol) (x) (hx : Spec.Reports sol.result x) :
    ∀ j i, x.de_ri_s j i ≤ 1 ∧ x.de_ri_p j i ≤ 1 ∧ x.de_ti_s j i ≤ 1 ∧ x.de_ti_p j i ≤ 1 ∧
      x.de_ri j i ≤ 1 ∧ x.de_ti j i ≤ 1 := by
  have hn := C11_nonneg la s h.toRealIllumination h.n_bot_real sol hs x hx
  have htot : Spec.totalEfficiency x = 1 := by
    by_cases hg : gratingType s = 0
    · obtain ⟨r, hr, e⟩ := C01_energy_1d la s h hp hg sol hs
      rcases conv_solve_cases hs with ⟨-, o, rfl⟩ | ⟨h1, -⟩ | ⟨h1, -⟩
      · rcases hx with hx | hx | hx
        · rw [hr] at hx; cases hx; exact e
        · cases hx
        · cases hx
      · omega
      · omega
    · by_cases ha : s.algo = .tmm
      · have hg' : gratingType s = 1 ∨ gratingType s = 2 := by
          rcases gratingType_le s with h | h | h
          · exact absurd h hg
          · exact .inl h
          · exact .inr h
        obtain ⟨r, rte, rtm, hr, e1, e2, e3⟩ := C02_energy_conical_2d la s h hp ha hg' sol hs
        rw [hr] at hx
        rcases hx with hx | hx | hx <;> cases hx <;> assumption
      · exfalso
        rcases conv_solve_cases hs with ⟨h1, -⟩ | ⟨-, ⟨o, rfl⟩ | rfl⟩ | ⟨-, o, rfl⟩
        · exact hg h1
        · obtain ⟨_, _, _, h, _⟩ := conv_solve_conical.mp hs; exact ha h
        · rcases hx with hx | hx | hx <;> cases hx
        · obtain ⟨_, _, _, h, _⟩ := conv_solve_twoD.mp hs; exact ha h
  have hle : ∀ (f : Fin (2 * s.p.fto.2 + 1) → Fin (2 * s.p.fto.1 + 1) → ℝ), (∀ j i, 0 ≤ f j i) → ∀ j i, f j i ≤ ∑ j, ∑ i, f j i := by
    intro f hf j i
    calc f j i ≤ ∑ i, f j i := Finset.single_le_sum (fun i _ => hf j i) (Finset.mem_univ i)
      _ ≤ _ := Finset.single_le_sum (f := fun j => ∑ i, f j i)
        (fun j _ => Finset.sum_nonneg fun i _ => hf j i) (Finset.mem_univ j)
  have s1 : 0 ≤ ∑ j, ∑ i, x.de_ri j i := Finset.sum_nonneg fun j _ => Finset.sum_nonneg fun i _ => (hn j i).2.2.2.2.1
  have s2 : 0 ≤ ∑ j, ∑ i, x.de_ti j i := Finset.sum_nonneg fun j _ => Finset.sum_nonneg fun i _ => (hn j i).2.2.2.2.2.1
  intro j i
  have r1 := hle x.de_ri (fun j i => (hn j i).2.2.2.2.1) j i
  have r2 := hle x.de_ti (fun j i => (hn j i).2.2.2.2.2.1) j i
  unfold Spec.totalEfficiency at htot
  obtain ⟨a1, a2, a3, a4, a5, a6, a7, a8⟩ := hn j i
  refine ⟨?_, ?_, ?_, ?_, ?_, ?_⟩ <;> linarith

/-- Non-vacuity: the lossless two-pixel grating in each formulation. -/
example : Spec.LosslessProblem (exSettings 0 none) ∧
    (∃ o, conv_solve exLA (exSettings 0 none) = .ok (.tetm o)) ∧ (∃ o, conv_solve exLA (exSettings 1 none) = .ok (.tetm o)) ∧
    (∀ pol, Spec.LosslessProblem (exSettings pol (some 0)) ∧
      ∃ o, conv_solve exLA (exSettings pol (some 0)) = .ok (.conical o)) :=
  ⟨exSettings_lossless 0 none (by simp), exTE_ok, exTM_ok, fun pol =>
    ⟨exSettings_lossless pol (some 0) (by intro φ h; cases h; simp [Spec.IsReal]), exCon_ok pol⟩⟩

/-- Non-vacuity: a problem with an evanescent order, `sin 30° + 1 > 1`. -/
example : ¬Spec.Propagating (exSettings 0 none).p 1 1 0 := by
  unfold Spec.Propagating Spec.inPlaneSq Spec.orderKx Spec.orderKy
  simp only [exSettings, exParams, Complex.ofReal_re, Real.sin_pi_div_six, Option.getD_none, Complex.zero_re,
    Real.cos_zero, Real.sin_zero, Complex.one_re]
  norm_num

end Meent

#print axioms Meent.C11_nonneg
#print axioms Meent.C11_evanescent
#print axioms Meent.C11_le_one
