import Verif.Lemmas.TorchBare
import Verif.Lemmas.TorchSolve
import Verif.Spec.Fresnel

/-!
# C08 for the PyTorch backend: the Fresnel law, absorbing substrates included
-/

open Matrix

namespace Meent

theorem tConv_solve_zero {la : LinAlg} {s : TSettings} (hg : tGratingType s = 0)
    {sol : Solved s.p.fto.1 s.p.fto.2} (h : tConv_solve la s = .ok sol) :
    ∃ convs o, tSolve_1d la s.p s.p.wavelength convs = .ok o ∧ sol = .tetm o := by
  unfold tConv_solve at h
  obtain ⟨cs, -, h2⟩ := Except.bind_ok.mp h
  unfold tSolve_for_conv at h2
  rw [hg] at h2
  rcases ha : s.algo with _ | _ | _
  · simp only [ha] at h2
    obtain ⟨o, ho, h3⟩ := Except.bind_ok.mp h2
    exact ⟨_, o, ho, (Except.ok.inj h3).symm⟩
  all_goals
    simp only [ha] at h2
    cases h2

theorem tGratingType_zero {s : TSettings} (h : tGratingType s = 0) :
    (s.p.pol = 0 ∨ s.p.pol = 1) ∧ (s.p.phi = none ∨ s.p.phi = some 0) ∧ s.p.fto.2 = 0 := by
  unfold tGratingType at h
  split at h
  · split_ifs at h with h1 h2 h3
    exact h2
  · cases h

theorem phaseConv_ctr {fx : ℕ} (kx : Fin (2 * fx + 1) → ℂ) {i : Fin (2 * fx + 1)} (h : Spec.colOrder i = 0) :
    phaseConv kx i = 1 := by
  have e : i = ⟨(2 * fx + 1) / 2, Nat.div_lt_self (by omega) (by omega)⟩ := by
    rw [colOrder_zero.mp h]
    apply Fin.ext
    simp only [ctr]
    omega
  unfold phaseConv
  rw [← e]
  rcases branchSign_cases (kx i) with h | h <;> rw [h] <;> norm_num

theorem normSq_reflect {a b : ℂ} (ha : 0 ≤ a.re) (ha' : a.im = 0) (hb : 0 ≤ b.re) :
    Complex.normSq ((a - b) / (a + b)) ≤ 1 := by
  rw [Complex.normSq_div]
  refine div_le_one_of_le₀ ?_ (Complex.normSq_nonneg _)
  simp only [Complex.normSq_apply, Complex.sub_re, Complex.sub_im, Complex.add_re, Complex.add_im, ha']
  nlinarith [mul_nonneg ha hb]

/-- **C08, PyTorch, TE/TM solver.**  With no layer, the zeroth-order amplitudes are the (conjugated, because of
the `n + ik` output convention) Fresnel coefficients of any passive substrate, lossless or absorbing, with the
refracted wave on the physical branch; the reflectance is the squared modulus of the coefficient and at most 1. -/
theorem C08_torch_fresnel {la : LinAlg} {s : TSettings} (hp : s.p.use_pinv = false) (ht : s.p.thickness = [])
    (hi : Spec.RealIllumination s.p) (hb : Spec.PassiveIndex s.p.n_bot) (hgr : Spec.NoDoubleGrazing s.p)
    {c₂ : ℂ} (hc : Spec.OutgoingKz s.p.n_bot ((s.p.n_top.re * Real.sin s.p.theta.re) ^ 2) (s.p.n_bot * c₂))
    {sol : Solved s.p.fto.1 s.p.fto.2} (h : tConv_solve la s = .ok sol) (hg : tGratingType s = 0)
    {x} (hr : sol.result.res = some x) {j i} (h0i : Spec.colOrder i = 0) :
    (s.p.pol = 0 ∧ x.R_s j i = star (Spec.rTE s.p.n_top s.p.n_bot (Complex.cos s.p.theta) c₂) ∧
      x.T_s j i = star (Spec.tTE s.p.n_top s.p.n_bot (Complex.cos s.p.theta) c₂) ∧
      x.de_ri j i = Complex.normSq (Spec.rTE s.p.n_top s.p.n_bot (Complex.cos s.p.theta) c₂) ∧ x.de_ri j i ≤ 1) ∨
    (s.p.pol = 1 ∧ x.R_p j i = star (Spec.rTM s.p.n_top s.p.n_bot (Complex.cos s.p.theta) c₂) ∧
      x.T_p j i = star (Spec.tTM s.p.n_top s.p.n_bot (Complex.cos s.p.theta) c₂) ∧
      x.de_ri j i = Complex.normSq (Spec.rTM s.p.n_top s.p.n_bot (Complex.cos s.p.theta) c₂) ∧ x.de_ri j i ≤ 1) := by
  obtain ⟨hpol, hphi, hf⟩ := tGratingType_zero hg
  obtain ⟨convs, o, ho, rfl⟩ := tConv_solve_zero hg h
  obtain ⟨o', ho', R, T, hT, hde, hcase⟩ := tBare_1d (la := la) (convs := convs) hp ht hpol hi hb hgr
  obtain rfl := Except.ok.inj (ho'.symm.trans ho)
  obtain rfl : o'.res.row1 s.p.fto.2 = x := Option.some.inj hr
  have hinc := RealIncidence.of_spec hi
  have hcpos := hinc.cos_pos
  have hδ : (deltaI0 i : ℂ) = 1 := by rw [deltaI0_eq, if_pos (colOrder_zero.mp h0i)]
  have hk : Spec.orderKx s.p (Spec.colOrder i) = s.p.n_top.re * Real.sin s.p.theta.re := by
    rw [h0i]
    rcases hphi with h | h <;> simp [Spec.orderKx, h]
  have en : (s.p.n_top.re : ℂ) = s.p.n_top := hinc.hn.symm
  have ec : ((Real.cos s.p.theta.re : ℝ) : ℂ) = Complex.cos s.p.theta := hinc.cos_eq.symm
  have ent : s.p.n_top * Complex.cos s.p.theta = ((s.p.n_top.re * Real.cos s.p.theta.re : ℝ) : ℂ) := by
    rw [Complex.ofReal_mul, en, ec]
  have hpos : 0 < s.p.n_top.re * Real.cos s.p.theta.re := mul_pos hi.n_top_pos hcpos
  have ktop : kzPhys s.p.n_top (Spec.orderKx s.p (Spec.colOrder i) ^ 2) = s.p.n_top * Complex.cos s.p.theta := by
    rw [hk]
    refine outgoing_unique (le_of_eq hi.n_top_real) (kzPhys_outgoing (top_passive' hi) _) ⟨?_, ?_, ?_, ?_⟩
    · rw [ent, ← Complex.ofReal_pow, ← Complex.ofReal_add]
      conv_rhs => rw [← en, ← Complex.ofReal_pow]
      congr 1
      have := Real.sin_sq_add_cos_sq s.p.theta.re
      linear_combination s.p.n_top.re ^ 2 * this
    · intro _ _
      rw [ent]
      exact ⟨Complex.ofReal_im _, by rw [Complex.ofReal_re]; exact hpos.le⟩
    · intro _ hlt
      have := Real.sin_sq_add_cos_sq s.p.theta.re
      nlinarith [sq_nonneg (s.p.n_top.re * Real.cos s.p.theta.re)]
    · intro hlt
      rw [show s.p.n_top.im = 0 from hi.n_top_real] at hlt
      exact absurd hlt (lt_irrefl _)
  have kbot : kzPhys s.p.n_bot (Spec.orderKx s.p (Spec.colOrder i) ^ 2) = s.p.n_bot * c₂ := by
    rw [hk]
    exact outgoing_unique hb.2 (kzPhys_outgoing hb _) hc
  have hsg := kzPhys_signs hb (Spec.orderKx s.p (Spec.colOrder i) ^ 2)
  have hsq := kzPhys_sq s.p.n_bot (Spec.orderKx s.p (Spec.colOrder i) ^ 2)
  have hov := kz_over_sq_re (sq_nonneg (Spec.orderKx s.p (Spec.colOrder i))) hsq hsg.1
  rw [kbot] at hsg hov
  have hnt : s.p.n_top ≠ 0 := by rw [← en]; exact_mod_cast hi.n_top_pos.ne'
  have hnb : s.p.n_bot ≠ 0 := fun h0 => by have := hb.1; rw [h0] at this; simp at this
  have hTi : T i = R i + 1 := by rw [hT, Pi.add_apply, hδ]
  have hph := phaseConv_ctr (tKxVec s.p s.p.wavelength) h0i
  have hde' : o'.res.de_ri 0 i = Complex.normSq (R i) := by
    rw [hde, ktop, effOf_eq, div_self (by rw [ent]; exact_mod_cast hpos.ne'), Complex.one_re, mul_one]
  rcases hcase with ⟨h0, hR, hT', he⟩ | ⟨h0, hR, hT', he⟩
  · left
    have he := he i
    rw [hδ, ktop, kbot] at he
    have d1 : s.p.n_top * Complex.cos s.p.theta + s.p.n_bot * c₂ ≠ 0 := by
      intro hz
      have := congrArg Complex.re hz
      rw [ent, Complex.add_re, Complex.ofReal_re, Complex.zero_re] at this
      linarith [hsg.1]
    obtain ⟨a1, a2⟩ := fresnel_solve d1 hTi (by linear_combination he)
    rw [one_mul] at a1 a2
    have e1 : R i = Spec.rTE s.p.n_top s.p.n_bot (Complex.cos s.p.theta) c₂ := a1
    refine ⟨h0, ?_, ?_, ?_, ?_⟩
    · show o'.res.R_s 0 i = _
      rw [hR, hph, one_mul, e1]
    · show o'.res.T_s 0 i = _
      rw [hT', hph, one_mul, a2, Spec.tTE, mul_assoc]
    · show o'.res.de_ri 0 i = _
      rw [hde', e1]
    · show o'.res.de_ri 0 i ≤ 1
      rw [hde', a1]
      refine normSq_reflect ?_ ?_ hsg.1
      · rw [ent, Complex.ofReal_re]; exact hpos.le
      · rw [ent, Complex.ofReal_im]
  · right
    have he := he i
    rw [hδ, ktop, kbot] at he
    have f1 : s.p.n_top * Complex.cos s.p.theta / s.p.n_top ^ 2 = Complex.cos s.p.theta / s.p.n_top := by
      field_simp
    have f2 : s.p.n_bot * c₂ / s.p.n_bot ^ 2 = c₂ / s.p.n_bot := by field_simp
    rw [f1, f2] at he
    rw [f2] at hov
    have ect : Complex.cos s.p.theta / s.p.n_top = ((Real.cos s.p.theta.re / s.p.n_top.re : ℝ) : ℂ) := by
      rw [Complex.ofReal_div, en, ec]
    have hpos' : 0 < Real.cos s.p.theta.re / s.p.n_top.re := div_pos hcpos hi.n_top_pos
    have d0 : Complex.cos s.p.theta / s.p.n_top + c₂ / s.p.n_bot ≠ 0 := by
      intro hz
      have := congrArg Complex.re hz
      rw [ect, Complex.add_re, Complex.ofReal_re, Complex.zero_re] at this
      linarith
    have d2 : s.p.n_bot * Complex.cos s.p.theta + s.p.n_top * c₂ ≠ 0 := by
      intro hz
      apply d0
      field_simp
      linear_combination hz
    obtain ⟨b1, b2, b3⟩ := fresnel_tm hnt hnb d2
    obtain ⟨a1, a2⟩ := fresnel_solve b1 hTi (by linear_combination he)
    rw [one_mul] at a1 a2
    have e1 := a1
    rw [b2] at e1
    refine ⟨h0, ?_, ?_, ?_, ?_⟩
    · show o'.res.R_p 0 i = _
      rw [hR, hph, one_mul, e1]
    · show o'.res.T_p 0 i = _
      rw [hT', hph, one_mul, a2, b3]
    · show o'.res.de_ri 0 i = _
      rw [hde', e1]
    · show o'.res.de_ri 0 i ≤ 1
      rw [hde', a1]
      refine normSq_reflect ?_ ?_ hov
      · rw [ect, Complex.ofReal_re]; exact hpos'.le
      · rw [ect, Complex.ofReal_im]

/-- The solver succeeds on such an interface. -/
theorem C08_torch_success {la : LinAlg} {s : TSettings} (hp : s.p.use_pinv = false) (ht : s.p.thickness = [])
    (hi : Spec.RealIllumination s.p) (hb : Spec.PassiveIndex s.p.n_bot) (hgr : Spec.NoDoubleGrazing s.p)
    (hg : tGratingType s = 0) (ha : s.algo = .tmm) {cs} (hc : tConvMats la s = .ok cs) :
    ∃ o, tConv_solve la s = .ok (.tetm o) := by
  obtain ⟨hpol, hphi, hf⟩ := tGratingType_zero hg
  obtain ⟨o', ho', -⟩ := tBare_1d (la := la) (convs := cs.map Conv.row) hp ht hpol hi hb hgr
  refine ⟨o', ?_⟩
  unfold tConv_solve
  exact Except.bind_ok.mpr ⟨cs, hc, tSolve_for_conv_zero hg ha ho'⟩

theorem bare_noGrazing {nb : ℂ} {pol : ℝ} (h : nb.im < 0) (hr : 0 < nb.re) :
    Spec.NoDoubleGrazing (bareSettings nb pol none).p := by
  intro m
  right
  intro h0
  have h1 := congrArg Complex.im h0
  rw [Complex.ofReal_im, sq_im] at h1
  have : (bareSettings nb pol none).p.n_bot = nb := rfl
  rw [this] at h1
  nlinarith

/-- Non-vacuity: index 2 over the passive metal `(9 - 7i)/8` at 30 degrees, TM, where the cosine of the
refraction angle is `(7 - 9i)/(9 - 7i)`; the hypotheses hold, the solver succeeds and reflects at most all of
the power. -/
theorem C08_torch_example (la : LinAlg) : ∃ o, tConv_solve la (bareSettings ⟨9 / 8, -(7 / 8)⟩ 1 none).torch = .ok (.tetm o) ∧
    ∀ j i, (o.res.row1 (bareSettings ⟨9 / 8, -(7 / 8)⟩ 1 none).p.fto.2).de_ri j i ≤ 1 := by
  have hi := bareSettings_illumination ⟨9 / 8, -(7 / 8)⟩ 1 none (by simp)
  have hb : Spec.PassiveIndex (⟨9 / 8, -(7 / 8)⟩ : ℂ) := by constructor <;> norm_num
  have hgr := bare_noGrazing (nb := ⟨9 / 8, -(7 / 8)⟩) (pol := 1) (by norm_num) (by norm_num)
  have hg : tGratingType (bareSettings ⟨9 / 8, -(7 / 8)⟩ 1 none).torch = 0 :=
    tGrating_zero (by simp [gratingType, bareSettings])
  obtain ⟨o, ho⟩ := C08_torch_success (la := la) (s := (bareSettings ⟨9 / 8, -(7 / 8)⟩ 1 none).torch) rfl rfl hi hb hgr hg rfl
    (refines_tConvMats la _ _ (bareSettings_convs la _ _ _))
  refine ⟨o, ho, fun j i => ?_⟩
  have hnb : (⟨9 / 8, -(7 / 8)⟩ : ℂ) ≠ 0 := by
    intro h; have := congrArg Complex.re h; norm_num at this
  have := C08_torch_fresnel (la := la) (s := (bareSettings ⟨9 / 8, -(7 / 8)⟩ 1 none).torch) rfl rfl hi hb hgr
    (c₂ := kzPhys ⟨9 / 8, -(7 / 8)⟩ ((2 * Real.sin (Real.pi / 6)) ^ 2) / ⟨9 / 8, -(7 / 8)⟩)
    (by
      show Spec.OutgoingKz ⟨9 / 8, -(7 / 8)⟩ _ (⟨9 / 8, -(7 / 8)⟩ * _)
      rw [mul_div_cancel₀ _ hnb]
      exact kzPhys_outgoing hb _)
    ho hg rfl (j := j) (i := i) (bareSettings_col _ _ _ i)
  rcases this with h | h
  · exact h.2.2.2.2
  · exact h.2.2.2.2

#print axioms C08_torch_fresnel
#print axioms C08_torch_success
#print axioms C08_torch_example

end Meent
