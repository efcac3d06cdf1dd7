import Verif.Lemmas.Energy2D
import Verif.Lemmas.Example1D
import Verif.Spec.Orders

/-!
# Wavenumbers of the orders and the efficiency law (helper lemmas)
-/

open Matrix

namespace Meent

set_option linter.unusedSectionVars false
set_option linter.unusedSimpArgs false

theorem csqrt_ofReal_nonneg {x : ℝ} (hx : 0 ≤ x) : csqrt (x : ℂ) = (Real.sqrt x : ℂ) := by
  rw [← csqrt_ofReal_sq (Real.sqrt_nonneg x)]
  congr 1
  rw [← Complex.ofReal_pow, Real.sq_sqrt hx]

theorem csqrt_ofReal_neg {x : ℝ} (hx : x < 0) : csqrt (x : ℂ) = Complex.I * (Real.sqrt (-x) : ℂ) := by
  rw [← csqrt_neg_sq (Real.sqrt_pos.mpr (by linarith))]
  congr 1
  rw [← Complex.ofReal_pow, Real.sq_sqrt (by linarith)]
  push_cast; ring

theorem csqrt_ofReal_re (x : ℝ) : (csqrt (x : ℂ)).re = Real.sqrt x := by
  rcases le_or_gt 0 x with h | h
  · rw [csqrt_ofReal_nonneg h, Complex.ofReal_re]
  · rw [csqrt_ofReal_neg h, Real.sqrt_eq_zero'.mpr h.le]; simp

theorem star_csqrt_ofReal_re (x : ℝ) : (star (csqrt (x : ℂ))).re = Real.sqrt x := by
  rw [Complex.star_def, Complex.conj_re, csqrt_ofReal_re]

section
variable {p : Params}

theorem phi_getD_real (h : Spec.RealIllumination p) : p.phi.getD 0 = (((p.phi.getD 0).re : ℝ) : ℂ) := by
  have := h.phi_real
  cases hp : p.phi with
  | none => simp
  | some z => exact Complex.ext rfl (this z hp)

theorem kxVec_order (h : Spec.RealIllumination p) (i : Fin (2 * p.fto.1 + 1)) :
    kxVec p p.wavelength i = (Spec.orderKx p (Spec.colOrder i) : ℂ) :=
  (RealIncidence.of_spec h).kx_eq' (phi_getD_real h) p.wavelength i

theorem kyVec_order (h : Spec.RealIllumination p) (i : Fin (2 * p.fto.2 + 1)) :
    kyVec p p.wavelength i = (Spec.orderKy p (Spec.rowOrder i) : ℂ) :=
  (RealIncidence.of_spec h).ky_eq' (phi_getD_real h) p.wavelength i

theorem modNat_prod {fx fy : ℕ} (j : Fin (2 * fy + 1)) (i : Fin (2 * fx + 1)) :
    (finProdFinEquiv (j, i) : Fin ((2 * fy + 1) * (2 * fx + 1))).modNat = i :=
  congrArg Prod.snd (finProdFinEquiv.symm_apply_apply (j, i))

theorem divNat_prod {fx fy : ℕ} (j : Fin (2 * fy + 1)) (i : Fin (2 * fx + 1)) :
    (finProdFinEquiv (j, i) : Fin ((2 * fy + 1) * (2 * fx + 1))).divNat = j :=
  congrArg Prod.fst (finProdFinEquiv.symm_apply_apply (j, i))

theorem kxF_order (h : Spec.RealIllumination p) (j : Fin (2 * p.fto.2 + 1)) (i : Fin (2 * p.fto.1 + 1)) :
    kxF p p.wavelength (finProdFinEquiv (j, i)) = (Spec.orderKx p (Spec.colOrder i) : ℂ) := by
  unfold kxF tileX
  rw [modNat_prod, kxVec_order h]

theorem kyF_order (h : Spec.RealIllumination p) (j : Fin (2 * p.fto.2 + 1)) (i : Fin (2 * p.fto.1 + 1)) :
    kyF p p.wavelength (finProdFinEquiv (j, i)) = (Spec.orderKy p (Spec.rowOrder j) : ℂ) := by
  unfold kyF tileY
  rw [divNat_prod, kyVec_order h]

theorem kz2d_order (h : Spec.RealIllumination p) {nn : ℂ} (hn : Spec.IsReal nn)
    (j : Fin (2 * p.fto.2 + 1)) (i : Fin (2 * p.fto.1 + 1)) :
    kz2d nn (kxF p p.wavelength) (kyF p p.wavelength) (finProdFinEquiv (j, i))
      = star (csqrt ((nn.re ^ 2 - Spec.inPlaneSq p (Spec.colOrder i) (Spec.rowOrder j) : ℝ) : ℂ)) := by
  unfold kz2d
  rw [kxF_order h, kyF_order h]
  have : nn = (nn.re : ℂ) := Complex.ext rfl hn
  congr 2
  conv_lhs => rw [this]
  unfold Spec.inPlaneSq
  push_cast
  ring

theorem kz2d_order_re (h : Spec.RealIllumination p) {nn : ℂ} (hn : Spec.IsReal nn)
    (j : Fin (2 * p.fto.2 + 1)) (i : Fin (2 * p.fto.1 + 1)) :
    (kz2d nn (kxF p p.wavelength) (kyF p p.wavelength) (finProdFinEquiv (j, i))).re
      = Spec.orderKzRe p nn.re (Spec.colOrder i) (Spec.rowOrder j) := by
  rw [kz2d_order h hn, star_csqrt_ofReal_re, Spec.orderKzRe]

theorem orderKy_none (h : p.phi = none) : Spec.orderKy p 0 = 0 := by
  simp [Spec.orderKy, h]

theorem kz1d_order (h : Spec.RealIllumination p) (hphi : p.phi = none) {nn : ℂ} (hn : Spec.IsReal nn)
    (i : Fin (2 * p.fto.1 + 1)) :
    kz1d nn (kxVec p p.wavelength) i
      = star (csqrt ((nn.re ^ 2 - Spec.inPlaneSq p (Spec.colOrder i) 0 : ℝ) : ℂ)) := by
  unfold kz1d
  rw [kxVec_order h]
  have : nn = (nn.re : ℂ) := Complex.ext rfl hn
  congr 2
  conv_lhs => rw [this]
  unfold Spec.inPlaneSq
  rw [orderKy_none hphi]
  push_cast
  ring

theorem kz1d_order_re (h : Spec.RealIllumination p) (hphi : p.phi = none) {nn : ℂ} (hn : Spec.IsReal nn)
    (i : Fin (2 * p.fto.1 + 1)) :
    (kz1d nn (kxVec p p.wavelength) i).re = Spec.orderKzRe p nn.re (Spec.colOrder i) 0 := by
  rw [kz1d_order h hphi hn, star_csqrt_ofReal_re, Spec.orderKzRe]

end

/-- The efficiencies of a result as functions of its amplitudes and four weight arrays. -/
structure EffBy {ny nx : ℕ} (a b c e : Fin ny → Fin nx → ℂ) (r : SubRes ny nx) : Prop where
  ri_s : ∀ j i, r.de_ri_s j i = effOf (r.R_s j i) (a j i)
  ri_p : ∀ j i, r.de_ri_p j i = effOf (r.R_p j i) (b j i)
  ti_s : ∀ j i, r.de_ti_s j i = effOf (r.T_s j i) (c j i)
  ti_p : ∀ j i, r.de_ti_p j i = effOf (r.T_p j i) (e j i)
  ri : ∀ j i, r.de_ri j i = r.de_ri_s j i + r.de_ri_p j i
  ti : ∀ j i, r.de_ti j i = r.de_ti_s j i + r.de_ti_p j i

theorem effOf_real_div {z : ℂ} {a r : ℝ} {w : ℂ} (hz : z.re = r) :
    effOf w (z / (a : ℂ)) = ‖w‖ ^ 2 * (r / a) := by
  rw [effOf_eq, Complex.normSq_eq_norm_sq, Complex.div_ofReal_re, hz]

theorem transfer_2d_1_kz {m : Type} [Fintype m] [DecidableEq m] {kx ky : m → ℂ} {nt nb : ℂ} {o}
    (h : transfer_2d_1 kx ky nt nb = .ok o) : o.1 = kz2d nt kx ky ∧ o.2.1 = kz2d nb kx ky := by
  unfold transfer_2d_1 at h
  simp only [Except.bind_ok, Except.ok.injEq] at h
  obtain ⟨_, _, rfl⟩ := h
  exact ⟨rfl, rfl⟩

theorem out4_results {fx fy : ℕ} {la : LinAlg} {s : TState (FlatIdx fx fy ⊕ FlatIdx fx fy)} {kzt kzb psi theta nt nb b o}
    (h : transfer_2d_4 la s kzt kzb psi theta nt nb b = .ok o) :
    ∃ N : Matrix ((FlatIdx fx fy ⊕ FlatIdx fx fy) ⊕ (FlatIdx fx fy ⊕ FlatIdx fx fy))
        ((FlatIdx fx fy ⊕ FlatIdx fx fy) ⊕ (FlatIdx fx fy ⊕ FlatIdx fx fy)) ℂ, o.res = subResOf s kzt kzb theta nt nb (N *ᵥ finalB deltaI0 psi theta nt) ∧
      o.res_te = subResOf s kzt kzb theta nt nb (N *ᵥ finalB deltaI0 ((Real.pi / 2 : ℝ) : ℂ) theta nt) ∧
      o.res_tm = subResOf s kzt kzb theta nt nb (N *ᵥ finalB deltaI0 0 theta nt) := by
  unfold transfer_2d_4 at h
  simp only [Except.bind_ok, Except.ok.injEq] at h
  obtain ⟨N, -, rfl⟩ := h
  exact ⟨N, rfl, rfl, rfl⟩

/-- Conical and 2D solves end in `transfer_2d_4` (any `use_pinv`). -/
theorem solved4 {la : LinAlg} {s : Settings} {sol : Solved s.p.fto.1 s.p.fto.2} (hs : conv_solve la s = .ok sol)
    (hg : gratingType s ≠ 0) (ha : s.algo = .tmm) :
    ∃ (x : Out4 s.p.fto.1 s.p.fto.2) (t : _) (b : Bool),
      sol.result = ⟨some x.res, some x.res_te, some x.res_tm⟩ ∧
      transfer_2d_4 la t (kz2d s.p.n_top (kxF s.p s.p.wavelength) (kyF s.p s.p.wavelength))
        (kz2d s.p.n_bot (kxF s.p s.p.wavelength) (kyF s.p s.p.wavelength)) s.p.psi s.p.theta s.p.n_top s.p.n_bot b = .ok x := by
  rcases conv_solve_cases hs with ⟨h1, -⟩ | ⟨h1, ⟨o, rfl⟩ | rfl⟩ | ⟨h1, o, rfl⟩
  · exact absurd h1 hg
  · obtain ⟨cs, hc, -, -, h4⟩ := conv_solve_conical.mp hs
    unfold solve_1d_conical at h4
    simp only [Except.bind_ok] at h4
    obtain ⟨init, hinit, r, -, h4⟩ := h4
    obtain ⟨e1, e2⟩ := transfer_2d_1_kz hinit
    split at h4
    · cases h4
    · simp only [Except.bind_ok, Except.ok.injEq] at h4
      obtain ⟨x, hx, rfl⟩ := h4
      rw [e1, e2] at hx
      exact ⟨x, _, _, rfl, hx⟩
  · have := (solve_for_conv_smm.mp (conv_solve_ok.mp hs).choose_spec.2).2
    rw [ha] at this; cases this
  · obtain ⟨cs, hc, -, -, h4⟩ := conv_solve_twoD.mp hs
    unfold solve_2d at h4
    simp only [Except.bind_ok] at h4
    obtain ⟨init, hinit, r, -, x, hx, h4⟩ := h4
    obtain ⟨e1, e2⟩ := transfer_2d_1_kz hinit
    simp only [Except.ok.injEq] at h4
    subst h4
    rw [e1, e2] at hx
    exact ⟨x, _, _, rfl, hx⟩

theorem effOf_zero (w : ℂ) : effOf 0 w = 0 := by simp [effOf]

theorem transfer_1d_4_eff {ff : ℕ} {la : LinAlg} {pol : ℝ} {s : TState (Fin ff)} {kzt kzb : Fin ff → ℂ} {theta nt nb : ℂ}
    {b : Bool} {o} (h : transfer_1d_4 la pol s kzt kzb theta nt nb b = .ok o) :
    EffBy (fun _ i => kzt i / (nt * Complex.cos theta)) (fun _ i => kzt i / (nt * Complex.cos theta))
      (fun _ i => kzb i / (nt * Complex.cos theta)) (fun _ i => kzb i / nb ^ 2 / (Complex.cos theta / nt)) o.1 := by
  unfold transfer_1d_4 at h
  by_cases h0 : pol = 0
  · simp only [h0, if_true, Except.bind_ok] at h
    obtain ⟨N, -, T1, e1, e2⟩ := h
    simp only [Except.ok.injEq] at e2
    subst e2
    constructor <;> intro j i <;> simp [effOf_zero]
  · by_cases h1 : pol = 1
    · simp only [h1, one_ne_zero, if_true, if_false, Except.bind_ok] at h
      obtain ⟨N, -, T1, e1, e2⟩ := h
      simp only [Except.ok.injEq] at e2
      subst e2
      constructor <;> intro j i <;> simp [effOf_zero]
    · simp only [h0, h1, if_false] at h
      simp [bind, Except.bind] at h

/-- Weights of the four efficiency arrays. -/
noncomputable def weights (s : Settings) : Fin 4 → Fin (2 * s.p.fto.2 + 1) → Fin (2 * s.p.fto.1 + 1) → ℂ :=
  if gratingType s = 0 then
    ![fun _ i => kz1d s.p.n_top (kxVec s.p s.p.wavelength) i / (s.p.n_top * Complex.cos s.p.theta),
      fun _ i => kz1d s.p.n_top (kxVec s.p s.p.wavelength) i / (s.p.n_top * Complex.cos s.p.theta),
      fun _ i => kz1d s.p.n_bot (kxVec s.p s.p.wavelength) i / (s.p.n_top * Complex.cos s.p.theta),
      fun _ i => kz1d s.p.n_bot (kxVec s.p s.p.wavelength) i / s.p.n_bot ^ 2 / (Complex.cos s.p.theta / s.p.n_top)]
  else
    let kzt := kz2d s.p.n_top (kxF s.p s.p.wavelength) (kyF s.p s.p.wavelength)
    let kzb := kz2d s.p.n_bot (kxF s.p s.p.wavelength) (kyF s.p s.p.wavelength)
    ![fun j i => kzt (finProdFinEquiv (j, i)) / (s.p.n_top * Complex.cos s.p.theta),
      fun j i => kzt (finProdFinEquiv (j, i)) / s.p.n_top ^ 2 / (s.p.n_top * Complex.cos s.p.theta),
      fun j i => kzb (finProdFinEquiv (j, i)) / (s.p.n_top * Complex.cos s.p.theta),
      fun j i => kzb (finProdFinEquiv (j, i)) / s.p.n_bot ^ 2 / (s.p.n_top * Complex.cos s.p.theta)]

theorem transfer_1d_1_kz {n : Type} [Fintype n] [DecidableEq n] {pol : ℝ} {kx : n → ℂ} {nt nb : ℂ} {o}
    (h : transfer_1d_1 pol kx nt nb = .ok o) : o.1 = kz1d nt kx ∧ o.2.1 = kz1d nb kx := by
  unfold transfer_1d_1 at h
  by_cases h0 : pol = 0
  · simp only [h0, if_true, Except.ok.injEq] at h
    subst h; exact ⟨rfl, rfl⟩
  · by_cases h1 : pol = 1
    · simp only [h1, one_ne_zero, if_true, if_false, Except.ok.injEq] at h
      subst h; exact ⟨rfl, rfl⟩
    · simp [h0, h1] at h

theorem EffBy.row1 {ffx fy : ℕ} {a b c e : Fin 1 → Fin ffx → ℂ} {r : SubRes 1 ffx} (h : EffBy a b c e r) :
    EffBy (fun _ => a 0) (fun _ => b 0) (fun _ => c 0) (fun _ => e 0) (r.row1 fy) :=
  ⟨fun _ => h.ri_s 0, fun _ => h.ri_p 0, fun _ => h.ti_s 0, fun _ => h.ti_p 0, fun _ => h.ri 0, fun _ => h.ti 0⟩

/-- In every formulation the efficiencies are functions of the amplitudes, by weights that depend on
the settings only. -/
theorem conv_solve_eff {la : LinAlg} {s : Settings} {sol : Solved s.p.fto.1 s.p.fto.2} (hs : conv_solve la s = .ok sol)
    {x} (hx : Spec.Reports sol.result x) : EffBy (weights s 0) (weights s 1) (weights s 2) (weights s 3) x := by
  by_cases hg : gratingType s = 0
  · have hw : ∀ k, weights s k = _ := fun k => congrFun (if_pos hg) k
    rcases conv_solve_cases hs with ⟨h1, o, rfl⟩ | ⟨h1, -⟩ | ⟨h1, -⟩
    · obtain ⟨cs, hc, -, -, h4⟩ := conv_solve_tetm.mp hs
      simp only [Spec.Reports, Solved.result, Option.some.injEq, reduceCtorEq, or_false] at hx
      subst hx
      unfold solve_1d at h4
      simp only [Except.bind_ok, Except.ok.injEq] at h4
      obtain ⟨init, hinit, r, -, y, hy, rfl⟩ := h4
      obtain ⟨e1, e2⟩ := transfer_1d_1_kz hinit
      rw [e1, e2] at hy
      simp only [hw]
      exact (transfer_1d_4_eff hy).row1
    · omega
    · omega
  · have hw : ∀ k, weights s k = _ := fun k => congrFun (if_neg hg) k
    by_cases ha : s.algo = .tmm
    · obtain ⟨y, t, b, e, h4⟩ := solved4 hs hg ha
      obtain ⟨N, e1, e2, e3⟩ := out4_results h4
      rw [e] at hx
      simp only [hw]
      simp only [Spec.Reports, Option.some.injEq, e1, e2, e3] at hx
      rcases hx with rfl | rfl | rfl <;>
        exact ⟨fun _ _ => rfl, fun _ _ => rfl, fun _ _ => rfl, fun _ _ => rfl, fun _ _ => rfl, fun _ _ => rfl⟩
    · exfalso
      rcases conv_solve_cases hs with ⟨h1, -⟩ | ⟨h1, ⟨o, rfl⟩ | rfl⟩ | ⟨h1, o, rfl⟩
      · exact hg h1
      · obtain ⟨cs, hc, -, h3, -⟩ := conv_solve_conical.mp hs
        exact ha h3
      · simp [Spec.Reports, Solved.result] at hx
      · obtain ⟨cs, hc, -, h3, -⟩ := conv_solve_twoD.mp hs
        exact ha h3

/-- Weights of the p parts (reflected, transmitted): the TE/TM solver reports p amplitudes in the
incident medium's units, the other two solvers magnetic amplitudes. -/
noncomputable def pWeights (s : Settings) : ℝ × ℝ :=
  if gratingType s = 0 then (1, s.p.n_top.re ^ 2 / s.p.n_bot.re ^ 2) else (1 / s.p.n_top.re ^ 2, 1 / s.p.n_bot.re ^ 2)

theorem conv_solve_law {la : LinAlg} {s : Settings} (h : Spec.RealIllumination s.p) (hb : Spec.IsReal s.p.n_bot)
    {sol : Solved s.p.fto.1 s.p.fto.2} (hs : conv_solve la s = .ok sol) {x} (hx : Spec.Reports sol.result x) :
    Spec.EfficiencyLaw s.p (pWeights s).1 (pWeights s).2 x := by
  have he := conv_solve_eff hs hx
  have hi := RealIncidence.of_spec h
  have ht : s.p.n_top * Complex.cos s.p.theta = ((s.p.n_top.re * Real.cos s.p.theta.re : ℝ) : ℂ) := by
    rw [hi.cos_eq]; conv_lhs => rw [hi.hn]
    push_cast; rfl
  have hnt : s.p.n_top ^ 2 = ((s.p.n_top.re ^ 2 : ℝ) : ℂ) := by
    conv_lhs => rw [hi.hn]
    push_cast; rfl
  have hnb : s.p.n_bot ^ 2 = ((s.p.n_bot.re ^ 2 : ℝ) : ℂ) := by
    conv_lhs => rw [show s.p.n_bot = (s.p.n_bot.re : ℂ) from Complex.ext rfl hb]
    push_cast; rfl
  by_cases hg : gratingType s = 0
  · have hw : ∀ k, weights s k = _ := fun k => congrFun (if_pos hg) k
    have hp : pWeights s = _ := if_pos hg
    obtain ⟨u, -, -, -, hphi, hf⟩ := gratingType_zero hg
    have hj : ∀ j : Fin (2 * s.p.fto.2 + 1), Spec.rowOrder j = 0 := by
      intro j; unfold Spec.rowOrder; omega
    simp only [hw] at he
    simp only [hp]
    refine ⟨fun j i => ?_, fun j i => ?_, fun j i => ?_, fun j i => ?_, he.ri, he.ti⟩ <;> rw [hj j]
    · rw [he.ri_s j i, ht]
      exact effOf_real_div (kz1d_order_re h hphi h.n_top_real i)
    · rw [he.ri_p j i, one_mul, ht]
      exact effOf_real_div (kz1d_order_re h hphi h.n_top_real i)
    · rw [he.ti_s j i, ht]
      exact effOf_real_div (kz1d_order_re h hphi hb i)
    · rw [he.ti_p j i]
      have e : ∀ z : ℂ, z / s.p.n_bot ^ 2 / (Complex.cos s.p.theta / s.p.n_top)
          = z / ((s.p.n_bot.re ^ 2 * (Real.cos s.p.theta.re / s.p.n_top.re) : ℝ) : ℂ) := by
        intro z
        rw [div_div, hnb, hi.cos_eq]
        conv_lhs => rw [hi.hn]
        push_cast; rfl
      show effOf _ (_ / s.p.n_bot ^ 2 / (Complex.cos s.p.theta / s.p.n_top)) = _
      rw [e, effOf_real_div (kz1d_order_re h hphi hb i)]
      have h1 : s.p.n_top.re ≠ 0 := h.n_top_pos.ne'
      have h2 : Real.cos s.p.theta.re ≠ 0 := hi.cos_pos.ne'
      rcases eq_or_ne s.p.n_bot.re 0 with h3 | h3
      · simp [h3]
      · field_simp
  · have hw : ∀ k, weights s k = _ := fun k => congrFun (if_neg hg) k
    have hp : pWeights s = _ := if_neg hg
    simp only [hw] at he
    simp only [hp]
    refine ⟨fun j i => ?_, fun j i => ?_, fun j i => ?_, fun j i => ?_, he.ri, he.ti⟩
    · rw [he.ri_s j i, ht]
      exact effOf_real_div (kz2d_order_re h h.n_top_real j i)
    · rw [he.ri_p j i]
      show effOf _ (_ / s.p.n_top ^ 2 / (s.p.n_top * Complex.cos s.p.theta)) = _
      rw [ht, hnt, div_div, ← Complex.ofReal_mul, effOf_real_div (kz2d_order_re h h.n_top_real j i)]
      ring
    · rw [he.ti_s j i, ht]
      exact effOf_real_div (kz2d_order_re h hb j i)
    · rw [he.ti_p j i]
      show effOf _ (_ / s.p.n_bot ^ 2 / (s.p.n_top * Complex.cos s.p.theta)) = _
      rw [ht, hnb, div_div, ← Complex.ofReal_mul, effOf_real_div (kz2d_order_re h hb j i)]
      ring

end Meent
