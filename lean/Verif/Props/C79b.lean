import Verif.Props.C69
import Verif.Props.C72
import Verif.Props.C79

/-!
# C79: exchanging the axes on JAX and PyTorch
-/

namespace Meent

/-- The efficiencies in the second result are those in the first with the two order indices exchanged, for TE and TM incidence and, if
the configured polarizations are exchanged too (`same`), for these. -/
def Spec.ExchangedResults {fx fy : ℕ} (same : Prop) (r : Result fx fy) (r' : Result fy fx) : Prop :=
  ∃ y te tm y' te' tm', r = ⟨some y, some te, some tm⟩ ∧ r' = ⟨some y', some te', some tm'⟩ ∧
    Spec.ExchangedEff te te' ∧ Spec.ExchangedEff tm tm' ∧ (same → Spec.ExchangedEff y y')

private theorem exchange_ready {s : Settings} {u : Ucell} (hu : s.ucell = .raster u) (θ' ψ' : ℂ) (φ' : Option ℂ) (pol' : ℝ)
    (hr : Spec.JaxReady s) : Spec.JaxReady (Spec.exchangeAxes s u θ' φ' pol' ψ') where
  pixels := fun v hv => by cases hv; exact (hr.pixels u hu).symm
  ellipses := fun ls h => by cases h
  layers := by have := hr.layers; rw [hu] at this; simpa [Spec.layerCount] using this

private theorem exchangedEff_of_same {a b : ℕ} {r r₁ : SubRes a b} {r' r₁' : SubRes b a} (h : Spec.ExchangedEff r r')
    (e : Spec.SameEff r r₁) (e' : Spec.SameEff r' r₁') : Spec.ExchangedEff r₁ r₁' := by
  constructor <;> intro j i
  · rw [e.de_ri_s, e'.de_ri_s]; exact h.de_ri_s j i
  · rw [e.de_ri_p, e'.de_ri_p]; exact h.de_ri_p j i
  · rw [e.de_ri, e'.de_ri]; exact h.de_ri j i
  · rw [e.de_ti_s, e'.de_ti_s]; exact h.de_ti_s j i
  · rw [e.de_ti_p, e'.de_ti_p]; exact h.de_ti_p j i
  · rw [e.de_ti, e'.de_ti]; exact h.de_ti j i

private theorem result_of_same {fx fy : ℕ} {r r₁ : Result fx fy} {y te tm} (hr : r = ⟨some y, some te, some tm⟩)
    (e : Spec.SameEfficiencies r r₁) : ∃ y₁ te₁ tm₁, r₁ = ⟨some y₁, some te₁, some tm₁⟩ ∧ Spec.SameEff y y₁ ∧ Spec.SameEff te te₁ ∧
      Spec.SameEff tm tm₁ := by
  subst hr
  obtain ⟨a, b, c⟩ := e
  rcases r₁ with ⟨x, y, z⟩
  cases a with
  | some a => cases b with
    | some b => cases c with
      | some c => exact ⟨_, _, _, rfl, a, b, c⟩

private theorem exchangedPsi_pi {ψ ψ' : ℂ} (h : Spec.ExchangedPsi ψ ψ') : Spec.ExchangedPsi (Real.pi - ψ) (Real.pi - ψ') := by
  obtain ⟨c, hc, h1, h2⟩ := h
  refine ⟨c, hc, ?_, ?_⟩
  · rw [Complex.sin_pi_sub, Complex.sin_pi_sub, h1]
  · rw [Complex.cos_pi_sub, Complex.cos_pi_sub, h2, mul_neg]

/-- **C79, JAX.** `C79_exchange_partial` holds for JAX solves. -/
theorem C79_jax_partial (env env' : Jax.Env) (s : Settings) (θ' ψ' : ℂ) (φ' : Option ℂ) (pol' : ℝ) (hr : Spec.JaxReady s)
    (u : Ucell) (hu : s.ucell = .raster u) (hsep : ∀ a ∈ u.layers, Spec.Separable a)
    (hi : Spec.RealIllumination s.p) (hi' : Spec.RealIllumination (Spec.exchangeAxes s u θ' φ' pol' ψ').p)
    (hd : Spec.ExchangedDirection s.p.theta s.p.phi θ' φ') (hp : s.p.use_pinv = false) (ha : s.algo = .tmm)
    (hg : gratingType s ≠ 0) (hg' : gratingType (Spec.exchangeAxes s u θ' φ' pol' ψ') ≠ 0)
    (sol : Solved s.p.fto.1 s.p.fto.2) (sol' : Solved s.p.fto.2 s.p.fto.1) (h : Jax.conv_solve env s = .ok sol)
    (h' : Jax.conv_solve env' (Spec.exchangeAxes s u θ' φ' pol' ψ') = .ok sol') :
    Spec.ExchangedResults (Spec.ExchangedPsi s.p.psi ψ') sol.result sol'.result := by
  have hr' := exchange_ready hu θ' ψ' φ' pol' hr
  exact C79_exchange_partial env.la env'.la s θ' ψ' φ' pol' u hu (hr.pixels u hu).1 (hr.pixels u hu).2 hsep hi hi' hd hp ha hg hg' sol sol'
    (C57_jax_to_numpy env s hr.pixels hr.ellipses hr.layers sol h)
    (C57_jax_to_numpy env' (Spec.exchangeAxes s u θ' φ' pol' ψ') hr'.pixels hr'.ellipses hr'.layers sol' h')

/-- **C79, PyTorch.** For problems that NumPy solves, in 2D with modes away from zero (see C40), PyTorch solves both problems and
their efficiencies are exchanged. -/
theorem C79_torch_partial (la la' : LinAlg) (s : Settings) (θ' ψ' : ℂ) (φ' : Option ℂ) (pol' : ℝ)
    (u : Ucell) (hu : s.ucell = .raster u) (hny : 0 < u.ny) (hnx : 0 < u.nx) (hsep : ∀ a ∈ u.layers, Spec.Separable a)
    (hd : Spec.ExchangedDirection s.p.theta s.p.phi θ' φ') (hp : s.p.use_pinv = false) (ha : s.algo = .tmm)
    (hg : gratingType s ≠ 0) (hg' : gratingType (Spec.exchangeAxes s u θ' φ' pol' ψ') ≠ 0)
    (sol : Solved s.p.fto.1 s.p.fto.2) (sol' : Solved s.p.fto.2 s.p.fto.1) (h : conv_solve la s = .ok sol)
    (h' : conv_solve la' (Spec.exchangeAxes s u θ' φ' pol' ψ') = .ok sol')
    (hr : Spec.TorchReady s sol) (hr' : Spec.TorchReady (Spec.exchangeAxes s u θ' φ' pol' ψ') sol') :
    ∃ (t : Solved s.p.fto.1 s.p.fto.2) (t' : Solved s.p.fto.2 s.p.fto.1), tConv_solve la s.torch = .ok t ∧
      tConv_solve la' (Spec.exchangeAxes s u θ' φ' pol' ψ').torch = .ok t' ∧
      Spec.ExchangedResults (Spec.ExchangedPsi s.p.psi ψ') t.result t'.result := by
  obtain ⟨n, t, hn, ht, e⟩ := torch_runs hr.claddings ha hr.azimuth h hr.modes
  obtain ⟨n', t', hn', ht', e'⟩ := torch_runs (s := Spec.exchangeAxes s u θ' φ' pol' ψ') hr'.claddings ha hr'.azimuth h' hr'.modes
  have hi : Spec.RealIllumination (Spec.withPsi s (torchPsi s s.p.psi)).p :=
    { hr.claddings.toRealIllumination with psi_real := torchPsi_real hr.claddings.psi_real }
  have hi' : Spec.RealIllumination (Spec.exchangeAxes (Spec.withPsi s (torchPsi s s.p.psi)) u θ' φ' pol'
      (torchPsi (Spec.exchangeAxes s u θ' φ' pol' ψ') ψ')).p :=
    { hr'.claddings.toRealIllumination with psi_real := torchPsi_real hr'.claddings.psi_real }
  obtain ⟨y, te, tm, y', te', tm', e1, e2, k1, k2, k3⟩ := C79_exchange_partial la la' (Spec.withPsi s (torchPsi s s.p.psi)) θ'
    (torchPsi (Spec.exchangeAxes s u θ' φ' pol' ψ') ψ') φ' pol' u hu hny hnx hsep hi hi' hd hp ha hg hg' n n' hn hn'
  obtain ⟨y₁, te₁, tm₁, f1, a1, a2, a3⟩ := result_of_same e1 e
  obtain ⟨y₁', te₁', tm₁', f2, b1, b2, b3⟩ := result_of_same e2 e'
  refine ⟨t, t', ht, ht', y₁, te₁, tm₁, y₁', te₁', tm₁', f1, f2, exchangedEff_of_same k1 a2 b2, exchangedEff_of_same k2 a3 b3, fun hs =>
    exchangedEff_of_same (k3 ?_) a1 b1⟩
  unfold torchPsi
  rw [if_neg hg, if_neg hg']
  exact exchangedPsi_pi hs

private theorem cell_modes_away {κ nb d : ℝ} (hκ : 0 < κ) (a : Fin 2 → Fin 2 → ℂ) (φ : ℝ)
    (h0 : Real.cos φ = 0 ∨ Real.sin φ = 0) (ex ey ez : ℝ)
    (hx : ((2 / (a 1 0 ^ 2 + a 0 0 ^ 2) + 2 / (a 1 1 ^ 2 + a 0 1 ^ 2)) / 2)⁻¹ = (ex : ℂ))
    (hy : (2 / (1 / a 1 0 ^ 2 + 1 / a 0 0 ^ 2) + 2 / (1 / a 1 1 ^ 2 + 1 / a 0 1 ^ 2)) / 2 = (ey : ℂ))
    (hz : ((a 1 0 ^ 2 + a 0 0 ^ 2) / 2 + (a 1 1 ^ 2 + a 0 1 ^ 2) / 2) / 2 = (ez : ℂ))
    (h1 : 1 / 10 ^ 20 ≤ |(κ * Real.sin φ) ^ 2 + ((κ * Real.cos φ) ^ 2 * ez⁻¹ - 1) * ex|)
    (h2 : 1 / 10 ^ 20 ≤ |(κ * Real.cos φ) ^ 2 + ((κ * Real.sin φ) ^ 2 * ez⁻¹ - 1) * ey|) {la : LinAlg} (hb : Spec.ReturnsBasis la)
    {sol} (h : conv_solve la (cellSettings a φ κ nb d) = .ok sol) : Spec.ModesAway sol := by
  rintro o rfl
  obtain ⟨cs, hcs, -, -, h4⟩ := conv_solve_twoD.mp h
  refine infos_away (p := (cellSettings a φ κ nb d).p) hb rfl (fun x hx' => ?_) h4
  have hx' := (List.of_mem_zip hx').1
  rw [cell_conv hcs hx hy hz, List.mem_singleton] at hx'
  have hi := cell_illumination (nb := nb) (d := d) hκ a φ
  rw [omega_spec, kxF_eq_kxOf hi, kyF_eq_kyOf hi, hx']
  have e := cell_modeMatrix (κ := κ) (nb := nb) (d := d) a φ h0 ex ey ez
  unfold Spec.modeMatrix at e
  rw [e]
  refine ⟨⟨1, _, by simp, by rw [Matrix.mul_one, Matrix.one_mul]⟩, fun l v hv h => ?_⟩
  obtain ⟨i, hi⟩ := Function.ne_iff.mp hv
  have hi' := congrFun h i
  rw [Matrix.mulVec_diagonal, Pi.smul_apply, smul_eq_mul] at hi'
  rw [← mul_right_cancel₀ hi hi']
  rcases i with i | i
  · refine h1.trans_eq ?_
    rw [Sum.elim_inl, Complex.norm_real, Real.norm_eq_abs]
  · refine h2.trans_eq ?_
    rw [Sum.elim_inr, Complex.norm_real, Real.norm_eq_abs]

/-- Stripes meet the hypotheses on JAX and PyTorch. -/
example (env : Jax.Env) (hb : Spec.ReturnsBasis env.la) (s s' : Settings) (hs : s = cellSettings stripes 0 (7 / 5) 3 (1 / 3))
    (hs' : s' = Spec.exchangeAxes s ⟨2, 2, [stripes]⟩ s.p.theta (some ((Real.pi / 2 : ℝ) : ℂ)) s.p.pol s.p.psi) :
    (∃ j j', Jax.conv_solve env s = .ok j ∧ Jax.conv_solve env s' = .ok j') ∧
    ∃ t t', tConv_solve exLA s.torch = .ok t ∧ tConv_solve exLA s'.torch = .ok t' := by
  have hκ : (0 : ℝ) < 7 / 5 := by norm_num
  rw [hs, cell_exchange] at hs'
  subst hs hs'
  have v : stripes 0 0 = 1 ∧ stripes 0 1 = 7 ∧ stripes 1 0 = 1 ∧ stripes 1 1 = 7 := by simp [stripes]
  obtain ⟨v1, v2, v3, v4⟩ := v
  have w : Spec.exchanged true stripes 0 0 = 7 ∧ Spec.exchanged true stripes 0 1 = 7 ∧ Spec.exchanged true stripes 1 0 = 1 ∧
      Spec.exchanged true stripes 1 1 = 1 := by simp [Spec.exchanged, stripes, Spec.revIdx]
  obtain ⟨w1, w2, w3, w4⟩ := w
  have s0 : Real.cos 0 = 0 ∨ Real.sin 0 = 0 := .inr Real.sin_zero
  have s1 : Real.cos (Real.pi / 2) = 0 ∨ Real.sin (Real.pi / 2) = 0 := .inl Real.cos_pi_div_two
  have x0 : ((2 / (stripes 1 0 ^ 2 + stripes 0 0 ^ 2) + 2 / (stripes 1 1 ^ 2 + stripes 0 1 ^ 2)) / 2)⁻¹ = ((49 / 25 : ℝ) : ℂ) := by
    rw [v1, v2, v3, v4]; norm_num
  have y0 : (2 / (1 / stripes 1 0 ^ 2 + 1 / stripes 0 0 ^ 2) + 2 / (1 / stripes 1 1 ^ 2 + 1 / stripes 0 1 ^ 2)) / 2 = ((25 : ℝ) : ℂ) := by
    rw [v1, v2, v3, v4]; norm_num
  have z0 : ((stripes 1 0 ^ 2 + stripes 0 0 ^ 2) / 2 + (stripes 1 1 ^ 2 + stripes 0 1 ^ 2) / 2) / 2 = ((25 : ℝ) : ℂ) := by
    rw [v1, v2, v3, v4]; norm_num
  generalize Spec.exchanged true stripes = e at *
  have x1 : ((2 / (e 1 0 ^ 2 + e 0 0 ^ 2) + 2 / (e 1 1 ^ 2 + e 0 1 ^ 2)) / 2)⁻¹ = ((25 : ℝ) : ℂ) := by
    rw [w1, w2, w3, w4]; norm_num
  have y1 : (2 / (1 / e 1 0 ^ 2 + 1 / e 0 0 ^ 2) + 2 / (1 / e 1 1 ^ 2 + 1 / e 0 1 ^ 2)) / 2 = ((49 / 25 : ℝ) : ℂ) := by
    rw [w1, w2, w3, w4]; norm_num
  have z1 : ((e 1 0 ^ 2 + e 0 0 ^ 2) / 2 + (e 1 1 ^ 2 + e 0 1 ^ 2) / 2) / 2 = ((25 : ℝ) : ℂ) := by
    rw [w1, w2, w3, w4]; norm_num
  have m0 : ∀ i j, Spec.OrdinaryMedium (stripes i j) := fun i j => ordinary_one_seven
  have m1 : ∀ i j, Spec.OrdinaryMedium (e i j) := by
    have key : Spec.OrdinaryMedium 1 ∧ Spec.OrdinaryMedium 7 := ⟨by simpa [v1] using m0 0 0, by simpa [v2] using m0 0 1⟩
    intro i j
    fin_cases i <;> fin_cases j <;> simp [w1, w2, w3, w4, key.1, key.2]
  obtain ⟨sol, h⟩ := (cell_solves (κ := 7 / 5) (nb := 3) (d := 1 / 3) hκ (by norm_num) (by norm_num) stripes 0
    m0 s0 (49 / 25) 25 25 (by norm_num) (by norm_num) x0 y0 z0).2 (fun h => by
      have := (cell_cutoff_iff stripes 0 s0 _ _ _).mp h
      rw [Real.sin_zero, Real.cos_zero] at this
      norm_num at this)
  obtain ⟨sol', h'⟩ := (cell_solves (κ := 7 / 5) (nb := 3) (d := 1 / 3) hκ (by norm_num) (by norm_num) e
    (Real.pi / 2) m1 s1 25 (49 / 25) 25 (by norm_num) (by norm_num) x1 y1 z1).2 (fun h => by
      have := (cell_cutoff_iff e _ s1 _ _ _).mp h
      rw [Real.sin_pi_div_two, Real.cos_pi_div_two] at this
      norm_num at this)
  have a0 : Spec.ModesAway sol := cell_modes_away hκ stripes 0 s0 _ _ _ x0 y0 z0 (by rw [Real.sin_zero, Real.cos_zero]; norm_num [abs_of_neg])
    (by rw [Real.sin_zero, Real.cos_zero]; norm_num [abs_of_neg]) exLA_basis h
  have a1 : Spec.ModesAway sol' := cell_modes_away hκ e _ s1 _ _ _ x1 y1 z1
    (by rw [Real.sin_pi_div_two, Real.cos_pi_div_two]; norm_num [abs_of_neg])
    (by rw [Real.sin_pi_div_two, Real.cos_pi_div_two]; norm_num [abs_of_neg]) exLA_basis h'
  have c : ∀ a φ, Spec.LosslessCladdings (cellSettings a φ (7 / 5) 3 (1 / 3)).p := fun a φ =>
    { cell_illumination hκ a φ with n_bot_real := Complex.ofReal_im _, n_bot_pos := by show 0 < ((3 : ℝ) : ℂ).re; rw [Complex.ofReal_re]; norm_num }
  obtain ⟨j, hj, -⟩ := C57_other_eig exLA env hb _ rfl _ h
  obtain ⟨j', hj', -⟩ := C57_other_eig exLA env hb _ rfl _ h'
  obtain ⟨-, t, -, ht, -⟩ := torch_runs (c _ _) rfl (fun hg => absurd hg (by simp [gratingType, cellSettings])) h a0
  obtain ⟨-, t', -, ht', -⟩ := torch_runs (c _ _) rfl (fun hg => absurd hg (by simp [gratingType, cellSettings])) h' a1
  exact ⟨⟨j, j', hj, hj'⟩, t, t', ht, ht'⟩

end Meent

#print axioms Meent.C79_jax_partial
#print axioms Meent.C79_torch_partial
