import Verif.Lemmas.Coatings
import Verif.Props.C61
import Verif.Props.C73

/-!
# C77: textbook coatings
-/

set_option linter.unusedSimpArgs false
set_option linter.unusedVariables false

open Matrix

namespace Meent

/-- `r` is the result of the problem on one of the three backends: on NumPy; on JAX, for structures it accepts; on PyTorch, for
problems that NumPy solves too (see C57 and C40). -/
inductive Spec.Calculated (s : Settings) : Result s.p.fto.1 s.p.fto.2 → Prop
  | numpy (la : LinAlg) (sol : Solved s.p.fto.1 s.p.fto.2) (h : conv_solve la s = .ok sol) : Spec.Calculated s sol.result
  | jax (env : Jax.Env) (sol : Solved s.p.fto.1 s.p.fto.2) (hr : Spec.JaxReady s) (h : Jax.conv_solve env s = .ok sol) :
      Spec.Calculated s sol.result
  | torch (la : LinAlg) (sol t : Solved s.p.fto.1 s.p.fto.2) (h : conv_solve la s = .ok sol) (hr : Spec.TorchReady s sol)
      (ht : tConv_solve la s.torch = .ok t) : Spec.Calculated s t.result

private theorem calculated {s : Settings} {films : List Spec.Film} {c₂ : ℂ} (h : Spec.FilmProblem s films c₂) (hp : s.p.use_pinv = false)
    (ha : s.algo = .tmm) {r} (hr : Spec.Calculated s r) : Spec.ThinFilmEfficiencies s.p films c₂ r := by
  cases hr with
  | numpy la sol hs => exact C73_efficiencies la s films c₂ h hp ha sol hs
  | jax env sol hr hs => exact (C73_jax env s films c₂ h hp ha hr sol hs).2
  | torch la sol t hs hr ht =>
    obtain ⟨t', ht', hf⟩ := C73_torch la s films c₂ h hp ha sol hs hr
    rw [ht] at ht'
    cases ht'
    exact hf

/-- One dictionary exactly for TE and TM calculations. -/
private theorem shape {s : Settings} (ha : s.algo = .tmm) {r} (hr : Spec.Calculated s r) :
    (gratingType s = 0 ∧ r.res_te_inc = none) ∨ (gratingType s ≠ 0 ∧ r.res_te_inc ≠ none) := by
  have key : ∀ {la : LinAlg} {s : Settings} {sol : Solved s.p.fto.1 s.p.fto.2}, s.algo = .tmm → conv_solve la s = .ok sol →
      (gratingType s = 0 ∧ sol.result.res_te_inc = none) ∨ (gratingType s ≠ 0 ∧ sol.result.res_te_inc ≠ none) := by
    intro la s sol ha hs
    rcases conv_solve_cases hs with ⟨h1, o, rfl⟩ | ⟨h1, ⟨o, rfl⟩ | rfl⟩ | ⟨h1, o, rfl⟩
    · exact .inl ⟨h1, rfl⟩
    · exact .inr ⟨by omega, by simp [Solved.result]⟩
    · obtain ⟨cs, -, h2⟩ := conv_solve_ok.mp hs
      have := (solve_for_conv_smm.mp h2).2
      rw [ha] at this
      cases this
    · exact .inr ⟨by omega, by simp [Solved.result]⟩
  cases hr with
  | numpy la sol hs => exact key ha hs
  | jax env sol hr hs => exact key ha (C57_jax_to_numpy env s hr.pixels hr.ellipses hr.layers sol hs)
  | torch la sol t hs hr ht =>
    obtain ⟨n, t', hn, ht', e⟩ := torch_runs hr.claddings ha hr.azimuth hs hr.modes
    rw [ht] at ht'
    cases ht'
    have hk := key (s := Spec.withPsi s (torchPsi s s.p.psi)) ha hn
    have hg : gratingType (Spec.withPsi s (torchPsi s s.p.psi)) = gratingType s := rfl
    rw [hg] at hk
    obtain ⟨-, h2, -⟩ := e
    rcases hk with ⟨h0, h1⟩ | ⟨h0, h1⟩
    · refine .inl ⟨h0, ?_⟩
      rw [h1] at h2
      generalize t.result.res_te_inc = o at h2
      cases h2; rfl
    · refine .inr ⟨h0, fun h3 => h1 ?_⟩
      rw [h3] at h2
      generalize n.result.res_te_inc = o at h2
      cases h2; rfl

/-- Shares of the power in s and p light. -/
private theorem powers {p : Params} {films : List Spec.Film} {c₂ : ℂ} {r : Result p.fto.1 p.fto.2}
    (h : Spec.ThinFilmEfficiencies p films c₂ r) {x} (hx : Spec.Reports r x) :
    ∃ a b : ℝ, a + b = 1 ∧ Spec.FilmEfficiencies p films c₂ a b x := by
  rcases h with ⟨y, rfl, ⟨-, h⟩ | ⟨-, h⟩⟩ | ⟨y, te, tm, rfl, h1, h2, h3⟩
  · rcases hx with hx | hx | hx <;> simp at hx
    subst hx
    exact ⟨1, 0, by norm_num, h⟩
  · rcases hx with hx | hx | hx <;> simp at hx
    subst hx
    exact ⟨0, 1, by norm_num, h⟩
  · rcases hx with hx | hx | hx <;> simp at hx <;> subst hx
    · exact ⟨_, _, Real.sin_sq_add_cos_sq _, h1⟩
    · exact ⟨1, 0, by norm_num, h2⟩
    · exact ⟨0, 1, by norm_num, h3⟩

private theorem only_zeroth {p : Params} {films : List Spec.Film} {c₂ : ℂ} {r : Result p.fto.1 p.fto.2}
    (h : Spec.ThinFilmEfficiencies p films c₂ r) {x} (hx : Spec.Reports r x) {R T : ℝ}
    (r1 : Spec.filmReflectance (p.n_top * Complex.cos p.theta) (p.n_bot * c₂) (Spec.stackMatrix (Spec.k0Of p) Spec.Film.teY films) = R)
    (r2 : Spec.filmReflectance (Complex.cos p.theta / p.n_top) (c₂ / p.n_bot) (Spec.stackMatrix (Spec.k0Of p) Spec.Film.tmY films) = R)
    (t1 : Spec.filmTransmittance (p.n_top * Complex.cos p.theta) (p.n_bot * c₂) (Spec.stackMatrix (Spec.k0Of p) Spec.Film.teY films) = T)
    (t2 : Spec.filmTransmittance (Complex.cos p.theta / p.n_top) (c₂ / p.n_bot) (Spec.stackMatrix (Spec.k0Of p) Spec.Film.tmY films) = T) :
    Spec.OnlyZeroth x R T := by
  obtain ⟨a, b, hab, hf⟩ := powers h hx
  intro j i
  rw [hf.de_ri, hf.de_ti, hf.de_ri_s, hf.de_ri_p, hf.de_ti_s, hf.de_ti_p, r1, r2, t1, t2]
  split_ifs
  · exact ⟨by rw [← add_mul, hab, one_mul], by rw [← add_mul, hab, one_mul]⟩
  · simp

private theorem same_formula {fx fy : ℕ} {p p' : Params} {films films' : List Spec.Film} {c₂ : ℂ} {a b : ℝ}
    {x : SubRes (2 * fy + 1) (2 * fx + 1)} (h : Spec.FilmEfficiencies p films c₂ a b x) (h1 : p'.n_top = p.n_top) (h2 : p'.n_bot = p.n_bot)
    (h3 : p'.theta = p.theta)
    (hM : ∀ Y : Spec.Film → ℂ, (Y = Spec.Film.teY ∨ Y = Spec.Film.tmY) → ∃ e : ℂ, ‖e‖ = 1 ∧
      Spec.stackMatrix (Spec.k0Of p) Y films = e • Spec.stackMatrix (Spec.k0Of p') Y films') :
    Spec.FilmEfficiencies p' films' c₂ a b x := by
  obtain ⟨e, he, hE⟩ := hM _ (.inl rfl)
  obtain ⟨e', he', hE'⟩ := hM _ (.inr rfl)
  obtain ⟨k1, k2, k3, k4, k5, k6⟩ := h
  rw [hE, reflectance_smul he] at k1
  rw [hE', reflectance_smul he'] at k2
  rw [hE, transmittance_smul he] at k3
  rw [hE', transmittance_smul he'] at k4
  refine ⟨?_, ?_, ?_, ?_, k5, k6⟩ <;> simp only [h1, h2, h3] <;> assumption

private theorem same_formulas {p : Params} {films films' : List Spec.Film} {c₂ : ℂ} {r : Result p.fto.1 p.fto.2}
    (h : Spec.ThinFilmEfficiencies p films c₂ r)
    (hM : ∀ Y : Spec.Film → ℂ, (Y = Spec.Film.teY ∨ Y = Spec.Film.tmY) → ∃ e : ℂ, ‖e‖ = 1 ∧
      Spec.stackMatrix (Spec.k0Of p) Y films = e • Spec.stackMatrix (Spec.k0Of p) Y films') :
    Spec.ThinFilmEfficiencies p films' c₂ r := by
  rcases h with ⟨y, rfl, ⟨h0, h⟩ | ⟨h0, h⟩⟩ | ⟨y, te, tm, rfl, h1, h2, h3⟩
  · exact .inl ⟨y, rfl, .inl ⟨h0, same_formula h rfl rfl rfl hM⟩⟩
  · exact .inl ⟨y, rfl, .inr ⟨h0, same_formula h rfl rfl rfl hM⟩⟩
  · exact .inr ⟨y, te, tm, rfl, same_formula h1 rfl rfl rfl hM, same_formula h2 rfl rfl rfl hM, same_formula h3 rfl rfl rfl hM⟩

private theorem forget {s : Settings} {u : Structure} {ths : List ℝ} {films : List Spec.Film} {c₂ : ℂ} {r : Result s.p.fto.1 s.p.fto.2}
    (h : Spec.ThinFilmEfficiencies (Spec.withLayers s u ths).p films c₂ r) : Spec.ThinFilmEfficiencies s.p films c₂ r := by
  have hM : ∀ Y : Spec.Film → ℂ, (Y = Spec.Film.teY ∨ Y = Spec.Film.tmY) → ∃ e : ℂ, ‖e‖ = 1 ∧
      Spec.stackMatrix (Spec.k0Of (Spec.withLayers s u ths).p) Y films = e • Spec.stackMatrix (Spec.k0Of s.p) Y films :=
    fun Y _ => ⟨1, norm_one, (one_smul _ _).symm⟩
  rcases h with ⟨y, rfl, ⟨h0, h⟩ | ⟨h0, h⟩⟩ | ⟨y, te, tm, rfl, h1, h2, h3⟩
  · exact .inl ⟨y, rfl, .inl ⟨h0, same_formula h rfl rfl rfl hM⟩⟩
  · exact .inl ⟨y, rfl, .inr ⟨h0, same_formula h rfl rfl rfl hM⟩⟩
  · exact .inr ⟨y, te, tm, rfl, same_formula h1 rfl rfl rfl hM, same_formula h2 rfl rfl rfl hM, same_formula h3 rfl rfl rfl hM⟩

private theorem same_eff {fx fy : ℕ} {p : Params} {films : List Spec.Film} {c₂ : ℂ} {a b : ℝ} {x y : SubRes (2 * fy + 1) (2 * fx + 1)}
    (h : Spec.FilmEfficiencies p films c₂ a b x) (h' : Spec.FilmEfficiencies p films c₂ a b y) : Spec.SameEff x y where
  de_ri_s := by funext j i; rw [h.de_ri_s, h'.de_ri_s]
  de_ri_p := by funext j i; rw [h.de_ri_p, h'.de_ri_p]
  de_ri := by funext j i; rw [h.de_ri, h'.de_ri, h.de_ri_s, h'.de_ri_s, h.de_ri_p, h'.de_ri_p]
  de_ti_s := by funext j i; rw [h.de_ti_s, h'.de_ti_s]
  de_ti_p := by funext j i; rw [h.de_ti_p, h'.de_ti_p]
  de_ti := by funext j i; rw [h.de_ti, h'.de_ti, h.de_ti_s, h'.de_ti_s, h.de_ti_p, h'.de_ti_p]

private theorem same_results {p : Params} {films : List Spec.Film} {c₂ : ℂ} {r r' : Result p.fto.1 p.fto.2}
    (h : Spec.ThinFilmEfficiencies p films c₂ r) (h' : Spec.ThinFilmEfficiencies p films c₂ r')
    (hn : r.res_te_inc = none ↔ r'.res_te_inc = none) : Spec.SameEfficiencies r r' := by
  rcases h with ⟨x, rfl, h⟩ | ⟨x, te, tm, rfl, h1, h2, h3⟩ <;> rcases h' with ⟨y, rfl, h'⟩ | ⟨y, te', tm', rfl, h1', h2', h3'⟩
  · refine ⟨.some ?_, .none, .none⟩
    rcases h with ⟨h0, h⟩ | ⟨h0, h⟩ <;> rcases h' with ⟨h0', h'⟩ | ⟨h0', h'⟩
    · exact same_eff h h'
    · rw [h0] at h0'; norm_num at h0'
    · rw [h0] at h0'; norm_num at h0'
    · exact same_eff h h'
  · simp at hn
  · simp at hn
  · exact ⟨.some (same_eff h1 h1'), .some (same_eff h2 h2'), .some (same_eff h3 h3')⟩

private theorem shapes {s : Settings} {u : Structure} {ths : List ℝ} (ha : s.algo = .tmm)
    (hg : gratingType (Spec.withLayers s u ths) = gratingType s) {r r' : Result s.p.fto.1 s.p.fto.2} (hr : Spec.Calculated s r)
    (hr' : Spec.Calculated (Spec.withLayers s u ths) r') : r'.res_te_inc = none ↔ r.res_te_inc = none := by
  rcases shape ha hr with ⟨h1, h2⟩ | ⟨h1, h2⟩ <;> rcases shape (s := Spec.withLayers s u ths) ha hr' with ⟨h3, h4⟩ | ⟨h3, h4⟩
  · exact ⟨fun _ => h2, fun _ => h4⟩
  · exact absurd (hg.trans h1) h3
  · exact absurd (hg.symm.trans h3) h1
  · exact ⟨fun h => absurd h h4, fun h => absurd h h2⟩

/-- **C77, absent layers.**  Leave a film out whose optical thickness is a whole number of half wavelengths: on any of the backends
the efficiencies are those of the thin-film formula without the film, and the same as those calculated, on any of the backends,
without it. -/
theorem C77_absentee (s : Settings) (A B : List Spec.Film) (f : Spec.Film) (c₂ : ℂ) (h : Spec.FilmProblem s (A ++ f :: B) c₂)
    (hp : s.p.use_pinv = false) (ha : s.algo = .tmm) (hf : Spec.HalfWave (Spec.k0Of s.p) f) (r : Result s.p.fto.1 s.p.fto.2)
    (hr : Spec.Calculated s r) :
    Spec.ThinFilmEfficiencies s.p (A ++ B) c₂ r ∧
    ∀ (u : Structure) (ths : List ℝ), Spec.FilmProblem (Spec.withLayers s u ths) (A ++ B) c₂ →
      gratingType (Spec.withLayers s u ths) = gratingType s →
      ∀ r' : Result s.p.fto.1 s.p.fto.2, Spec.Calculated (Spec.withLayers s u ths) r' → Spec.SameEfficiencies r' r := by
  have h1 : Spec.ThinFilmEfficiencies s.p (A ++ B) c₂ r := by
    obtain ⟨e, he, hE⟩ := stack_absentee hf A B
    exact same_formulas (calculated h hp ha hr) fun Y _ => ⟨e, he, hE Y⟩
  refine ⟨h1, fun u ths h' hg r' hr' => ?_⟩
  have h2 : Spec.ThinFilmEfficiencies s.p (A ++ B) c₂ r' := forget (calculated (s := Spec.withLayers s u ths) h' hp ha hr')
  exact same_results h2 h1 (shapes ha hg hr hr')

/-- **C77, interference order.**  Thickening a film by a whole number of half wavelengths (along the refracted direction) changes no
efficiency. -/
theorem C77_period (s : Settings) (A B : List Spec.Film) (f g : Spec.Film) (c₂ : ℂ) (h : Spec.FilmProblem s (A ++ f :: B) c₂)
    (hp : s.p.use_pinv = false) (ha : s.algo = .tmm) (hn : g.n = f.n) (hk : g.kz = f.kz)
    (hd : Spec.HalfWave (Spec.k0Of s.p) ⟨f.n, f.kz, g.d - f.d⟩) (r : Result s.p.fto.1 s.p.fto.2) (hr : Spec.Calculated s r)
    (u : Structure) (ths : List ℝ) (h' : Spec.FilmProblem (Spec.withLayers s u ths) (A ++ g :: B) c₂)
    (hg : gratingType (Spec.withLayers s u ths) = gratingType s) (r' : Result s.p.fto.1 s.p.fto.2)
    (hr' : Spec.Calculated (Spec.withLayers s u ths) r') : Spec.SameEfficiencies r' r := by
  have hf := h.refracts f (by simp)
  have h1 := calculated h hp ha hr
  have h2 : Spec.ThinFilmEfficiencies s.p (A ++ g :: B) c₂ r' := forget (calculated (s := Spec.withLayers s u ths) h' hp ha hr')
  obtain ⟨e, he, hE⟩ := half_wave hd
  refine same_results (same_formulas h2 fun Y hY => ⟨e, he, ?_⟩) h1 (shapes ha hg hr hr')
  have h0 : Y f ≠ 0 := by
    rcases hY with rfl | rfl
    · exact hf.kz_ne
    · exact div_ne_zero hf.kz_ne (pow_ne_zero _ hf.n_ne)
  have hgY : Y g = Y f := by rcases hY with rfl | rfl <;> simp [Spec.Film.teY, Spec.Film.tmY, hn, hk]
  have hgY' : Y ⟨f.n, f.kz, g.d - f.d⟩ = Y f := by rcases hY with rfl | rfl <;> simp [Spec.Film.teY, Spec.Film.tmY]
  rw [stack_append, stack_cons, film_add _ Y f g (g.d - f.d) h0 hgY hk (by ring) ⟨f.n, f.kz, g.d - f.d⟩ hgY' rfl rfl, hE, Matrix.smul_mul,
    Matrix.one_mul, Matrix.smul_mul, Matrix.mul_smul, stack_append, stack_cons]

/-! ### Normal incidence -/

private theorem normal_cos {s : Settings} {films : List Spec.Film} {c₂ : ℂ} (h : Spec.FilmProblem s films c₂) (hθ : s.p.theta = 0) : c₂ = 1 := by
  obtain ⟨h1, h2, h3⟩ := h.cosine
  rw [hθ] at h1
  simp only [Complex.zero_re, Real.sin_zero, mul_zero, zero_div, ne_eq, OfNat.ofNat_ne_zero, not_false_eq_true, zero_pow, sub_zero,
    Complex.ofReal_one] at h1
  have h4 : (c₂ - 1) * (c₂ + 1) = 0 := by linear_combination h1
  rcases mul_eq_zero.mp h4 with h | h
  · exact sub_eq_zero.mp h
  · rw [eq_neg_of_add_eq_zero_left h] at h2; norm_num at h2

private theorem normal_kz {s : Settings} {films : List Spec.Film} {c₂ : ℂ} (h : Spec.FilmProblem s films c₂) (hθ : s.p.theta = 0) {f : Spec.Film}
    (hf : f ∈ films) : f.kz ^ 2 = f.n ^ 2 := by
  rw [(h.refracts f hf).snell, hθ]; simp

private theorem kz_real {n : ℝ} {f : Spec.Film} (hn : f.n = n) (hk : f.kz ^ 2 = f.n ^ 2) : f.teY ^ 2 = ((n ^ 2 : ℝ) : ℂ) := by
  unfold Spec.Film.teY
  rw [hk, hn]; push_cast; rfl

private theorem tm_sq {n : ℝ} {f : Spec.Film} (hn : f.n = n) (h0 : n ≠ 0) (hk : f.kz ^ 2 = f.n ^ 2) :
    f.tmY ^ 2 = ((1 / n ^ 2 : ℝ) : ℂ) := by
  unfold Spec.Film.tmY
  have : (n : ℂ) ≠ 0 := by exact_mod_cast h0
  rw [div_pow, hk, hn]
  push_cast
  field_simp

/-- **C77, quarter-wave film.**  Light at normal incidence on one film of real index `n` whose optical thickness is an odd number of
quarter wavelengths: the textbook reflectance and transmittance, whatever the polarization. -/
theorem C77_quarter (s : Settings) (f : Spec.Film) (c₂ : ℂ) (h : Spec.FilmProblem s [f] c₂) (hp : s.p.use_pinv = false)
    (ha : s.algo = .tmm) (hθ : s.p.theta = 0) (n0 ns n : ℝ) (h0 : s.p.n_top = n0) (hs : s.p.n_bot = ns) (hn : f.n = n)
    (hf : Spec.QuarterWave (Spec.k0Of s.p) f) (r : Result s.p.fto.1 s.p.fto.2) (hr : Spec.Calculated s r) (x) (hx : Spec.Reports r x) :
    Spec.OnlyZeroth x (((n0 * ns - n ^ 2) / (n0 * ns + n ^ 2)) ^ 2) (4 * n0 * ns * n ^ 2 / (n0 * ns + n ^ 2) ^ 2) := by
  obtain rfl := normal_cos h hθ
  have hk := normal_kz h hθ (f := f) (by simp)
  have p0 : 0 < n0 := by have := h.n_top_pos; rwa [h0, Complex.ofReal_re] at this
  have ps : 0 < ns := by have := h.n_bot_pos; rwa [hs, Complex.ofReal_re] at this
  have hn0 : n ≠ 0 := by rintro rfl; exact (h.refracts f (by simp)).n_ne (by rw [hn]; simp)
  obtain ⟨e, he, hE⟩ := quarter_wave hf
  have hM : ∀ Y : Spec.Film → ℂ, Spec.stackMatrix (Spec.k0Of s.p) Y [f] = e • !![0, 1 / Y f; Y f, 0] := fun Y => by
    rw [stack_cons, hE]; simp [Spec.stackMatrix]
  have a1 : s.p.n_top * Complex.cos s.p.theta = ((n0 : ℝ) : ℂ) := by rw [h0, hθ]; simp
  have a2 : s.p.n_bot * 1 = ((ns : ℝ) : ℂ) := by rw [hs, mul_one]
  have a3 : Complex.cos s.p.theta / s.p.n_top = ((1 / n0 : ℝ) : ℂ) := by rw [h0, hθ]; simp
  have a4 : 1 / s.p.n_bot = ((1 / ns : ℝ) : ℂ) := by rw [hs]; simp
  have i0 : 0 < 1 / n0 := by positivity
  have is : 0 < 1 / ns := by positivity
  have q1 : 0 < n ^ 2 := by positivity
  have q2 : 0 < 1 / n ^ 2 := by positivity
  refine only_zeroth (calculated h hp ha hr) hx ?_ ?_ ?_ ?_
  · rw [a1, a2, hM, reflectance_smul he, quarter_reflectance p0 ps q1 (kz_real hn hk)]
  · rw [a3, a4, hM, reflectance_smul he, quarter_reflectance i0 is q2 (tm_sq hn hn0 hk)]
    have e1 : 1 / n0 * (1 / ns) - 1 / n ^ 2 = -(n0 * ns - n ^ 2) / (n0 * ns * n ^ 2) := by field_simp; ring
    have e2 : 1 / n0 * (1 / ns) + 1 / n ^ 2 = (n0 * ns + n ^ 2) / (n0 * ns * n ^ 2) := by field_simp; ring
    rw [e1, e2, div_div_div_cancel_right₀ (by positivity), neg_div, neg_sq]
  · rw [a1, a2, hM, transmittance_smul he, quarter_transmittance p0 ps q1 (kz_real hn hk)]
    ring
  · rw [a3, a4, hM, transmittance_smul he, quarter_transmittance i0 is q2 (tm_sq hn hn0 hk)]
    have e2 : 1 / n0 * (1 / ns) + 1 / n ^ 2 = (n0 * ns + n ^ 2) / (n0 * ns * n ^ 2) := by field_simp; ring
    have e3 : n0 * ns + n ^ 2 ≠ 0 := by positivity
    rw [e2]
    field_simp

/-- **C77, antireflection coating.**  A quarter-wave film whose index is the geometric mean of those of its neighbours reflects
nothing at normal incidence. -/
theorem C77_antireflection (s : Settings) (f : Spec.Film) (c₂ : ℂ) (h : Spec.FilmProblem s [f] c₂) (hp : s.p.use_pinv = false)
    (ha : s.algo = .tmm) (hθ : s.p.theta = 0) (n : ℝ) (hn : f.n = n) (hm : f.n ^ 2 = s.p.n_top * s.p.n_bot)
    (hf : Spec.QuarterWave (Spec.k0Of s.p) f) (r : Result s.p.fto.1 s.p.fto.2) (hr : Spec.Calculated s r) (x) (hx : Spec.Reports r x) :
    Spec.OnlyZeroth x 0 1 := by
  have h0 : s.p.n_top = s.p.n_top.re := Complex.ext rfl h.n_top_real
  have hs : s.p.n_bot = s.p.n_bot.re := Complex.ext rfl h.n_bot_real
  have hm' : n ^ 2 = s.p.n_top.re * s.p.n_bot.re := by
    rw [h0, hs, hn] at hm
    exact_mod_cast hm
  have := C77_quarter s f c₂ h hp ha hθ _ _ n h0 hs hn hf r hr x hx
  have p0 := h.n_top_pos
  have ps := h.n_bot_pos
  rw [hm', sub_self, zero_div, zero_pow two_ne_zero] at this
  convert this using 1
  field_simp
  norm_num

/-- **C77, mirror.**  `N` quarter-wave pairs of real indices `nH` and `nL` at normal incidence: the textbook reflectance. -/
theorem C77_mirror (s : Settings) (H L : Spec.Film) (N : ℕ) (c₂ : ℂ) (h : Spec.FilmProblem s (Spec.pairs H L N) c₂)
    (hp : s.p.use_pinv = false) (ha : s.algo = .tmm) (hθ : s.p.theta = 0) (n0 ns nH nL : ℝ) (h0 : s.p.n_top = n0)
    (hs : s.p.n_bot = ns) (hH : H.n = nH) (hL : L.n = nL) (pH : nH ≠ 0) (pL : nL ≠ 0)
    (qH : Spec.QuarterWave (Spec.k0Of s.p) H) (qL : Spec.QuarterWave (Spec.k0Of s.p) L) (r : Result s.p.fto.1 s.p.fto.2)
    (hr : Spec.Calculated s r) (x) (hx : Spec.Reports r x) :
    let g := (nH / nL) ^ (2 * N)
    Spec.OnlyZeroth x (((n0 - ns * g) / (n0 + ns * g)) ^ 2) (4 * n0 * ns * g / (n0 + ns * g) ^ 2) := by
  intro g
  obtain rfl := normal_cos h hθ
  have p0 : 0 < n0 := by have := h.n_top_pos; rwa [h0, Complex.ofReal_re] at this
  have ps : 0 < ns := by have := h.n_bot_pos; rwa [hs, Complex.ofReal_re] at this
  have pg : 0 < g := by
    show 0 < (nH / nL) ^ (2 * N)
    rw [pow_mul]
    have : nH / nL ≠ 0 := div_ne_zero pH pL
    positivity
  have a1 : s.p.n_top * Complex.cos s.p.theta = ((n0 : ℝ) : ℂ) := by rw [h0, hθ]; simp
  have a2 : s.p.n_bot * 1 = ((ns : ℝ) : ℂ) := by rw [hs, mul_one]
  have a3 : Complex.cos s.p.theta / s.p.n_top = ((1 / n0 : ℝ) : ℂ) := by rw [h0, hθ]; simp
  have a4 : 1 / s.p.n_bot = ((1 / ns : ℝ) : ℂ) := by rw [hs]; simp
  have i0 : 0 < 1 / n0 := by positivity
  have is : 0 < 1 / ns := by positivity
  have cH : (nH : ℂ) ≠ 0 := by exact_mod_cast pH
  have cL : (nL : ℂ) ≠ 0 := by exact_mod_cast pL
  obtain ⟨e, he, hE⟩ := pairs_matrix qH qL N
  -- everything is trivial without pairs; otherwise both films occur
  have hk : N = 0 ∨ (H.kz ^ 2 = H.n ^ 2 ∧ L.kz ^ 2 = L.n ^ 2) := by
    rcases N with _ | N
    · exact .inl rfl
    · have : Spec.pairs H L (N + 1) = H :: L :: Spec.pairs H L N := by simp [Spec.pairs, List.replicate_succ]
      rw [this] at h
      exact .inr ⟨normal_kz h hθ (by simp), normal_kz h hθ (by simp)⟩
  have ne : ∀ {f : Spec.Film} {n : ℝ}, f.n = n → n ≠ 0 → f.kz ^ 2 = f.n ^ 2 → f.kz ≠ 0 := by
    rintro f n hf hn hk h0
    rw [h0, hf] at hk
    exact hn (by exact_mod_cast (pow_eq_zero_iff two_ne_zero).mp (hk.symm.trans (zero_pow two_ne_zero)))
  have te1 : (L.teY / H.teY) ^ N * (H.teY / L.teY) ^ N = 1 := by
    rcases hk with rfl | ⟨k1, k2⟩
    · simp
    · have := ne hH pH k1
      have := ne hL pL k2
      unfold Spec.Film.teY
      rw [← mul_pow, div_mul_div_cancel₀ ‹H.kz ≠ 0›, div_self ‹L.kz ≠ 0›, one_pow]
  have te2 : ((H.teY / L.teY) ^ N) ^ 2 = (g : ℂ) := by
    show _ = (((nH / nL) ^ (2 * N) : ℝ) : ℂ)
    rcases hk with rfl | ⟨k1, k2⟩
    · simp
    · unfold Spec.Film.teY
      rw [← pow_mul, mul_comm N 2, pow_mul, div_pow, k1, k2, hH, hL, pow_mul]
      push_cast
      rw [← div_pow]
  have tm1 : (L.tmY / H.tmY) ^ N * (H.tmY / L.tmY) ^ N = 1 := by
    rcases hk with rfl | ⟨k1, k2⟩
    · simp
    · have b1 := ne hH pH k1
      have b2 := ne hL pL k2
      have c1 : H.tmY ≠ 0 := div_ne_zero b1 (pow_ne_zero _ (by rw [hH]; exact cH))
      have c2 : L.tmY ≠ 0 := div_ne_zero b2 (pow_ne_zero _ (by rw [hL]; exact cL))
      rw [← mul_pow, div_mul_div_cancel₀ c1, div_self c2, one_pow]
  have tm2 : ((H.tmY / L.tmY) ^ N) ^ 2 = ((1 / g : ℝ) : ℂ) := by
    show _ = ((1 / (nH / nL) ^ (2 * N) : ℝ) : ℂ)
    rcases hk with rfl | ⟨k1, k2⟩
    · simp
    · rw [← pow_mul, mul_comm N 2, pow_mul, div_pow, tm_sq hH pH k1, tm_sq hL pL k2, ← _root_.one_div_pow, pow_mul]
      push_cast
      congr 1
      field_simp
      rw [← mul_pow, div_mul_div_cancel₀ (pow_ne_zero _ cH), div_self (pow_ne_zero _ cL), one_pow]
  refine only_zeroth (calculated h hp ha hr) hx ?_ ?_ ?_ ?_
  · rw [a1, a2, hE, reflectance_smul he, mirror_reflectance p0 ps pg te1 te2, mul_comm g]
  · rw [a3, a4, hE, reflectance_smul he, mirror_reflectance i0 is (by positivity) tm1 tm2]
    have e1 : 1 / n0 - 1 / g * (1 / ns) = -(n0 - ns * g) / (n0 * ns * g) := by field_simp; ring
    have e2 : 1 / n0 + 1 / g * (1 / ns) = (n0 + ns * g) / (n0 * ns * g) := by field_simp; ring
    rw [e1, e2, div_div_div_cancel_right₀ (by positivity), neg_div, neg_sq]
  · rw [a1, a2, hE, transmittance_smul he, mirror_transmittance p0 ps pg te1 te2, mul_comm g]
    ring
  · rw [a3, a4, hE, transmittance_smul he, mirror_transmittance i0 is (by positivity) tm1 tm2]
    have e2 : 1 / n0 + 1 / g * (1 / ns) = (n0 + ns * g) / (n0 * ns * g) := by field_simp; ring
    have e3 : n0 + ns * g ≠ 0 := by positivity
    rw [e2]
    field_simp

/-- **C77, mirrors become perfect.**  With `nH > nL`, the reflectance of quarter-wave mirrors tends to one as pairs are added. -/
theorem C77_mirror_limit (n0 ns nH nL : ℝ) (p0 : 0 < n0) (ps : 0 < ns) (pL : 0 < nL) (hHL : nL < nH) (ε : ℝ) (hε : 0 < ε) :
    ∃ N₀, ∀ N ≥ N₀, ∀ (s : Settings) (H L : Spec.Film) (c₂ : ℂ), Spec.FilmProblem s (Spec.pairs H L N) c₂ → s.p.use_pinv = false →
      s.algo = .tmm → s.p.theta = 0 → s.p.n_top = n0 → s.p.n_bot = ns → H.n = nH → L.n = nL →
      Spec.QuarterWave (Spec.k0Of s.p) H → Spec.QuarterWave (Spec.k0Of s.p) L → ∀ r, Spec.Calculated s r → ∀ x, Spec.Reports r x →
      ∀ j i, Spec.rowOrder j = 0 → Spec.colOrder i = 0 → 1 - ε < x.de_ri j i := by
  have h1 : 1 < nH / nL := (one_lt_div pL).mpr hHL
  obtain ⟨N₀, hN⟩ := pow_unbounded_of_one_lt (4 * n0 / (ns * ε)) h1
  refine ⟨N₀, fun N hle s H L c₂ h hp ha hθ h0 hs hH hL qH qL r hr x hx j i hj hi => ?_⟩
  have := (C77_mirror s H L N c₂ h hp ha hθ n0 ns nH nL h0 hs hH hL (by linarith) pL.ne' qH qL r hr x hx j i).1
  rw [this, if_pos ⟨hj, hi⟩]
  set g := (nH / nL) ^ (2 * N) with hg
  have g1 : 4 * n0 / (ns * ε) < g := lt_of_lt_of_le hN (pow_le_pow_right₀ h1.le (by omega))
  have gp : 0 < g := by positivity
  have g2 : 4 * n0 < g * (ns * ε) := (div_lt_iff₀ (by positivity)).mp g1
  have hd : 0 < n0 + ns * g := by positivity
  have e : ((n0 - ns * g) / (n0 + ns * g)) ^ 2 = 1 - 4 * n0 * (ns * g) / (n0 + ns * g) ^ 2 := by field_simp; ring
  rw [e]
  have : 4 * n0 * (ns * g) / (n0 + ns * g) ^ 2 < ε := by
    rw [div_lt_iff₀ (by positivity)]
    have k1 : 4 * n0 * (ns * g) < g * (ns * ε) * (ns * g) := mul_lt_mul_of_pos_right g2 (by positivity)
    have k2 : 0 < ε * (n0 ^ 2 + 2 * n0 * (ns * g)) := by positivity
    nlinarith
  linarith

/-! ### Oblique incidence -/

/-- **C77, total reflection.**  Beyond the critical angle of the substrate a stack of transparent films reflects all light. -/
theorem C77_total (s : Settings) (films : List Spec.Film) (c₂ : ℂ) (h : Spec.FilmProblem s films c₂) (hp : s.p.use_pinv = false)
    (ha : s.algo = .tmm) (hn : ∀ f ∈ films, Spec.IsReal f.n) (hc : s.p.n_bot.re ≤ s.p.n_top.re * |Real.sin s.p.theta.re|)
    (r : Result s.p.fto.1 s.p.fto.2) (hr : Spec.Calculated s r) (x) (hx : Spec.Reports r x) : Spec.OnlyZeroth x 1 0 := by
  have hinc := RealIncidence.of_spec h.toRealIllumination
  have hb := h.n_bot_pos
  have ht := h.n_top_pos
  have hsin : s.p.n_top * Complex.sin s.p.theta = ((s.p.n_top.re * Real.sin s.p.theta.re : ℝ) : ℂ) := by
    rw [show s.p.theta = (s.p.theta.re : ℂ) from Complex.ext rfl h.theta_real, ← Complex.ofReal_sin,
      show s.p.n_top = (s.p.n_top.re : ℂ) from Complex.ext rfl h.n_top_real]
    simp
  have hcos : 0 < Real.cos s.p.theta.re := Real.cos_pos_of_mem_Ioo ⟨h.theta_lo, h.theta_hi⟩
  have y0 : s.p.n_top * Complex.cos s.p.theta = ((s.p.n_top.re * Real.cos s.p.theta.re : ℝ) : ℂ) := by
    rw [hinc.cos_eq, Complex.ofReal_mul, ← hinc.hn]
  have y1 : Complex.cos s.p.theta / s.p.n_top = ((Real.cos s.p.theta.re / s.p.n_top.re : ℝ) : ℂ) := by
    rw [hinc.cos_eq, Complex.ofReal_div, ← hinc.hn]
  have hnb : s.p.n_bot = (s.p.n_bot.re : ℂ) := Complex.ext rfl h.n_bot_real
  have hre : c₂.re = 0 := by
    obtain ⟨h1, h2, h3⟩ := h.cosine
    have e1 := congrArg Complex.re h1
    have e2 := congrArg Complex.im h1
    rw [Complex.ofReal_re] at e1
    rw [Complex.ofReal_im] at e2
    simp only [pow_two, Complex.mul_re, Complex.mul_im] at e1 e2
    have e3 : 1 ≤ (s.p.n_top.re * Real.sin s.p.theta.re / s.p.n_bot.re) ^ 2 := by
      rw [one_le_sq_iff_one_le_abs, abs_div, abs_mul, abs_of_pos ht, abs_of_pos hb, one_le_div hb]
      exact hc
    rw [← pow_two (s.p.n_top.re * _ / _)] at e1
    by_contra h0
    have h4 : c₂.im = 0 := by
      have : c₂.re * c₂.im = 0 := by linarith
      exact (mul_eq_zero.mp this).resolve_left h0
    rw [h4] at e1
    have : 0 < c₂.re * c₂.re := mul_self_pos.mpr h0
    linarith
  have hst : star c₂ = -c₂ := Complex.ext (by simp [hre]) (by simp)
  have s1 : star (s.p.n_bot * c₂) = -(s.p.n_bot * c₂) := by
    rw [star_mul, hst, hnb, show star ((s.p.n_bot.re : ℝ) : ℂ) = _ from Complex.conj_ofReal _]; ring
  have s2 : star (c₂ / s.p.n_bot) = -(c₂ / s.p.n_bot) := by
    rw [star_div₀, hst, hnb, show star ((s.p.n_bot.re : ℝ) : ℂ) = _ from Complex.conj_ofReal _]; ring
  have r1 : (s.p.n_bot * c₂).re = 0 := by rw [hnb, Complex.re_ofReal_mul, hre, mul_zero]
  have r2 : (c₂ / s.p.n_bot).re = 0 := by rw [hnb, Complex.div_ofReal_re, hre, zero_div]
  have hfilm : ∀ f ∈ films, ∃ σ : ℂ, (σ = 1 ∨ σ = -1) ∧ star f.kz = σ * f.kz := by
    intro f hf
    have hsn := (h.refracts f hf).snell
    rw [hsin, show f.n = (f.n.re : ℂ) from Complex.ext rfl (hn f hf)] at hsn
    have e2 := congrArg Complex.im hsn
    rw [← Complex.ofReal_pow, ← Complex.ofReal_pow, ← Complex.ofReal_sub, Complex.ofReal_im, pow_two, Complex.mul_im] at e2
    have : f.kz.re * f.kz.im = 0 := by linarith
    rcases mul_eq_zero.mp this with h0 | h0
    · exact ⟨-1, .inr rfl, Complex.ext (by simp [h0]) (by simp)⟩
    · exact ⟨1, .inl rfl, Complex.ext (by simp) (by simp [h0])⟩
  have mte : LosslessMatrix (Spec.stackMatrix (Spec.k0Of s.p) Spec.Film.teY films) := lossless_stack fun f hf => by
    obtain ⟨σ, hσ, hk⟩ := hfilm f hf
    exact lossless_film hσ hk hk (h.refracts f hf).kz_ne
  have mtm : LosslessMatrix (Spec.stackMatrix (Spec.k0Of s.p) Spec.Film.tmY films) := lossless_stack fun f hf => by
    obtain ⟨σ, hσ, hk⟩ := hfilm f hf
    refine lossless_film hσ hk ?_ (div_ne_zero (h.refracts f hf).kz_ne (pow_ne_zero _ (h.refracts f hf).n_ne))
    unfold Spec.Film.tmY
    rw [star_div₀, hk, star_pow, show f.n = (f.n.re : ℂ) from Complex.ext rfl (hn f hf),
      show star ((f.n.re : ℝ) : ℂ) = _ from Complex.conj_ofReal _]
    ring
  refine only_zeroth (calculated h hp ha hr) hx ?_ ?_ ?_ ?_
  · rw [y0]; exact total_reflectance mte (mul_pos ht hcos) s1
  · rw [y1]; exact total_reflectance mtm (div_pos hcos ht) s2
  · unfold Spec.filmTransmittance; rw [r1, zero_div, mul_zero]
  · unfold Spec.filmTransmittance; rw [r2, zero_div, mul_zero]

/-- **C77, Brewster's angle.**  At the angle with `tan θ = n_bot / n_top` a bare interface reflects no p-polarized light. -/
theorem C77_brewster (s : Settings) (c₂ : ℂ) (h : Spec.FilmProblem s [] c₂) (hp : s.p.use_pinv = false) (ha : s.algo = .tmm)
    (hB : s.p.n_top.re * Real.sin s.p.theta.re = s.p.n_bot.re * Real.cos s.p.theta.re)
    (r : Result s.p.fto.1 s.p.fto.2) (hr : Spec.Calculated s r) (x) (hx : Spec.Reports r x) : ∀ j i, x.de_ri_p j i = 0 := by
  have hinc := RealIncidence.of_spec h.toRealIllumination
  have hb := h.n_bot_pos
  have ht := h.n_top_pos
  have hcos : 0 < Real.cos s.p.theta.re := Real.cos_pos_of_mem_Ioo ⟨h.theta_lo, h.theta_hi⟩
  have hnb : s.p.n_bot = (s.p.n_bot.re : ℂ) := Complex.ext rfl h.n_bot_real
  have y1 : Complex.cos s.p.theta / s.p.n_top = ((Real.cos s.p.theta.re / s.p.n_top.re : ℝ) : ℂ) := by
    rw [hinc.cos_eq, Complex.ofReal_div, ← hinc.hn]
  have hsp : 0 < Real.sin s.p.theta.re := by
    have : 0 < s.p.n_top.re * Real.sin s.p.theta.re := by rw [hB]; positivity
    exact (pos_iff_pos_of_mul_pos this).mp ht
  have hc : c₂ = ((Real.sin s.p.theta.re : ℝ) : ℂ) := by
    obtain ⟨h1, h2, h3⟩ := h.cosine
    rw [hB, mul_div_cancel_left₀ _ hb.ne', show 1 - Real.cos s.p.theta.re ^ 2 = Real.sin s.p.theta.re ^ 2 by
      rw [Real.sin_sq]] at h1
    have h4 : (c₂ - (Real.sin s.p.theta.re : ℝ)) * (c₂ + (Real.sin s.p.theta.re : ℝ)) = 0 := by
      push_cast at h1 ⊢
      linear_combination h1
    rcases mul_eq_zero.mp h4 with h5 | h5
    · exact sub_eq_zero.mp h5
    · rw [eq_neg_of_add_eq_zero_left h5, Complex.neg_re, Complex.ofReal_re] at h2
      linarith
  have hy : c₂ / s.p.n_bot = ((Real.cos s.p.theta.re / s.p.n_top.re : ℝ) : ℂ) := by
    rw [hc, hnb, ← Complex.ofReal_div]
    congr 1
    field_simp
    linarith
  obtain ⟨a, b, -, hf⟩ := powers (calculated h hp ha hr) hx
  intro j i
  rw [hf.de_ri_p, y1, hy]
  simp [Spec.filmReflectance, Spec.filmR, Spec.stackMatrix]

/-! ### Non-vacuity -/

/-- Films of indices `n`, thicknesses `d` on a substrate of index `nb`, light of wavelength 1 from vacuum at angle `θ`. -/
noncomputable def coatSettings (pol : ℝ) (θ nt nb : ℝ) (nd : List (ℝ × ℝ)) : Settings where
  p := { exParams pol none with theta := (θ : ℂ), n_top := (nt : ℂ), n_bot := (nb : ℂ), thickness := nd.map Prod.snd }
  ucell := .raster (Spec.homogeneousRaster 1 1 (nd.map fun x => (x.1 : ℂ)))
  fourier_type := 1
  enhanced_dfs := true
  algo := .tmm

theorem coat_illumination {pol θ nt nb : ℝ} (hθ : -(Real.pi / 2) < θ ∧ θ < Real.pi / 2) (ht : 0 < nt) (nd : List (ℝ × ℝ)) :
    Spec.RealIllumination (coatSettings pol θ nt nb nd).p := by
  have h := (exSettings_lossless pol none (by simp)).toRealIllumination
  refine ⟨by simp [coatSettings, Spec.IsReal], by simpa [coatSettings] using ht, by simp [coatSettings, Spec.IsReal], ?_, ?_, h.phi_real,
    h.psi_real, h.wavelength_pos, h.period_x_pos, h.period_y_pos⟩
  · simpa [coatSettings] using hθ.1
  · simpa [coatSettings] using hθ.2

/-- Films of positive index are solved in TE and TM when the refracted light propagates in the substrate and grazes in no film. -/
theorem coat_ok {pol θ nt nb : ℝ} (hpol : pol = 0 ∨ pol = 1) (hθ : -(Real.pi / 2) < θ ∧ θ < Real.pi / 2) (ht : 0 < nt)
    {nd : List (ℝ × ℝ)} (hnd : ∀ x ∈ nd, 0 < x.1 ∧ 0 < x.2) (hb : (nt * Real.sin θ) ^ 2 < nb ^ 2)
    (hg : ∀ x ∈ nd, (nt * Real.sin θ) ^ 2 ≠ x.1 ^ 2) : ∃ r, Spec.Calculated (coatSettings pol θ nt nb nd) r := by
  have hk : ∀ i, Spec.kxOf (coatSettings pol θ nt nb nd).p i = ((nt * Real.sin θ : ℝ) : ℂ) := by
    intro i
    unfold Spec.kxOf
    simp [coatSettings, exParams, Nat.mod_one]
  obtain ⟨o, ho⟩ := C61_films exLA exLA_basis (coatSettings pol θ nt nb nd) 1 (nd.map fun x => (x.1 : ℂ)) rfl rfl
    (by simp [gratingType, coatSettings, exParams, hpol, Spec.homogeneousRaster]) {
      toRealIllumination := coat_illumination hθ ht nd
      raster := rfl
      columns := one_pos
      coefficients := .inl rfl
      media := by
        intro l hl i j
        obtain ⟨n, hn, rfl⟩ := List.mem_map.mp hl
        obtain ⟨x, hx, rfl⟩ := List.mem_map.mp hn
        simpa [Spec.OrdinaryMedium] using (hnd x hx).1
      thickness_pos := by
        intro d hd
        obtain ⟨x, hx, rfl⟩ := List.mem_map.mp hd
        exact (hnd x hx).2
      layers_enough := by simp [coatSettings, Spec.homogeneousRaster] } (by simp [coatSettings, Spec.IsReal])
    (.inr fun i => by
      have hi : Spec.colOrder i = 0 := by
        have := i.isLt
        simp only [coatSettings, exParams] at this
        simp only [Spec.colOrder, coatSettings, exParams]
        omega
      rw [hi]
      simpa [Spec.inPlaneSq, Spec.orderKx, Spec.orderKy, coatSettings, exParams] using hb)
    (fun n hn _ i => by
      obtain ⟨x, hx, rfl⟩ := List.mem_map.mp hn
      rw [hk i]
      exact_mod_cast hg x hx)
  exact ⟨_, .numpy exLA _ ho⟩

/-- At normal incidence the thin films of the problem are those of the list. -/
def normalFilms (nd : List (ℝ × ℝ)) : List Spec.Film := nd.map fun x => ⟨(x.1 : ℂ), (x.1 : ℂ), x.2⟩

theorem coat_films {pol nt nb : ℝ} (ht : 0 < nt) (hb : 0 < nb) {nd : List (ℝ × ℝ)} (hnd : ∀ x ∈ nd, 0 < x.1 ∧ 0 < x.2) :
    Spec.FilmProblem (coatSettings pol 0 nt nb nd) (normalFilms nd) 1 where
  toRealIllumination := coat_illumination ⟨by have := Real.pi_pos; linarith, by have := Real.pi_pos; linarith⟩ ht nd
  n_bot_real := by simp [coatSettings, Spec.IsReal]
  n_bot_pos := by simpa [coatSettings] using hb
  layers := by
    refine ⟨one_pos, one_pos, ?_⟩
    show List.Forall₂ (fun (l : Fin 1 → Fin 1 → ℂ) (f : Spec.Film) => ∀ i j, l i j = f.n)
      ((nd.map fun x => (x.1 : ℂ)).map fun n _ _ => n) (nd.map _)
    rw [List.map_map, List.forall₂_map_left_iff, List.forall₂_map_right_iff, List.forall₂_same]
    intro x _ i j
    rfl
  thickness := by simp [coatSettings, normalFilms, Function.comp_def]
  refracts := by
    intro f hf
    obtain ⟨x, hx, rfl⟩ := List.mem_map.mp hf
    have : (x.1 : ℂ) ≠ 0 := by exact_mod_cast (hnd x hx).1.ne'
    exact ⟨this, this, by simp [coatSettings]⟩
  cosine := by simp [Spec.RefractionCos, coatSettings]

theorem coat_k0 (pol θ nt nb : ℝ) (nd : List (ℝ × ℝ)) : Spec.k0Of (coatSettings pol θ nt nb nd).p = 2 * Real.pi := by
  simp [Spec.k0Of, coatSettings, exParams]

theorem coat_quarter {n : ℝ} (hn : n ≠ 0) : Spec.QuarterWave (2 * Real.pi) ⟨(n : ℂ), (n : ℂ), 1 / (4 * n)⟩ := by
  refine ⟨0, ?_⟩
  have : (n : ℂ) ≠ 0 := by exact_mod_cast hn
  push_cast
  field_simp
  ring

/-- A quarter-wave film of index 2 on a substrate of index 4: calculated, and free of reflection. -/
example (pol : ℝ) (hpol : pol = 0 ∨ pol = 1) : ∃ r, Spec.Calculated (coatSettings pol 0 1 4 [(2, 1 / (4 * 2))]) r ∧
    ∀ x, Spec.Reports r x → Spec.OnlyZeroth x 0 1 := by
  have hp := Real.pi_pos
  have hnd : ∀ x ∈ [((2 : ℝ), (1 / (4 * 2) : ℝ))], 0 < x.1 ∧ 0 < x.2 := by simp
  obtain ⟨r, hr⟩ := coat_ok (θ := 0) (nt := 1) (nb := 4) hpol ⟨by linarith, by linarith⟩ one_pos hnd (by norm_num) (by simp; norm_num)
  refine ⟨r, hr, fun x hx => ?_⟩
  exact C77_antireflection _ ⟨((2 : ℝ) : ℂ), ((2 : ℝ) : ℂ), 1 / (4 * 2)⟩ 1 (coat_films one_pos (by norm_num) hnd) rfl rfl
    (by simp [coatSettings]) 2 rfl (by simp [coatSettings]; norm_num) (by rw [coat_k0]; exact coat_quarter (by norm_num)) r hr x hx

/-- Mirrors of any number of pairs meet the hypotheses of `C77_mirror`, with indices 2 and 3/2 on a substrate of index 3/2. -/
example (pol : ℝ) (hpol : pol = 0 ∨ pol = 1) (N : ℕ) : ∃ s r c₂, Spec.Calculated s r ∧
    Spec.FilmProblem s (Spec.pairs ⟨((2 : ℝ) : ℂ), ((2 : ℝ) : ℂ), 1 / (4 * 2)⟩ ⟨((3 / 2 : ℝ) : ℂ), ((3 / 2 : ℝ) : ℂ), 1 / (4 * (3 / 2))⟩ N) c₂ ∧
    Spec.QuarterWave (Spec.k0Of s.p) ⟨((2 : ℝ) : ℂ), ((2 : ℝ) : ℂ), 1 / (4 * 2)⟩ ∧
    Spec.QuarterWave (Spec.k0Of s.p) ⟨((3 / 2 : ℝ) : ℂ), ((3 / 2 : ℝ) : ℂ), 1 / (4 * (3 / 2))⟩ := by
  have hp := Real.pi_pos
  let nd : List (ℝ × ℝ) := (List.replicate N [((2 : ℝ), (1 / (4 * 2) : ℝ)), ((3 / 2 : ℝ), (1 / (4 * (3 / 2)) : ℝ))]).flatten
  have hm : ∀ x ∈ nd, x = (2, 1 / (4 * 2)) ∨ x = (3 / 2, 1 / (4 * (3 / 2))) := by
    intro x hx
    obtain ⟨l, hl, hx⟩ := List.mem_flatten.mp hx
    rw [List.eq_of_mem_replicate hl] at hx
    simpa using hx
  have hnd : ∀ x ∈ nd, 0 < x.1 ∧ 0 < x.2 := by
    intro x hx
    rcases hm x hx with rfl | rfl <;> norm_num
  have hg : ∀ x ∈ nd, ((1 : ℝ) * Real.sin 0) ^ 2 ≠ x.1 ^ 2 := by
    intro x hx
    have := (hnd x hx).1
    rw [Real.sin_zero, mul_zero, zero_pow two_ne_zero]
    positivity
  obtain ⟨r, hr⟩ := coat_ok (θ := 0) (nt := 1) (nb := 3 / 2) hpol ⟨by linarith, by linarith⟩ one_pos hnd (by norm_num) hg
  have hf : normalFilms nd
      = Spec.pairs ⟨((2 : ℝ) : ℂ), ((2 : ℝ) : ℂ), 1 / (4 * 2)⟩ ⟨((3 / 2 : ℝ) : ℂ), ((3 / 2 : ℝ) : ℂ), 1 / (4 * (3 / 2))⟩ N := by
    simp only [normalFilms, nd, Spec.pairs, List.map_flatten, List.map_replicate, List.map_cons, List.map_nil]
  have hF := coat_films (pol := pol) (nt := 1) (nb := 3 / 2) one_pos (by norm_num) hnd
  rw [hf] at hF
  exact ⟨_, r, 1, hr, hF, by rw [coat_k0]; exact coat_quarter (by norm_num), by rw [coat_k0]; exact coat_quarter (by norm_num)⟩

/-- A half-wave film of index 2 on a film of index 3 is absent; the thinner problem is solved as well. -/
example (pol : ℝ) (hpol : pol = 0 ∨ pol = 1) : ∃ r r', Spec.Calculated (coatSettings pol 0 1 4 [(2, 1 / 4), (3, 1 / 5)]) r ∧
    Spec.Calculated (coatSettings pol 0 1 4 [(3, 1 / 5)]) r' ∧ Spec.SameEfficiencies r' r := by
  have hp := Real.pi_pos
  have hnd : ∀ x ∈ [((2 : ℝ), (1 / 4 : ℝ)), ((3 : ℝ), (1 / 5 : ℝ))], 0 < x.1 ∧ 0 < x.2 := by simp
  have hnd' : ∀ x ∈ [((3 : ℝ), (1 / 5 : ℝ))], 0 < x.1 ∧ 0 < x.2 := by simp
  obtain ⟨r, hr⟩ := coat_ok (θ := 0) (nt := 1) (nb := 4) hpol ⟨by linarith, by linarith⟩ one_pos hnd (by norm_num) (by simp; norm_num)
  obtain ⟨r', hr'⟩ := coat_ok (θ := 0) (nt := 1) (nb := 4) hpol ⟨by linarith, by linarith⟩ one_pos hnd' (by norm_num) (by simp; norm_num)
  refine ⟨r, r', hr, hr', ?_⟩
  refine (C77_absentee _ [] [⟨((3 : ℝ) : ℂ), ((3 : ℝ) : ℂ), 1 / 5⟩] ⟨((2 : ℝ) : ℂ), ((2 : ℝ) : ℂ), 1 / 4⟩ 1
    (coat_films one_pos (by norm_num) hnd) rfl rfl ?_ r hr).2
    (.raster (Spec.homogeneousRaster 1 1 [((3 : ℝ) : ℂ)])) [1 / 5] (coat_films one_pos (by norm_num) hnd') ?_ r' hr'
  · rw [coat_k0]
    exact ⟨1, by push_cast; ring⟩
  · simp [gratingType, coatSettings, Spec.withLayers, Spec.homogeneousRaster]

/-- At Brewster's angle of an interface between indices 1 and √3, which is 60°. -/
example (pol : ℝ) (hpol : pol = 0 ∨ pol = 1) : ∃ r, Spec.Calculated (coatSettings pol (Real.pi / 3) 1 (Real.sqrt 3) []) r ∧
    ∀ x, Spec.Reports r x → ∀ j i, x.de_ri_p j i = 0 := by
  have hp := Real.pi_pos
  have h3 : (Real.sqrt 3) ^ 2 = 3 := Real.sq_sqrt (by norm_num)
  have hθ : -(Real.pi / 2) < Real.pi / 3 ∧ Real.pi / 3 < Real.pi / 2 := ⟨by linarith, by linarith⟩
  obtain ⟨r, hr⟩ := coat_ok (nt := 1) (nb := Real.sqrt 3) (nd := []) hpol hθ one_pos (by simp)
    (by rw [one_mul, Real.sin_pi_div_three, div_pow, h3]; norm_num) (by simp)
  have hF : Spec.FilmProblem (coatSettings pol (Real.pi / 3) 1 (Real.sqrt 3) []) [] ((Real.sqrt 3 / 2 : ℝ) : ℂ) := {
    toRealIllumination := coat_illumination hθ one_pos []
    n_bot_real := by simp [coatSettings, Spec.IsReal]
    n_bot_pos := by simp [coatSettings]
    layers := ⟨one_pos, one_pos, .nil⟩
    thickness := rfl
    refracts := by simp
    cosine := by
      refine ⟨?_, by rw [Complex.ofReal_re]; positivity, by simp⟩
      rw [← Complex.ofReal_pow]
      congr 1
      simp only [coatSettings, Complex.ofReal_re, Real.sin_pi_div_three, one_mul]
      rw [div_pow, div_pow, div_pow, h3]
      norm_num }
  refine ⟨r, hr, fun x hx => C77_brewster _ _ hF rfl rfl ?_ r hr x hx⟩
  simp [coatSettings, Real.sin_pi_div_three, Real.cos_pi_div_three]
  ring

/-- Index 2 over index 3/5 at 30°, any polarization angle, solved as a conical problem: all light is reflected. -/
example (la : LinAlg) (pol : ℝ) : ∃ r, Spec.Calculated (bareSettings (3 / 5 : ℝ) pol (some 0)) r ∧
    ∀ x, Spec.Reports r x → Spec.OnlyZeroth x 1 0 := by
  obtain ⟨o, ho⟩ := bareSettings_con_ok la (3 / 5) (by norm_num) pol
  have hr : Spec.Calculated (bareSettings (3 / 5 : ℝ) pol (some 0)) _ := .numpy la _ ho
  refine ⟨_, hr, fun x hx => C77_total _ [] ⟨0, -(4 / 3)⟩ {
    toRealIllumination := bareSettings_illumination _ pol (some 0) (by intro φ h; cases h; simp [Spec.IsReal])
    n_bot_real := by simp [bareSettings, Spec.IsReal]
    n_bot_pos := by simp [bareSettings]
    layers := ⟨one_pos, one_pos, .nil⟩
    thickness := rfl
    refracts := by simp
    cosine := by
      refine ⟨?_, le_refl _, by norm_num⟩
      simp only [bareSettings, Complex.ofReal_re, Real.sin_pi_div_six]
      apply Complex.ext <;> simp [pow_two] <;> norm_num } rfl rfl (by simp) ?_ _ hr x hx⟩
  simp only [bareSettings, Complex.ofReal_re, Real.sin_pi_div_six]
  norm_num [abs_of_pos]

end Meent

#print axioms Meent.C77_absentee
#print axioms Meent.C77_period
#print axioms Meent.C77_quarter
#print axioms Meent.C77_antireflection
#print axioms Meent.C77_mirror
#print axioms Meent.C77_mirror_limit
#print axioms Meent.C77_total
#print axioms Meent.C77_brewster
