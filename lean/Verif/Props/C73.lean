import Verif.Lemmas.ThinFilm
import Verif.Props.C56
import Verif.Props.C72

/-!
# C73: planar multilayers obey the thin-film formula

When every layer is homogeneous, the amplitudes and efficiencies are those of the characteristic-matrix (Abelès) formula of thin-film
optics, for any number of films, absorbing or not, of any thickness, any truncation order, direction and polarization.
-/

open Matrix

set_option linter.unusedVariables false

namespace Meent

private theorem scalar_films {la : LinAlg} {s : Settings} {films : List Spec.Film} {c₂ : ℂ} (h : Spec.FilmProblem s films c₂)
    {cs : List (Conv (FlatIdx s.p.fto.1 s.p.fto.2))} (hc : convMats la s = .ok cs) : cs = films.map fun f => filmConv _ f.n :=
  convMats_films h.layers (fun f hf => (h.refracts f hf).n_ne) h.period_x_pos.ne' h.period_y_pos.ne' hc

private theorem amplitudes_of {la : LinAlg} {s : Settings} {films : List Spec.Film} {c₂ : ℂ} (h : Spec.FilmProblem s films c₂)
    (hp : s.p.use_pinv = false) {sol : Solved s.p.fto.1 s.p.fto.2} (hs : conv_solve la s = .ok sol) {x} (hx : Spec.Reports sol.result x)
    {e m : ℂ}
    (h1 : x.R_s (ctr _) (ctr _) = e * Spec.filmR (s.p.n_top * Complex.cos s.p.theta) (s.p.n_bot * c₂)
      (Spec.stackMatrix (Spec.k0Of s.p) Spec.Film.teY films))
    (h2 : x.R_p (ctr _) (ctr _) = m * Spec.filmR (Complex.cos s.p.theta / s.p.n_top) (c₂ / s.p.n_bot)
      (Spec.stackMatrix (Spec.k0Of s.p) Spec.Film.tmY films))
    (h3 : x.T_s (ctr _) (ctr _) = e * Spec.filmT (s.p.n_top * Complex.cos s.p.theta) (s.p.n_bot * c₂)
      (Spec.stackMatrix (Spec.k0Of s.p) Spec.Film.teY films))
    (h4 : x.T_p (ctr _) (ctr _) = m * Spec.filmT (Complex.cos s.p.theta / s.p.n_top) (c₂ / s.p.n_bot)
      (Spec.stackMatrix (Spec.k0Of s.p) Spec.Film.tmY films)) : Spec.FilmAmplitudes s.p films c₂ e m x := by
  have hz : ∀ j i, ¬(Spec.rowOrder j = 0 ∧ Spec.colOrder i = 0) → x.R_s j i = 0 ∧ x.R_p j i = 0 ∧ x.T_s j i = 0 ∧ x.T_p j i = 0 :=
    fun j i hji => flat_zero hp (fun cs hcs c hc => by
      rw [scalar_films h hcs] at hc
      obtain ⟨f, -, rfl⟩ := List.mem_map.mp hc
      exact ⟨_, _, _, rfl⟩) hs hx (by rw [deltaI0_order, if_neg (fun hh => hji hh.symm)])
  constructor <;> intro j i <;> split_ifs with hji
  · rw [rowOrder_zero.mp hji.1, colOrder_zero.mp hji.2]; exact h1
  · exact (hz j i hji).1
  · rw [rowOrder_zero.mp hji.1, colOrder_zero.mp hji.2]; exact h2
  · exact (hz j i hji).2.1
  · rw [rowOrder_zero.mp hji.1, colOrder_zero.mp hji.2]; exact h3
  · exact (hz j i hji).2.2.1
  · rw [rowOrder_zero.mp hji.1, colOrder_zero.mp hji.2]; exact h4
  · exact (hz j i hji).2.2.2

private theorem three_amplitudes {la : LinAlg} {s : Settings} {films : List Spec.Film} {c₂ : ℂ} (h : Spec.FilmProblem s films c₂)
    (hp : s.p.use_pinv = false) {sol : Solved s.p.fto.1 s.p.fto.2} (hs : conv_solve la s = .ok sol) {y te tm}
    (hr : sol.result = ⟨some y, some te, some tm⟩) {cs} (hc : convMats la s = .ok cs)
    (hu : ∀ i ∈ Spec.selectedInputs s.p.psi y te tm (true, true, true),
      ∀ r, (∃ fs, Spec.Diffraction s.p cs i.1 r fs) ↔ Spec.SameAmplitudes r i.2) : Spec.ThinFilmAmplitudes s.p films c₂ sol.result := by
  obtain rfl := scalar_films h hc
  have hsol : ∀ i ∈ Spec.selectedInputs s.p.psi y te tm (true, true, true), ∃ fs, Spec.Diffraction s.p _ i.1 i.2 fs :=
    fun i hi => (hu i hi i.2).mpr ⟨rfl, rfl, rfl, rfl⟩
  simp only [Spec.selectedInputs, if_true, List.cons_append, List.nil_append, List.mem_cons, List.not_mem_nil, or_false,
    forall_eq_or_imp, forall_eq] at hsol
  obtain ⟨⟨_, d0⟩, ⟨_, d1⟩, ⟨_, d2⟩⟩ := hsol
  have hI : Complex.I * Complex.I = -1 := Complex.I_mul_I
  have hs1 : Complex.sin ((Real.pi / 2 : ℝ) : ℂ) = 1 := by rw [← Complex.ofReal_sin, Real.sin_pi_div_two, Complex.ofReal_one]
  have hc1 : Complex.cos ((Real.pi / 2 : ℝ) : ℂ) = 0 := by rw [← Complex.ofReal_cos, Real.cos_pi_div_two, Complex.ofReal_zero]
  obtain ⟨a0, b0⟩ := films_2d h d0
  obtain ⟨a1, b1⟩ := films_2d h d1
  obtain ⟨a2, b2⟩ := films_2d h d2
  have den1 : filmDen (s.p.n_top * Complex.cos s.p.theta) (s.p.n_bot * c₂) (Spec.stackMatrix (Spec.k0Of s.p) Spec.Film.teY films) ≠ 0 := by
    intro h0
    have := film_den a1
    rw [h0, hs1, zero_mul] at this
    simp [h.n_top_ne, h.cos_ne] at this
  have den2 : filmDen (Complex.cos s.p.theta / s.p.n_top) (c₂ / s.p.n_bot) (Spec.stackMatrix (Spec.k0Of s.p) Spec.Film.tmY films) ≠ 0 := by
    intro h0
    have := film_den b2
    rw [h0, Complex.cos_zero, zero_mul] at this
    simp [h.n_top_ne, h.cos_ne] at this
  have turn : ∀ {z w v : ℂ}, -Complex.I * z = s.p.n_top * w * v → z = Complex.I * s.p.n_top * w * v := by
    intro z w v hz
    linear_combination Complex.I * hz + z * hI
  obtain ⟨r0, t0⟩ := film_solve a0 den1
  obtain ⟨r1, t1⟩ := film_solve a1 den1
  obtain ⟨r2, t2⟩ := film_solve a2 den1
  obtain ⟨R0, T0⟩ := film_solve b0 den2
  obtain ⟨R1, T1⟩ := film_solve b1 den2
  obtain ⟨R2, T2⟩ := film_solve b2 den2
  rw [hs1] at r1 t1
  rw [Complex.sin_zero] at r2 t2
  have R1 := turn R1; have T1 := turn T1; have R2 := turn R2; have T2 := turn T2
  rw [hc1, mul_zero] at R1 T1
  rw [Complex.cos_zero, mul_one] at R2 T2
  exact Or.inr ⟨y, te, tm, hr, amplitudes_of h hp hs (.inl (by rw [hr])) r0 (turn R0) t0 (turn T0),
    amplitudes_of h hp hs (.inr (.inl (by rw [hr]))) r1 R1 t1 T1,
    amplitudes_of h hp hs (.inr (.inr (by rw [hr]))) r2 R2 t2 T2⟩

/-- **C73, amplitudes.**  The amplitudes of a stack of films are those of the thin-film formula in every formulation: TE, TM, conical and
2D, raster or vector. -/
theorem C73_amplitudes (la : LinAlg) (s : Settings) (films : List Spec.Film) (c₂ : ℂ) (h : Spec.FilmProblem s films c₂)
    (hp : s.p.use_pinv = false) (ha : s.algo = .tmm) (sol : Solved s.p.fto.1 s.p.fto.2) (hs : conv_solve la s = .ok sol) :
    Spec.ThinFilmAmplitudes s.p films c₂ sol.result := by
  obtain ⟨cs, hc, hu⟩ := C49_unique la s hp ha h.n_top_ne sol hs
  cases sol with
  | conicalSmm => exact hu.elim
  | conical o => exact three_amplitudes h hp hs rfl hc hu
  | twoD o => exact three_amplitudes h hp hs rfl hc hu
  | tetm o =>
    obtain ⟨cs', -, hg, -, hso⟩ := conv_solve_tetm.mp hs
    obtain ⟨-, -, -, hpol, hphi, hfy⟩ := gratingType_zero hg
    obtain rfl := scalar_films h hc
    have hd : ∃ fs, Spec.Diffraction1d s.p ((films.map fun f => filmConv _ f.n).map Conv.row) o.res fs :=
      (hu o.res).mpr (by split_ifs <;> exact ⟨rfl, rfl⟩)
    obtain ⟨fs, hd⟩ := hd
    rw [List.map_map, show (Conv.row ∘ fun f : Spec.Film => filmConv (FlatIdx s.p.fto.1 s.p.fto.2) f.n)
      = fun f => filmConv _ f.n from funext fun f => filmConv_row f.n] at hd
    obtain ⟨k1, k2⟩ := films_1d h hphi hd
    obtain ⟨hl, init, r, x, -, -, hx, rfl⟩ := (solve_1d_iff hp).mp hso
    obtain ⟨R, T, -, -, -, hcase⟩ := transfer_1d_4_ok hx
    refine Or.inl ⟨_, rfl, ?_⟩
    rcases hcase with ⟨h0, -, -, -, -, z1, z2⟩ | ⟨h0, -, -, -, -, z1, z2⟩
    · left
      have key := k1 h0
      have den : filmDen (s.p.n_top * Complex.cos s.p.theta) (s.p.n_bot * c₂) (Spec.stackMatrix (Spec.k0Of s.p) Spec.Film.teY films) ≠ 0 := by
        intro h0
        have := film_den key
        rw [h0, zero_mul] at this
        simp [h.n_top_ne, h.cos_ne] at this
      obtain ⟨r0, t0⟩ := film_solve key den
      exact ⟨h0, amplitudes_of h hp hs (.inl rfl) r0 ((z1 0 _).trans (zero_mul _).symm) t0 ((z2 0 _).trans (zero_mul _).symm)⟩
    · right
      have key := k2 (by rw [h0]; exact one_ne_zero)
      have den : filmDen (Complex.cos s.p.theta / s.p.n_top) (c₂ / s.p.n_bot) (Spec.stackMatrix (Spec.k0Of s.p) Spec.Film.tmY films) ≠ 0 := by
        intro h0
        have := film_den key
        rw [h0, zero_mul] at this
        simp [h.n_top_ne, h.cos_ne] at this
      obtain ⟨r0, t0⟩ := film_solve key den
      exact ⟨h0, amplitudes_of h hp hs (.inl rfl) ((z1 0 _).trans (zero_mul _).symm) r0 ((z2 0 _).trans (zero_mul _).symm) t0⟩

private theorem eff_mul (e r w : ℂ) : effOf (e * r) w = Complex.normSq e * w.re * ‖r‖ ^ 2 := by
  rw [effOf_eq, Complex.normSq_mul, Complex.normSq_eq_norm_sq r]; ring

private theorem film_eff {s : Settings} {films : List Spec.Film} {c₂ e m : ℂ} {a b : ℝ} {x : SubRes (2 * s.p.fto.2 + 1) (2 * s.p.fto.1 + 1)}
    (h : Spec.FilmAmplitudes s.p films c₂ e m x) (hE : EffBy (weights s 0) (weights s 1) (weights s 2) (weights s 3) x)
    (w0 : Complex.normSq e * (weights s 0 (ctr _) (ctr _)).re = a) (w1 : Complex.normSq m * (weights s 1 (ctr _) (ctr _)).re = b)
    (w2 : Complex.normSq e * (weights s 2 (ctr _) (ctr _)).re = a * ((s.p.n_bot * c₂).re / (s.p.n_top * Complex.cos s.p.theta).re))
    (w3 : Complex.normSq m * (weights s 3 (ctr _) (ctr _)).re = b * ((c₂ / s.p.n_bot).re / (Complex.cos s.p.theta / s.p.n_top).re)) :
    Spec.FilmEfficiencies s.p films c₂ a b x := by
  constructor
  · intro j i
    rw [hE.ri_s, h.R_s]
    split_ifs with hji
    · rw [rowOrder_zero.mp hji.1, colOrder_zero.mp hji.2, eff_mul, w0]; rfl
    · exact effOf_zero _
  · intro j i
    rw [hE.ri_p, h.R_p]
    split_ifs with hji
    · rw [rowOrder_zero.mp hji.1, colOrder_zero.mp hji.2, eff_mul, w1]; rfl
    · exact effOf_zero _
  · intro j i
    rw [hE.ti_s, h.T_s]
    split_ifs with hji
    · rw [rowOrder_zero.mp hji.1, colOrder_zero.mp hji.2, eff_mul, w2, Spec.filmTransmittance]; ring
    · exact effOf_zero _
  · intro j i
    rw [hE.ti_p, h.T_p]
    split_ifs with hji
    · rw [rowOrder_zero.mp hji.1, colOrder_zero.mp hji.2, eff_mul, w3, Spec.filmTransmittance]; ring
    · exact effOf_zero _
  · exact hE.ri
  · exact hE.ti

/-- **C73, efficiencies.**  The efficiencies of a stack of films are the reflectance and transmittance of thin-film optics. -/
theorem C73_efficiencies (la : LinAlg) (s : Settings) (films : List Spec.Film) (c₂ : ℂ) (h : Spec.FilmProblem s films c₂)
    (hp : s.p.use_pinv = false) (ha : s.algo = .tmm) (sol : Solved s.p.fto.1 s.p.fto.2) (hs : conv_solve la s = .ok sol) :
    Spec.ThinFilmEfficiencies s.p films c₂ sol.result := by
  have hinc := RealIncidence.of_spec h.toRealIllumination
  have hnt := h.n_top_ne
  have hnb := h.n_bot_ne
  have hcos := h.cos_ne
  have y0 : s.p.n_top * Complex.cos s.p.theta = ((s.p.n_top.re * Real.cos s.p.theta.re : ℝ) : ℂ) := by
    rw [hinc.cos_eq, Complex.ofReal_mul, ← hinc.hn]
  have y1 : Complex.cos s.p.theta / s.p.n_top = ((Real.cos s.p.theta.re / s.p.n_top.re : ℝ) : ℂ) := by
    rw [hinc.cos_eq, Complex.ofReal_div, ← hinc.hn]
  have f2 : s.p.n_bot * c₂ / s.p.n_bot ^ 2 = c₂ / s.p.n_bot := by field_simp
  by_cases hg : gratingType s = 0
  · have hphi := (gratingType_zero hg).choose_spec.2.2.2.1
    have kt : kz1d s.p.n_top (kxVec s.p s.p.wavelength) (ctr _) = s.p.n_top * Complex.cos s.p.theta := by
      rw [← h.kz_top1 hphi]; simp [kz1d, Spec.kzOf]
    have kb : kz1d s.p.n_bot (kxVec s.p s.p.wavelength) (ctr _) = s.p.n_bot * c₂ := by
      rw [← h.kz_bot1 hphi]; simp [kz1d, Spec.kzOf]
    have hw : ∀ k, weights s k = _ := fun k => congrFun (if_pos hg) k
    have q0 : (weights s 0 (ctr _) (ctr _)).re = 1 := by
      simp only [hw, cons_val_zero, kt]
      rw [div_self (mul_ne_zero hnt hcos), Complex.one_re]
    have q1 : (weights s 1 (ctr _) (ctr _)).re = 1 := by
      simp only [hw, cons_val, kt]
      rw [div_self (mul_ne_zero hnt hcos), Complex.one_re]
    have q2 : (weights s 2 (ctr _) (ctr _)).re = (s.p.n_bot * c₂).re / (s.p.n_top * Complex.cos s.p.theta).re := by
      simp only [hw, cons_val, kb]
      rw [y0, Complex.div_ofReal_re, Complex.ofReal_re]
    have q3 : (weights s 3 (ctr _) (ctr _)).re = (c₂ / s.p.n_bot).re / (Complex.cos s.p.theta / s.p.n_top).re := by
      simp only [hw, cons_val, kb, f2]
      rw [y1, Complex.div_ofReal_re, Complex.ofReal_re]
    rcases C73_amplitudes la s films c₂ h hp ha sol hs with ⟨x, hx, hcase⟩ | ⟨y, te, tm, hx, -⟩
    · have hE := conv_solve_eff hs (x := x) (.inl (by rw [hx]))
      refine Or.inl ⟨x, hx, ?_⟩
      rcases hcase with ⟨h0, hA⟩ | ⟨h0, hA⟩
      · exact .inl ⟨h0, film_eff hA hE (by simp [q0]) (by simp) (by simp [q2]) (by simp)⟩
      · exact .inr ⟨h0, film_eff hA hE (by simp) (by simp [q1]) (by simp) (by simp [q3])⟩
    · rcases conv_solve_cases hs with ⟨-, o, rfl⟩ | ⟨h1, -⟩ | ⟨h1, -⟩
      · cases hx
      · omega
      · omega
  · have kt : kz2d s.p.n_top (kxF s.p s.p.wavelength) (kyF s.p s.p.wavelength) (finProdFinEquiv (ctr _, ctr _))
        = s.p.n_top * Complex.cos s.p.theta := by
      rw [← h.kz_top2]; simp only [kz2d, Spec.kzOf, kxF, kyF, tileX, tileY, modNat_prod, divNat_prod]
    have kb : kz2d s.p.n_bot (kxF s.p s.p.wavelength) (kyF s.p s.p.wavelength) (finProdFinEquiv (ctr _, ctr _)) = s.p.n_bot * c₂ := by
      rw [← h.kz_bot2]; simp only [kz2d, Spec.kzOf, kxF, kyF, tileX, tileY, modNat_prod, divNat_prod]
    have hw : ∀ k, weights s k = _ := fun k => congrFun (if_neg hg) k
    have q0 : (weights s 0 (ctr _) (ctr _)).re = 1 := by
      simp only [hw, cons_val_zero, kt]
      rw [div_self (mul_ne_zero hnt hcos), Complex.one_re]
    have hn2 : Complex.normSq s.p.n_top = s.p.n_top.re ^ 2 := by
      rw [hinc.hn, Complex.normSq_ofReal, Complex.ofReal_re]; ring
    have hp0 := h.n_top_pos
    have hc0 := hinc.cos_pos
    have q1 : Complex.normSq (Complex.I * s.p.n_top) * (weights s 1 (ctr _) (ctr _)).re = 1 := by
      simp only [hw, cons_val, kt]
      rw [div_right_comm, div_self (mul_ne_zero hnt hcos), map_mul, Complex.normSq_I, one_mul, hn2]
      have : (1 : ℂ) / s.p.n_top ^ 2 = ((1 / s.p.n_top.re ^ 2 : ℝ) : ℂ) := by
        rw [hinc.hn]; simp
      rw [this, Complex.ofReal_re]
      field_simp
    have q2 : (weights s 2 (ctr _) (ctr _)).re = (s.p.n_bot * c₂).re / (s.p.n_top * Complex.cos s.p.theta).re := by
      simp only [hw, cons_val, kb]
      rw [y0, Complex.div_ofReal_re, Complex.ofReal_re]
    have q3 : Complex.normSq (Complex.I * s.p.n_top) * (weights s 3 (ctr _) (ctr _)).re
        = (c₂ / s.p.n_bot).re / (Complex.cos s.p.theta / s.p.n_top).re := by
      simp only [hw, cons_val, kb, f2]
      rw [y1, y0, Complex.div_ofReal_re, Complex.ofReal_re, map_mul, Complex.normSq_I, one_mul, hn2]
      field_simp
    have hpsi : s.p.psi = (s.p.psi.re : ℂ) := Complex.ext rfl h.psi_real
    have n1 : Complex.normSq (Complex.sin s.p.psi) = Real.sin s.p.psi.re ^ 2 := by
      rw [hpsi, ← Complex.ofReal_sin, Complex.normSq_ofReal, Complex.ofReal_re]; ring
    have n2 : Complex.normSq (Complex.I * s.p.n_top * Complex.cos s.p.psi)
        = Real.cos s.p.psi.re ^ 2 * Complex.normSq (Complex.I * s.p.n_top) := by
      rw [map_mul _ (Complex.I * s.p.n_top)]
      have : Complex.normSq (Complex.cos s.p.psi) = Real.cos s.p.psi.re ^ 2 := by
        rw [hpsi, ← Complex.ofReal_cos, Complex.normSq_ofReal, Complex.ofReal_re]; ring
      rw [this]; ring
    rcases C73_amplitudes la s films c₂ h hp ha sol hs with ⟨x, hx, -⟩ | ⟨y, te, tm, hx, hA, hB, hC⟩
    · rcases conv_solve_cases hs with ⟨h1, -⟩ | ⟨h1, ⟨o, rfl⟩ | rfl⟩ | ⟨h1, o, rfl⟩
      · omega
      · cases hx
      · cases hx
      · cases hx
    · have e1 := conv_solve_eff hs (x := y) (.inl (by rw [hx]))
      have e2 := conv_solve_eff hs (x := te) (.inr (.inl (by rw [hx])))
      have e3 := conv_solve_eff hs (x := tm) (.inr (.inr (by rw [hx])))
      exact .inr ⟨y, te, tm, hx, film_eff hA e1 (by rw [n1, q0, mul_one]) (by rw [n2, mul_assoc, q1, mul_one]) (by rw [n1, q2])
        (by rw [n2, mul_assoc, q3]), film_eff hB e2 (by simp [q0]) (by simp) (by simp [q2]) (by simp),
        film_eff hC e3 (by simp) q1 (by simp) (by rw [q3, one_mul])⟩

/-- **C73, JAX.** -/
theorem C73_jax (env : Jax.Env) (s : Settings) (films : List Spec.Film) (c₂ : ℂ) (h : Spec.FilmProblem s films c₂)
    (hp : s.p.use_pinv = false) (ha : s.algo = .tmm) (hr : Spec.JaxReady s) (sol : Solved s.p.fto.1 s.p.fto.2)
    (hs : Jax.conv_solve env s = .ok sol) :
    Spec.ThinFilmAmplitudes s.p films c₂ sol.result ∧ Spec.ThinFilmEfficiencies s.p films c₂ sol.result := by
  have hs := C57_jax_to_numpy env s hr.pixels hr.ellipses hr.layers sol hs
  exact ⟨C73_amplitudes env.la s films c₂ h hp ha sol hs, C73_efficiencies env.la s films c₂ h hp ha sol hs⟩

private theorem same_film {fx fy : ℕ} {s : Settings} {ψ : ℂ} {films : List Spec.Film} {c₂ : ℂ} {a b : ℝ} {x y : SubRes (2 * fy + 1) (2 * fx + 1)}
    (h : Spec.FilmEfficiencies (Spec.withPsi s ψ).p films c₂ a b x) (e : Spec.SameEff x y) : Spec.FilmEfficiencies s.p films c₂ a b y where
  de_ri_s := by rw [e.de_ri_s]; exact h.de_ri_s
  de_ri_p := by rw [e.de_ri_p]; exact h.de_ri_p
  de_ti_s := by rw [e.de_ti_s]; exact h.de_ti_s
  de_ti_p := by rw [e.de_ti_p]; exact h.de_ti_p
  de_ri := by rw [e.de_ri, e.de_ri_s, e.de_ri_p]; exact h.de_ri
  de_ti := by rw [e.de_ti, e.de_ti_s, e.de_ti_p]; exact h.de_ti

/-- **C73, PyTorch.**  The efficiencies, whenever NumPy solves the problem with modes away from zero (see C40). -/
theorem C73_torch (la : LinAlg) (s : Settings) (films : List Spec.Film) (c₂ : ℂ) (h : Spec.FilmProblem s films c₂)
    (hp : s.p.use_pinv = false) (ha : s.algo = .tmm) (sol : Solved s.p.fto.1 s.p.fto.2) (hs : conv_solve la s = .ok sol)
    (hr : Spec.TorchReady s sol) :
    ∃ t : Solved s.p.fto.1 s.p.fto.2, tConv_solve la s.torch = .ok t ∧ Spec.ThinFilmEfficiencies s.p films c₂ t.result := by
  obtain ⟨n, t, hn, ht, e⟩ := torch_runs hr.claddings ha hr.azimuth hs hr.modes
  refine ⟨t, ht, ?_⟩
  have h' : Spec.FilmProblem (Spec.withPsi s (torchPsi s s.p.psi)) films c₂ :=
    ⟨{ h.toRealIllumination with psi_real := torchPsi_real h.psi_real }, h.n_bot_real, h.n_bot_pos, h.layers, h.thickness, h.refracts, h.cosine⟩
  have e1 : Real.sin (torchPsi s s.p.psi).re ^ 2 = Real.sin s.p.psi.re ^ 2 := by
    unfold torchPsi; split_ifs <;> simp
  have e2 : Real.cos (torchPsi s s.p.psi).re ^ 2 = Real.cos s.p.psi.re ^ 2 := by
    unfold torchPsi; split_ifs <;> simp
  rcases C73_efficiencies la (Spec.withPsi s (torchPsi s s.p.psi)) films c₂ h' hp ha n hn with ⟨x, hx, hcase⟩ | ⟨y, te, tm, hx, hA, hB, hC⟩
  · rw [hx] at e
    obtain ⟨x', hx', e'⟩ := Spec.SameEfficiencies.one e
    refine .inl ⟨x', hx', ?_⟩
    rcases hcase with ⟨h0, hA⟩ | ⟨h0, hA⟩
    · exact .inl ⟨h0, same_film hA e'⟩
    · exact .inr ⟨h0, same_film hA e'⟩
  · rw [hx] at e
    obtain ⟨y', te', tm', hx', ea, eb, ec⟩ := Spec.SameEfficiencies.three e
    have hA' : Spec.FilmEfficiencies s.p films c₂ (Real.sin (torchPsi s s.p.psi).re ^ 2) (Real.cos (torchPsi s s.p.psi).re ^ 2) y' :=
      same_film hA ea
    rw [e1, e2] at hA'
    exact .inr ⟨y', te', tm', hx', hA', same_film hB eb, same_film hC ec⟩

/-- **C73, absorbing films.**  With an eigensolver that returns a basis of eigenvectors whenever there is one, stacks of absorbing films on
a lossless substrate are solved in every formulation, and the results are those of the thin-film formula. -/
theorem C73_absorbing (la : LinAlg) (hb : Spec.ReturnsBasis la) (s : Settings) (films : List Spec.Film) (c₂ : ℂ)
    (h : Spec.FilmProblem s films c₂) (hp : s.p.use_pinv = false) (ha : s.algo = .tmm) (habs : Spec.AbsorbingProblem s) (ny nx : ℕ)
    (ns : List ℂ) (hu : s.ucell = .raster (Spec.homogeneousRaster ny nx ns)) :
    ∃ sol, conv_solve la s = .ok sol ∧ Spec.ThinFilmAmplitudes s.p films c₂ sol.result ∧
      Spec.ThinFilmEfficiencies s.p films c₂ sol.result := by
  obtain ⟨sol, hs⟩ := C56_films la hb s hp ha habs ny nx ns hu
  exact ⟨sol, hs, C73_amplitudes la s films c₂ h hp ha sol hs, C73_efficiencies la s films c₂ h hp ha sol hs⟩

/-! ### Non-vacuity -/

/-- Two absorbing films on a substrate of index one, light at 30°; any numbers of orders. -/
noncomputable def filmSettings (pol : ℝ) (phi : Option ℂ) (rows f g : ℕ) : Settings where
  p := { exParams pol phi with fto := (f, g), thickness := [1 / 3, 2] }
  ucell := .raster (Spec.homogeneousRaster rows 2 [2 - Complex.I, 1 - 2 * Complex.I])
  fourier_type := 1
  enhanced_dfs := false
  algo := .tmm

/-- The two films, with their normal wavenumbers. -/
noncomputable def exFilms : List Spec.Film :=
  [⟨2 - Complex.I, csqrt ((2 - Complex.I) ^ 2 - (1 / 2) ^ 2), 1 / 3⟩,
    ⟨1 - 2 * Complex.I, csqrt ((1 - 2 * Complex.I) ^ 2 - (1 / 2) ^ 2), 2⟩]

private theorem film_illumination (pol : ℝ) (phi : Option ℂ) (hphi : ∀ φ, phi = some φ → Spec.IsReal φ) (rows f g : ℕ) :
    Spec.RealIllumination (filmSettings pol phi rows f g).p := by
  have h := lossy_illumination pol phi hphi f g
  exact ⟨h.n_top_real, h.n_top_pos, h.theta_real, h.theta_lo, h.theta_hi, h.phi_real, h.psi_real, h.wavelength_pos, h.period_x_pos,
    h.period_y_pos⟩

theorem filmSettings_films (pol : ℝ) (phi : Option ℂ) (hphi : ∀ φ, phi = some φ → Spec.IsReal φ) (rows f g : ℕ) (hr : 0 < rows) :
    Spec.FilmProblem (filmSettings pol phi rows f g) exFilms ((Real.cos (Real.pi / 6) : ℝ) : ℂ) where
  toRealIllumination := film_illumination pol phi hphi rows f g
  n_bot_real := by simp [filmSettings, exParams, Spec.IsReal]
  n_bot_pos := by simp [filmSettings, exParams]
  layers := ⟨hr, two_pos, .cons (fun _ _ => rfl) (.cons (fun _ _ => rfl) .nil)⟩
  thickness := rfl
  refracts := by
    have hk : (filmSettings pol phi rows f g).p.n_top * Complex.sin (filmSettings pol phi rows f g).p.theta = 1 / 2 := by
      simp only [filmSettings, exParams]
      rw [← Complex.ofReal_sin, Real.sin_pi_div_six]; push_cast; ring
    intro x hx
    rw [hk]
    simp only [exFilms, List.mem_cons, List.not_mem_nil, or_false] at hx
    have h0 : ∀ z : ℂ, z ≠ 0 → csqrt z ≠ 0 := fun z hz h => hz (by rw [← csqrt_sq z, h]; norm_num)
    rcases hx with rfl | rfl
    · refine ⟨fun h => ?_, h0 _ fun h => ?_, csqrt_sq _⟩
      · have := congrArg Complex.im h; simp at this
      · have := congrArg Complex.im h; simp [pow_two] at this
    · refine ⟨fun h => ?_, h0 _ fun h => ?_, csqrt_sq _⟩
      · have := congrArg Complex.im h; simp at this
      · have := congrArg Complex.im h; simp [pow_two] at this
  cosine := by
    have h := Real.sin_sq_add_cos_sq (Real.pi / 6)
    refine ⟨?_, ?_, ?_⟩
    · simp only [filmSettings, exParams, Complex.one_re, Complex.ofReal_re, one_mul, div_one]
      rw [← Complex.ofReal_pow]
      congr 1
      linarith
    · rw [Complex.ofReal_re, Real.cos_pi_div_six]; positivity
    · rw [Complex.ofReal_im]

theorem filmSettings_absorbing (pol : ℝ) (phi : Option ℂ) (rows f g : ℕ) (hr : 0 < rows)
    (hphi : phi = none ∧ (pol = 0 ∨ pol = 1) ∧ rows = 1 ∧ g = 0 ∨ phi = some 0 ∧ rows = 2) :
    Spec.AbsorbingProblem (filmSettings pol phi rows f g) where
  toRealIllumination := film_illumination pol phi (by rcases hphi with ⟨rfl, -⟩ | ⟨rfl, -⟩ <;> intro φ h <;> cases h; rfl) rows f g
  layers := by
    refine ⟨Or.inl rfl, ?_⟩
    intro l hl
    rcases List.mem_cons.mp hl with rfl | hl
    · exact ⟨fun i j => by simp [Spec.OrdinaryMedium], ⟨0, hr⟩, (0 : Fin 2), by simp [Spec.AbsorbingMedium]⟩
    · obtain rfl := List.mem_singleton.mp hl
      exact ⟨fun i j => by simp [Spec.OrdinaryMedium], ⟨0, hr⟩, (0 : Fin 2), by simp [Spec.AbsorbingMedium]⟩
  thickness_pos := by
    intro d hd
    have : d = 1 / 3 ∨ d = 2 := by simpa [filmSettings] using hd
    rcases this with rfl | rfl <;> norm_num
  thickness_some := by simp [filmSettings]
  layers_enough := by simp [filmSettings, Spec.layerCount, Spec.homogeneousRaster]
  n_bot_real := by simp [filmSettings, exParams, Spec.IsReal]
  n_bot_pos := by simp [filmSettings, exParams]
  not_normal := by
    rcases hphi with ⟨rfl, hp, rfl, rfl⟩ | ⟨rfl, rfl⟩
    · left; simp [gratingType, filmSettings, exParams, Spec.homogeneousRaster, hp]
    · right
      rintro ⟨m, k, h1, h2, h⟩
      exact lossy_not_normal pol f g ⟨m, k, h1, h2, h⟩
  orders := by
    rcases hphi with ⟨-, -, -, rfl⟩ | ⟨-, rfl⟩
    · intro _; rfl
    · intro h; simp [gratingType, filmSettings, Spec.homogeneousRaster] at h

/-- Non-vacuity: the two films are solved in TE, TM and 2D, with any numbers of orders, and obey the formula. -/
example (pol : ℝ) (phi : Option ℂ) (rows f g : ℕ) (hr : 0 < rows)
    (hphi : phi = none ∧ (pol = 0 ∨ pol = 1) ∧ rows = 1 ∧ g = 0 ∨ phi = some 0 ∧ rows = 2) :
    ∃ sol, conv_solve exLA (filmSettings pol phi rows f g) = .ok sol ∧
      Spec.ThinFilmAmplitudes (filmSettings pol phi rows f g).p exFilms ((Real.cos (Real.pi / 6) : ℝ) : ℂ) sol.result ∧
      Spec.ThinFilmEfficiencies (filmSettings pol phi rows f g).p exFilms ((Real.cos (Real.pi / 6) : ℝ) : ℂ) sol.result :=
  C73_absorbing exLA exLA_basis _ exFilms _
    (filmSettings_films pol phi (by rcases hphi with ⟨rfl, -⟩ | ⟨rfl, -⟩ <;> intro φ h <;> cases h; rfl) rows f g hr) rfl rfl
    (filmSettings_absorbing pol phi rows f g hr hphi) rows 2 _ rfl

/-- Non-vacuity on JAX, with any eigensolver that returns a basis. -/
example (env : Jax.Env) (hb : Spec.ReturnsBasis env.la) (pol : ℝ) (f g : ℕ) :
    ∃ sol, Jax.conv_solve env (filmSettings pol (some 0) 2 f g) = .ok sol ∧
      Spec.ThinFilmEfficiencies (filmSettings pol (some 0) 2 f g).p exFilms ((Real.cos (Real.pi / 6) : ℝ) : ℂ) sol.result := by
  have hf := filmSettings_films pol (some 0) (by intro φ h; cases h; rfl) 2 f g two_pos
  obtain ⟨sol, hs, -⟩ := C73_absorbing env.la hb _ exFilms _ hf rfl rfl (filmSettings_absorbing pol (some 0) 2 f g two_pos (by simp)) 2 2 _ rfl
  have hj := C57_numpy_to_jax_partial env (filmSettings pol (some 0) 2 f g) (Or.inl rfl) sol hs
  refine ⟨sol, hj, (C73_jax env _ exFilms _ hf rfl rfl ⟨?_, fun ls h => (by cases h), ?_⟩ sol hj).2⟩
  · intro u hu; cases hu; exact ⟨two_pos, two_pos⟩
  · simp [filmSettings, Spec.layerCount, Spec.homogeneousRaster]

/-- Non-vacuity on PyTorch: TE and TM with any number of orders. -/
example (pol : ℝ) (hpol : pol = 0 ∨ pol = 1) (f : ℕ) :
    ∃ t : Solved f 0, tConv_solve exLA (filmSettings pol none 1 f 0).torch = .ok t ∧
      Spec.ThinFilmEfficiencies (filmSettings pol none 1 f 0).p exFilms ((Real.cos (Real.pi / 6) : ℝ) : ℂ) t.result := by
  have hf := filmSettings_films pol none (by simp) 1 f 0 one_pos
  obtain ⟨sol, hs, -⟩ := C73_absorbing exLA exLA_basis _ exFilms _ hf rfl rfl
    (filmSettings_absorbing pol none 1 f 0 one_pos (by simp [hpol])) 1 2 _ rfl
  have hg : gratingType (filmSettings pol none 1 f 0) = 0 := by simp [gratingType, filmSettings, exParams, Spec.homogeneousRaster, hpol]
  refine C73_torch exLA _ exFilms _ hf rfl rfl sol hs ⟨⟨hf.toRealIllumination, hf.n_bot_real, hf.n_bot_pos⟩, fun h => ?_, fun o ho => ?_⟩
  · omega
  · rcases conv_solve_cases hs with ⟨-, o', h⟩ | ⟨h1, -⟩ | ⟨h1, -⟩
    · rw [h] at ho; cases ho
    · omega
    · omega

#print axioms Meent.C73_amplitudes
#print axioms Meent.C73_efficiencies
#print axioms Meent.C73_jax
#print axioms Meent.C73_torch
#print axioms Meent.C73_absorbing

end Meent
