import Mathlib.Analysis.Calculus.MeanValue
import Mathlib.Analysis.SpecialFunctions.Trigonometric.Deriv
import Verif.Spec.ThinFilm
import Verif.Spec.Maxwell
import Verif.Lemmas.Flat
import Verif.Lemmas.BvpSolve
import Verif.Lemmas.Bare
import Verif.Props.C49

/-!
# Thin films (helper lemmas)
-/

open Matrix

namespace Meent

set_option linter.unusedSimpArgs false
set_option linter.unusedVariables false

theorem const_of_deriv_zero {G : ℝ → ℂ} {d : ℝ} (h : ∀ t ∈ Set.uIcc 0 d, HasDerivWithinAt G 0 (Set.uIcc 0 d) t) : G d = G 0 := by
  have := Convex.norm_image_sub_le_of_norm_hasDerivWithin_le (f := G) (f' := fun _ => 0) (C := 0) (s := Set.uIcc 0 d) h (by simp)
    (convex_uIcc 0 d) Set.left_mem_uIcc Set.right_mem_uIcc
  rw [zero_mul] at this
  exact sub_eq_zero.mp (norm_le_zero_iff.mp this)

/-- The two-component system of a film, integrated. -/
theorem film_ode {k0 d : ℝ} {a b β Y : ℂ} (hY : Y ≠ 0) (ha : a * Y = β) (hb : b = β * Y) {U V : ℝ → ℂ}
    (hU : ∀ t ∈ Set.uIcc 0 d, HasDerivWithinAt U (-(Complex.I * k0 * a * V t)) (Set.uIcc 0 d) t)
    (hV : ∀ t ∈ Set.uIcc 0 d, HasDerivWithinAt V (-(Complex.I * k0 * b * U t)) (Set.uIcc 0 d) t) :
    U 0 = Complex.cos (k0 * β * d) * U d + Complex.I * Complex.sin (k0 * β * d) / Y * V d ∧
    V 0 = Complex.I * Y * Complex.sin (k0 * β * d) * U d + Complex.cos (k0 * β * d) * V d := by
  have harg : ∀ t : ℝ, HasDerivAt (fun t : ℝ => (k0 * β * t : ℂ)) (k0 * β) t := by
    intro t
    have := (Complex.ofRealCLM.hasDerivAt (x := t)).const_mul (k0 * β : ℂ)
    simpa using this
  have hc : ∀ t : ℝ, HasDerivAt (fun t : ℝ => Complex.cos (k0 * β * t)) (-Complex.sin (k0 * β * t) * (k0 * β)) t :=
    fun t => (Complex.hasDerivAt_cos _).comp t (harg t)
  have hs : ∀ t : ℝ, HasDerivAt (fun t : ℝ => Complex.sin (k0 * β * t)) (Complex.cos (k0 * β * t) * (k0 * β)) t :=
    fun t => (Complex.hasDerivAt_sin _).comp t (harg t)
  have hI : Complex.I * Complex.I = -1 := Complex.I_mul_I
  constructor
  · have := const_of_deriv_zero (G := fun t => Complex.cos (k0 * β * t) * U t + Complex.I / Y * (Complex.sin (k0 * β * t) * V t)) (d := d)
      (fun t ht => by
        have := ((hc t).hasDerivWithinAt.mul (hU t ht)).add (((hs t).hasDerivWithinAt.mul (hV t ht)).const_mul (Complex.I / Y))
        refine this.congr_deriv ?_
        generalize Complex.sin (k0 * β * t) = S
        generalize Complex.cos (k0 * β * t) = C
        subst ha hb
        field_simp
        linear_combination (-(S * k0 * a * Y * U t)) * hI)
    simp only [Complex.ofReal_zero, mul_zero, Complex.cos_zero, Complex.sin_zero, one_mul, zero_mul, add_zero] at this
    rw [← this]; ring
  · have := const_of_deriv_zero (G := fun t => Complex.I * Y * (Complex.sin (k0 * β * t) * U t) + Complex.cos (k0 * β * t) * V t) (d := d)
      (fun t ht => by
        have := (((hs t).hasDerivWithinAt.mul (hU t ht)).const_mul (Complex.I * Y)).add ((hc t).hasDerivWithinAt.mul (hV t ht))
        refine this.congr_deriv ?_
        subst ha hb
        linear_combination (-(Complex.sin (k0 * (a * Y) * t) * k0 * a * Y * V t)) * hI)
    simp only [Complex.ofReal_zero, mul_zero, Complex.cos_zero, Complex.sin_zero, one_mul, zero_mul, zero_add] at this
    rw [← this]; ring

/-- The s and p parts of a tangential field, for the in-plane direction `(c, s)`. -/
def Spec.Tangential.sE (c s : ℂ) (T : Spec.Tangential) : ℂ := -s * T.Ex + c * T.Ey
def Spec.Tangential.sH (c s : ℂ) (T : Spec.Tangential) : ℂ := c * T.Hx + s * T.Hy
def Spec.Tangential.pH (c s : ℂ) (T : Spec.Tangential) : ℂ := -s * T.Hx + c * T.Hy
def Spec.Tangential.pE (c s : ℂ) (T : Spec.Tangential) : ℂ := -(c * T.Ex + s * T.Ey)

theorem film_maxwell {m : Type} [Fintype m] [DecidableEq m] {k0 : ℝ} {kx ky : m → ℂ} {n c s κ : ℂ} {D : Set ℝ} {f : Spec.OrderFields m}
    (hn : n ≠ 0) (h : Spec.Maxwell k0 kx ky ⟨n ^ 2 • 1, n ^ 2 • 1, (n ^ 2)⁻¹ • 1⟩ D f) {i : m} (hx : kx i = κ * c) (hy : ky i = κ * s)
    (hcs : c ^ 2 + s ^ 2 = 1) :
    (∀ t ∈ D, HasDerivWithinAt (fun t => (f.tan t i).sE c s) (-(Complex.I * k0 * 1 * (f.tan t i).sH c s)) D t) ∧
    (∀ t ∈ D, HasDerivWithinAt (fun t => (f.tan t i).sH c s) (-(Complex.I * k0 * (n ^ 2 - κ ^ 2) * (f.tan t i).sE c s)) D t) ∧
    (∀ t ∈ D, HasDerivWithinAt (fun t => (f.tan t i).pH c s) (-(Complex.I * k0 * n ^ 2 * (f.tan t i).pE c s)) D t) ∧
    (∀ t ∈ D, HasDerivWithinAt (fun t => (f.tan t i).pE c s) (-(Complex.I * k0 * ((n ^ 2 - κ ^ 2) / n ^ 2) * (f.tan t i).pH c s)) D t) := by
  obtain ⟨zEx, zEy, zHx, zHy, h1, h2, h3, h4, h5⟩ := h
  have key : ∀ t ∈ D, _ := fun t ht => h5 t ht
  simp only [Spec.Tangential.sE, Spec.Tangential.sH, Spec.Tangential.pH, Spec.Tangential.pE, Spec.OrderFields.tan]
  refine ⟨fun t ht => ?_, fun t ht => ?_, fun t ht => ?_, fun t ht => ?_⟩ <;>
    obtain ⟨e1, e2, e3, e4, e5, e6⟩ := key t ht <;>
    have e1 := congrFun e1 i <;> have e2 := congrFun e2 i <;> have e3 := congrFun e3 i <;> have e4 := congrFun e4 i <;>
    have e5 := congrFun e5 i <;> have e6 := congrFun e6 i <;>
    simp only [Pi.sub_apply, Pi.smul_apply, smul_eq_mul, smul_mulVec, one_mulVec, hx, hy] at e1 e2 e3 e4 e5 e6
  · refine (((h1 t ht i).const_mul (-s)).add ((h2 t ht i).const_mul c)).congr_deriv ?_
    linear_combination s * e2 + c * e1
  · refine (((h3 t ht i).const_mul c).add ((h4 t ht i).const_mul s)).congr_deriv ?_
    linear_combination (-c) * e5 + s * e4 + κ * (c ^ 2 + s ^ 2) * e3 + (Complex.I * k0 * κ ^ 2 * (c * f.Ey t i - s * f.Ex t i)) * hcs
  · refine (((h3 t ht i).const_mul (-s)).add ((h4 t ht i).const_mul c)).congr_deriv ?_
    linear_combination s * e5 + c * e4
  · refine ((((h1 t ht i).const_mul c).add ((h2 t ht i).const_mul s)).neg).congr_deriv ?_
    have e6' : (-Complex.I * k0 * (κ * c) * f.Hy t i - -Complex.I * k0 * (κ * s) * f.Hx t i) = n ^ 2 * (Complex.I * k0 * f.Ez t i) := by
      rw [← e6]; field_simp
    field_simp
    linear_combination c * e2 * n ^ 2 - s * e1 * n ^ 2 + κ * (c ^ 2 + s ^ 2) * e6' + (Complex.I * k0 * κ ^ 2 * (c * f.Hy t i - s * f.Hx t i)) * hcs

/-- The convolution matrices of a film. -/
noncomputable def filmConv (m : Type) [DecidableEq m] (n : ℂ) : Conv m := ⟨n ^ 2 • 1, n ^ 2 • 1, (n ^ 2)⁻¹ • 1⟩

theorem filmConv_row {fx fy : ℕ} (n : ℂ) : (filmConv (FlatIdx fx fy) n).row = filmConv (Fin (2 * fx + 1)) n := by
  have hs : ∀ a : ℂ, (a • (1 : Matrix (FlatIdx fx fy) (FlatIdx fx fy) ℂ)).submatrix rowIdx rowIdx = a • 1 := by
    intro a
    rw [Matrix.submatrix_smul]
    simp only [Pi.smul_apply, submatrix_one _ rowIdx_inj]
  simp only [filmConv, Conv.row, hs]

theorem forall₂_eq_map {α β γ : Type} {R : α → β → Prop} {S : γ → α → Prop} {g : β → α} (hR : ∀ a b, R a b → a = g b) {l : List α} {l' : List β}
    (h : List.Forall₂ R l l') : l = l'.map g := by
  induction h with
  | nil => rfl
  | cons h _ ih => rw [List.map_cons, ← ih, ← hR _ _ h]

theorem convMats_films {la : LinAlg} {s : Settings} {films : List Spec.Film} (hf : Spec.IsFilms films s.ucell) (h0 : ∀ f ∈ films, f.n ≠ 0)
    (hx : s.p.period.1 ≠ 0) (hy : s.p.period.2 ≠ 0) {cs : List (Conv (FlatIdx s.p.fto.1 s.p.fto.2))} (hc : convMats la s = .ok cs) :
    cs = films.map fun f => filmConv _ f.n := by
  cases hu : s.ucell with
  | raster u =>
    obtain ⟨ny, nx, ls⟩ := u
    rw [hu] at hf
    obtain ⟨h1, h2, h3⟩ := hf
    obtain ⟨-, hm⟩ := (convMats_raster hu).mp hc
    rw [mapM_ok] at hm
    simp only [Ucell.rasters] at h3 hm
    clear hu hc
    induction films generalizing ls cs with
    | nil =>
      cases h3
      cases hm; rfl
    | cons f films ih =>
      cases h3 with
      | @cons l0 _ ls _ e h3 =>
      rw [List.map_cons] at hm
      cases hm with
      | @cons _ c _ cs hl' hm =>
      have hn := h0 f List.mem_cons_self
      obtain rfl : l0 = fun _ _ => f.n := funext fun i => funext fun j => e i j
      rw [List.map_cons, ← ih (fun f hf => h0 f (List.mem_cons_of_mem _ hf)) ls h1 h2 h3 hm]
      congr 1
      unfold rasterConv at hl'
      split at hl'
      · rw [convDiscrete_const la h1 h2 _ _ _ _ hn] at hl'
        exact (Except.ok.inj hl').symm
      · have := C18_homogeneous_continuous la ny nx h1 h2 [f.n] (by simpa using hn) s.p.fto.1 s.p.fto.2 s.p.use_pinv
        unfold to_conv_mat_raster_continuous at this
        rw [mapM_ok] at this
        simp only [Ucell.rasters, Spec.homogeneousRaster, List.map_cons, List.map_nil] at this
        cases this with
        | cons h _ =>
          rw [hl'] at h
          exact Except.ok.inj h
  | vector ls =>
    rw [hu] at hf
    have hm := (convMats_vector hu).mp hc
    rw [mapM_ok] at hm
    change List.Forall₂ _ _ _ at hf
    clear hu hc
    induction films generalizing ls cs with
    | nil =>
      cases hf
      cases hm; rfl
    | cons f films ih =>
      cases hf with
      | @cons l _ ls _ e h3 =>
      cases hm with
      | @cons _ c _ cs hl' hm =>
      have hn := h0 f List.mem_cons_self
      rw [List.map_cons, ← ih (fun f hf => h0 f (List.mem_cons_of_mem _ hf)) ls hm h3]
      congr 1
      unfold vecConv at hl'
      simp only [Except.bind_ok] at hl'
      obtain ⟨o, ho, cell, hcell, hcc⟩ := hl'
      have hmv : modeling_vector_instruction s.p.period [l] = .ok [cell] := by
        unfold modeling_vector_instruction
        simp only [Except.bind_ok, mapM_ok]
        refine ⟨[(l.base, o)], .cons ?_ .nil, .cons hcell .nil⟩
        exact ⟨o, ho, rfl⟩
      have h := C18_homogeneous_vector la s.p.period hx hy [f.n] (by simpa using hn) [l] (.cons e .nil)
        s.p.fto.1 s.p.fto.2 s.p.use_pinv [cell] hmv
      unfold to_conv_mat_vector at h
      rw [mapM_ok] at h
      cases h with
      | cons h _ =>
        rw [hcc] at h
        exact Except.ok.inj h

/-- The fields at the top of a stack of films in terms of those at the bottom. -/
theorem films_stack {m : Type} [Fintype m] [DecidableEq m] {k0 : ℝ} {kx ky : m → ℂ} {i : m} {c s κ : ℂ} (hx : kx i = κ * c)
    (hy : ky i = κ * s) (hcs : c ^ 2 + s ^ 2 = 1) {films : List Spec.Film} (hf : ∀ f ∈ films, f.Refracts κ) {fs : List (Spec.OrderFields m)}
    {top bottom : m → Spec.Tangential} (h : Spec.SolvesStack k0 kx ky (films.map fun f => (filmConv m f.n, f.d)) fs top bottom) :
    ![(top i).sE c s, (top i).sH c s] = Spec.stackMatrix k0 Spec.Film.teY films *ᵥ ![(bottom i).sE c s, (bottom i).sH c s] ∧
    ![(top i).pH c s, (top i).pE c s] = Spec.stackMatrix k0 Spec.Film.tmY films *ᵥ ![(bottom i).pH c s, (bottom i).pE c s] := by
  induction films generalizing fs top with
  | nil =>
    cases fs with
    | nil =>
      obtain rfl : top = bottom := h
      simp [Spec.stackMatrix]
    | cons f fs => exact h.elim
  | cons f films ih =>
    cases fs with
    | nil => exact h.elim
    | cons g fs =>
      obtain ⟨hM, rfl, h⟩ := h
      obtain ⟨i1, i2⟩ := ih (fun f hf' => hf f (List.mem_cons_of_mem _ hf')) h
      obtain ⟨hn, hk, hs⟩ := hf f List.mem_cons_self
      obtain ⟨m1, m2, m3, m4⟩ := film_maxwell hn hM hx hy hcs
      obtain ⟨a1, a2⟩ := film_ode (β := f.kz) (Y := f.teY) hk (by simp [Spec.Film.teY]) (by rw [← hs, Spec.Film.teY]; ring) m1 m2
      obtain ⟨b1, b2⟩ := film_ode (β := f.kz) (Y := f.tmY) (div_ne_zero hk (pow_ne_zero 2 hn)) (by rw [Spec.Film.tmY]; field_simp)
        (by rw [← hs, Spec.Film.tmY]; ring) m3 m4
      have hst : ∀ Y, Spec.stackMatrix k0 Y (f :: films) = Spec.filmMatrix k0 Y f * Spec.stackMatrix k0 Y films := fun Y => by
        simp [Spec.stackMatrix]
      rw [hst, hst, ← mulVec_mulVec, ← mulVec_mulVec, ← i1, ← i2]
      constructor
      · ext k
        fin_cases k <;> simp [Spec.filmMatrix, mulVec, dotProduct, Fin.sum_univ_two, a1, a2]
      · ext k
        fin_cases k <;> simp [Spec.filmMatrix, mulVec, dotProduct, Fin.sum_univ_two, b1, b2]

theorem azimuth_polar (kx ky : ℝ) : ∃ κ : ℂ, (kx : ℂ) = κ * Complex.cos (Spec.azimuth kx ky) ∧ (ky : ℂ) = κ * Complex.sin (Spec.azimuth kx ky) := by
  unfold Spec.azimuth
  have hc : Complex.cos ((Real.pi / 2 : ℝ) : ℂ) = 0 := by rw [← Complex.ofReal_cos, Real.cos_pi_div_two, Complex.ofReal_zero]
  have hs : Complex.sin ((Real.pi / 2 : ℝ) : ℂ) = 1 := by rw [← Complex.ofReal_sin, Real.sin_pi_div_two, Complex.ofReal_one]
  split_ifs with h1 h2
  · exact ⟨-ky, by rw [Complex.cos_neg, hc, h1, mul_zero], by rw [Complex.sin_neg, hs]; ring⟩
  · exact ⟨ky, by rw [hc, h1, mul_zero], by rw [hs, mul_one]⟩
  · have hr : Complex.arctan ((ky : ℂ) / kx) = ((Real.arctan (ky / kx) : ℝ) : ℂ) := by rw [Complex.ofReal_arctan, Complex.ofReal_div]
    have hc0 : Real.cos (Real.arctan (ky / kx)) ≠ 0 := (Real.cos_arctan_pos _).ne'
    have hkx : kx ≠ 0 := by exact_mod_cast h1
    have hsin : Real.sin (Real.arctan (ky / kx)) = ky / kx * Real.cos (Real.arctan (ky / kx)) := by
      have := Real.tan_arctan (ky / kx)
      rw [Real.tan_eq_sin_div_cos, div_eq_iff hc0] at this
      exact this
    refine ⟨((kx / Real.cos (Real.arctan (ky / kx)) : ℝ) : ℂ), ?_, ?_⟩
    · rw [hr, ← Complex.ofReal_cos, ← Complex.ofReal_mul, div_mul_cancel₀ _ hc0]
    · rw [hr, ← Complex.ofReal_sin, ← Complex.ofReal_mul, hsin]
      congr 1
      field_simp

theorem planeWave_parts (n φ κ e h : ℂ) :
    (Spec.planeWave n φ κ e h).sE (Complex.cos φ) (Complex.sin φ) = e ∧
    (Spec.planeWave n φ κ e h).sH (Complex.cos φ) (Complex.sin φ) = κ * e ∧
    (Spec.planeWave n φ κ e h).pH (Complex.cos φ) (Complex.sin φ) = h ∧
    (Spec.planeWave n φ κ e h).pE (Complex.cos φ) (Complex.sin φ) = κ / n ^ 2 * h := by
  have := Complex.sin_sq_add_cos_sq φ
  simp only [Spec.Tangential.sE, Spec.Tangential.sH, Spec.Tangential.pH, Spec.Tangential.pE, Spec.planeWave]
  refine ⟨?_, ?_, ?_, ?_⟩
  · linear_combination e * this
  · linear_combination κ * e * this
  · linear_combination h * this
  · linear_combination κ / n ^ 2 * h * this

theorem parts_add (c s : ℂ) (a b : Spec.Tangential) : (a + b).sE c s = a.sE c s + b.sE c s ∧ (a + b).sH c s = a.sH c s + b.sH c s ∧
    (a + b).pH c s = a.pH c s + b.pH c s ∧ (a + b).pE c s = a.pE c s + b.pE c s := by
  have e1 : (a + b).Ex = a.Ex + b.Ex := rfl
  have e2 : (a + b).Ey = a.Ey + b.Ey := rfl
  have e3 : (a + b).Hx = a.Hx + b.Hx := rfl
  have e4 : (a + b).Hy = a.Hy + b.Hy := rfl
  simp only [Spec.Tangential.sE, Spec.Tangential.sH, Spec.Tangential.pH, Spec.Tangential.pE, e1, e2, e3, e4]
  refine ⟨?_, ?_, ?_, ?_⟩ <;> ring

/-- The denominator of the thin-film formula. -/
noncomputable def filmDen (Y₀ Y₁ : ℂ) (M : Matrix (Fin 2) (Fin 2) ℂ) : ℂ := Y₀ * (M 0 0 + M 0 1 * Y₁) + (M 1 0 + M 1 1 * Y₁)

theorem film_den {Y₀ Y₁ e R T : ℂ} {M : Matrix (Fin 2) (Fin 2) ℂ} (h : ![e + R, Y₀ * e + -Y₀ * R] = M *ᵥ ![T, Y₁ * T]) :
    filmDen Y₀ Y₁ M * T = 2 * Y₀ * e := by
  have h0 := congrFun h 0
  have h1 := congrFun h 1
  simp only [mulVec, dotProduct, Fin.sum_univ_two, cons_val_zero, cons_val_one] at h0 h1
  unfold filmDen
  linear_combination (-Y₀) * h0 - h1

theorem film_solve {Y₀ Y₁ e R T : ℂ} {M : Matrix (Fin 2) (Fin 2) ℂ} (h : ![e + R, Y₀ * e + -Y₀ * R] = M *ᵥ ![T, Y₁ * T])
    (hd : filmDen Y₀ Y₁ M ≠ 0) : R = e * Spec.filmR Y₀ Y₁ M ∧ T = e * Spec.filmT Y₀ Y₁ M := by
  have hT := film_den h
  have h0 := congrFun h 0
  unfold filmDen at hT hd
  simp only [mulVec, dotProduct, Fin.sum_univ_two, cons_val_zero, cons_val_one] at h0
  have hT' : T = e * Spec.filmT Y₀ Y₁ M := by
    unfold Spec.filmT
    rw [← mul_div_assoc, eq_div_iff hd]
    linear_combination hT
  refine ⟨?_, hT'⟩
  unfold Spec.filmR
  rw [← mul_div_assoc, eq_div_iff hd]
  linear_combination (Y₀ * (M 0 0 + M 0 1 * Y₁) + (M 1 0 + M 1 1 * Y₁)) * h0 + (M 0 0 + M 0 1 * Y₁) * hT

theorem zip_films {m : Type} [DecidableEq m] (films : List Spec.Film) :
    (films.map fun f => filmConv m f.n).zip (films.map Spec.Film.d) = films.map fun f => (filmConv m f.n, f.d) := by
  induction films with
  | nil => rfl
  | cons f films ih => rw [List.map_cons, List.map_cons, List.map_cons, List.zip_cons_cons, ih]

section Wavevectors

variable {s : Settings} {films : List Spec.Film} {c₂ : ℂ}

theorem Spec.FilmProblem.n_top_ne (h : Spec.FilmProblem s films c₂) : s.p.n_top ≠ 0 := by
  rw [(RealIncidence.of_spec h.toRealIllumination).hn]
  exact_mod_cast h.n_top_pos.ne'

theorem Spec.FilmProblem.n_bot_ne (h : Spec.FilmProblem s films c₂) : s.p.n_bot ≠ 0 := by
  rw [show s.p.n_bot = (s.p.n_bot.re : ℂ) from Complex.ext rfl h.n_bot_real]
  exact_mod_cast h.n_bot_pos.ne'

theorem Spec.FilmProblem.cos_ne (h : Spec.FilmProblem s films c₂) : Complex.cos s.p.theta ≠ 0 := by
  have hinc := RealIncidence.of_spec h.toRealIllumination
  rw [hinc.cos_eq]
  exact_mod_cast hinc.cos_pos.ne'

theorem Spec.FilmProblem.kz_top1 (h : Spec.FilmProblem s films c₂) (hphi : s.p.phi = none) :
    Spec.kzOf s.p.n_top (kxVec s.p s.p.wavelength (ctr s.p.fto.1)) 0 = s.p.n_top * Complex.cos s.p.theta := by
  have hinc := RealIncidence.of_spec h.toRealIllumination
  have := hinc.kz_ctr hphi s.p.wavelength
  unfold kz1d at this
  unfold Spec.kzOf
  rw [zero_pow two_ne_zero, sub_zero, this, hinc.cos_eq, Complex.ofReal_mul, ← hinc.hn]

theorem Spec.FilmProblem.kz_bot1 (h : Spec.FilmProblem s films c₂) (hphi : s.p.phi = none) :
    Spec.kzOf s.p.n_bot (kxVec s.p s.p.wavelength (ctr s.p.fto.1)) 0 = s.p.n_bot * c₂ := by
  have := kz1d_order h.toRealIllumination hphi h.n_bot_real (ctr s.p.fto.1)
  rw [colOrder_zero.mpr rfl, kz_refraction h.n_bot_pos h.cosine (by rw [inPlane_zero])] at this
  unfold kz1d at this
  unfold Spec.kzOf
  rw [zero_pow two_ne_zero, sub_zero, this]
  congr 1
  exact (Complex.ext rfl h.n_bot_real.symm)

theorem Spec.FilmProblem.kz_top2 (h : Spec.FilmProblem s films c₂) :
    Spec.kzOf s.p.n_top (kxVec s.p s.p.wavelength (ctr s.p.fto.1)) (kyVec s.p s.p.wavelength (ctr s.p.fto.2))
      = s.p.n_top * Complex.cos s.p.theta := by
  have hinc := RealIncidence.of_spec h.toRealIllumination
  have := hinc.kz_ctr2 (phi_getD_real h.toRealIllumination) s.p.wavelength
  unfold kz2d ctr2 kxF kyF tileX tileY at this
  rw [modNat_prod, divNat_prod] at this
  unfold Spec.kzOf
  rw [this, hinc.cos_eq, Complex.ofReal_mul, ← hinc.hn]

theorem Spec.FilmProblem.kz_bot2 (h : Spec.FilmProblem s films c₂) :
    Spec.kzOf s.p.n_bot (kxVec s.p s.p.wavelength (ctr s.p.fto.1)) (kyVec s.p s.p.wavelength (ctr s.p.fto.2)) = s.p.n_bot * c₂ := by
  have := kz2d_order h.toRealIllumination h.n_bot_real (ctr s.p.fto.2) (ctr s.p.fto.1)
  rw [colOrder_zero.mpr rfl, rowOrder_zero.mpr rfl, kz_refraction h.n_bot_pos h.cosine (by rw [inPlane_zero])] at this
  unfold kz2d kxF kyF tileX tileY at this
  rw [modNat_prod, divNat_prod] at this
  unfold Spec.kzOf
  rw [this]
  congr 1
  exact (Complex.ext rfl h.n_bot_real.symm)

theorem Spec.Film.Refracts.of_sq {κ κ' : ℂ} (e : κ ^ 2 = κ' ^ 2) {f : Spec.Film} (h : f.Refracts κ) : f.Refracts κ' :=
  ⟨h.n_ne, h.kz_ne, by rw [h.snell, e]⟩

theorem Spec.FilmProblem.kt_sq (h : Spec.FilmProblem s films c₂) {κ c d : ℂ} (hc : c ^ 2 + d ^ 2 = 1)
    (hx : (Spec.orderKx s.p 0 : ℂ) = κ * c) (hy : (Spec.orderKy s.p 0 : ℂ) = κ * d) : (s.p.n_top * Complex.sin s.p.theta) ^ 2 = κ ^ 2 := by
  have e := inPlane_zero s.p
  unfold Spec.inPlaneSq at e
  have hinc := RealIncidence.of_spec h.toRealIllumination
  have e' : ((Spec.orderKx s.p 0 : ℝ) : ℂ) ^ 2 + ((Spec.orderKy s.p 0 : ℝ) : ℂ) ^ 2 = (s.p.n_top * Complex.sin s.p.theta) ^ 2 := by
    rw [hinc.hn, hinc.hth, ← Complex.ofReal_sin]
    exact_mod_cast e
  rw [← e', hx, hy]
  linear_combination κ ^ 2 * hc

theorem films_1d (h : Spec.FilmProblem s films c₂) (hphi : s.p.phi = none) {r : SubRes 1 (2 * s.p.fto.1 + 1)} {fs}
    (hd : Spec.Diffraction1d s.p (films.map fun f => filmConv _ f.n) r fs) :
    (s.p.pol = 0 →
      ![1 + r.R_s 0 (ctr _), s.p.n_top * Complex.cos s.p.theta * 1 + -(s.p.n_top * Complex.cos s.p.theta) * r.R_s 0 (ctr _)]
        = Spec.stackMatrix (Spec.k0Of s.p) Spec.Film.teY films *ᵥ ![r.T_s 0 (ctr _), s.p.n_bot * c₂ * r.T_s 0 (ctr _)]) ∧
    (s.p.pol ≠ 0 →
      ![1 + r.R_p 0 (ctr _), Complex.cos s.p.theta / s.p.n_top * 1 + -(Complex.cos s.p.theta / s.p.n_top) * r.R_p 0 (ctr _)]
        = Spec.stackMatrix (Spec.k0Of s.p) Spec.Film.tmY films *ᵥ ![r.T_p 0 (ctr _), c₂ / s.p.n_bot * r.T_p 0 (ctr _)]) := by
  unfold Spec.Diffraction1d at hd
  rw [h.thickness, zip_films] at hd
  have hx := kxVec_order h.toRealIllumination (ctr s.p.fto.1)
  rw [colOrder_zero.mpr rfl] at hx
  have hk : (s.p.n_top * Complex.sin s.p.theta) ^ 2 = kxVec s.p s.p.wavelength (ctr s.p.fto.1) ^ 2 :=
    h.kt_sq (c := 1) (d := 0) (by norm_num) (by rw [hx, mul_one]) (by rw [orderKy_none hphi]; simp)
  obtain ⟨a, b⟩ := films_stack (i := ctr s.p.fto.1) (c := Complex.cos 0) (s := Complex.sin 0) (κ := kxVec s.p s.p.wavelength (ctr s.p.fto.1))
    (by rw [Complex.cos_zero, mul_one]) (by rw [Complex.sin_zero, mul_zero]; rfl) (by simp) (fun f hf => (h.refracts f hf).of_sq hk) hd
  have hnt := h.n_top_ne
  have hnb := h.n_bot_ne
  have f1 : s.p.n_top * Complex.cos s.p.theta / s.p.n_top ^ 2 = Complex.cos s.p.theta / s.p.n_top := by field_simp
  have f2 : s.p.n_bot * c₂ / s.p.n_bot ^ 2 = c₂ / s.p.n_bot := by field_simp
  have hctr : (ctr s.p.fto.1).val = s.p.fto.1 := rfl
  constructor
  · intro h0
    simp only [Spec.above1d, Spec.below1d, if_pos h0, (planeWave_parts _ _ _ _ _).1, (planeWave_parts _ _ _ _ _).2.1,
      (parts_add _ _ _ _).1, (parts_add _ _ _ _).2.1, hctr, if_true, h.kz_top1 hphi, h.kz_bot1 hphi] at a
    exact a
  · intro h0
    simp only [Spec.above1d, Spec.below1d, if_neg h0, (planeWave_parts _ _ _ _ _).2.2.1, (planeWave_parts _ _ _ _ _).2.2.2,
      (parts_add _ _ _ _).2.2.1, (parts_add _ _ _ _).2.2.2, hctr, if_true, h.kz_top1 hphi, h.kz_bot1 hphi, neg_div, f1, f2] at b
    exact b

theorem films_2d (h : Spec.FilmProblem s films c₂) {ψ : ℂ} {r : SubRes (2 * s.p.fto.2 + 1) (2 * s.p.fto.1 + 1)} {fs}
    (hd : Spec.Diffraction s.p (films.map fun f => filmConv _ f.n) ψ r fs) :
    ![Complex.sin ψ + r.R_s (ctr _) (ctr _),
        s.p.n_top * Complex.cos s.p.theta * Complex.sin ψ + -(s.p.n_top * Complex.cos s.p.theta) * r.R_s (ctr _) (ctr _)]
      = Spec.stackMatrix (Spec.k0Of s.p) Spec.Film.teY films *ᵥ ![r.T_s (ctr _) (ctr _), s.p.n_bot * c₂ * r.T_s (ctr _) (ctr _)] ∧
    ![s.p.n_top * Complex.cos ψ + -Complex.I * r.R_p (ctr _) (ctr _),
        Complex.cos s.p.theta / s.p.n_top * (s.p.n_top * Complex.cos ψ)
          + -(Complex.cos s.p.theta / s.p.n_top) * (-Complex.I * r.R_p (ctr _) (ctr _))]
      = Spec.stackMatrix (Spec.k0Of s.p) Spec.Film.tmY films *ᵥ ![-Complex.I * r.T_p (ctr _) (ctr _),
        c₂ / s.p.n_bot * (-Complex.I * r.T_p (ctr _) (ctr _))] := by
  unfold Spec.Diffraction at hd
  rw [h.thickness, zip_films] at hd
  have hx := kxVec_order h.toRealIllumination (ctr s.p.fto.1)
  rw [colOrder_zero.mpr rfl] at hx
  have hy := kyVec_order h.toRealIllumination (ctr s.p.fto.2)
  rw [rowOrder_zero.mpr rfl] at hy
  obtain ⟨κ, ex, ey⟩ := azimuth_polar (Spec.orderKx s.p 0) (Spec.orderKy s.p 0)
  have hcs : Complex.cos (Spec.azimuth (Spec.orderKx s.p 0) (Spec.orderKy s.p 0)) ^ 2
      + Complex.sin (Spec.azimuth (Spec.orderKx s.p 0) (Spec.orderKy s.p 0)) ^ 2 = 1 := by rw [add_comm]; exact Complex.sin_sq_add_cos_sq _
  have hk := h.kt_sq hcs ex ey
  rw [← hx, ← hy] at ex ey hcs
  obtain ⟨a, b⟩ := films_stack (i := (finProdFinEquiv (ctr s.p.fto.2, ctr s.p.fto.1) : FlatIdx s.p.fto.1 s.p.fto.2))
    (c := Complex.cos (Spec.azimuth (kxVec s.p s.p.wavelength (ctr s.p.fto.1)) (kyVec s.p s.p.wavelength (ctr s.p.fto.2))))
    (s := Complex.sin (Spec.azimuth (kxVec s.p s.p.wavelength (ctr s.p.fto.1)) (kyVec s.p s.p.wavelength (ctr s.p.fto.2)))) (κ := κ)
    (by rw [modNat_prod]; exact ex) (by rw [divNat_prod]; exact ey) hcs (fun f hf => (h.refracts f hf).of_sq hk) hd
  have hnt := h.n_top_ne
  have hnb := h.n_bot_ne
  have f1 : s.p.n_top * Complex.cos s.p.theta / s.p.n_top ^ 2 = Complex.cos s.p.theta / s.p.n_top := by field_simp
  have f2 : s.p.n_bot * c₂ / s.p.n_bot ^ 2 = c₂ / s.p.n_bot := by field_simp
  have hin : Spec.incidentOrder (ctr s.p.fto.2) (ctr s.p.fto.1) = 1 := if_pos ⟨rfl, rfl⟩
  constructor
  · simp only [Spec.above, Spec.below, modNat_prod, divNat_prod, (planeWave_parts _ _ _ _ _).1, (planeWave_parts _ _ _ _ _).2.1,
      (parts_add _ _ _ _).1, (parts_add _ _ _ _).2.1, hin, mul_one, h.kz_top2, h.kz_bot2] at a
    exact a
  · simp only [Spec.above, Spec.below, modNat_prod, divNat_prod, (planeWave_parts _ _ _ _ _).2.2.1, (planeWave_parts _ _ _ _ _).2.2.2,
      (parts_add _ _ _ _).2.2.1, (parts_add _ _ _ _).2.2.2, hin, mul_one, h.kz_top2, h.kz_bot2, neg_div, f1, f2] at b
    exact b

end Wavevectors

end Meent
