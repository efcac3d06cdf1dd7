import Verif.Lemmas.Example
import Verif.Lemmas.Dispatch
import Verif.Spec.Optics

/-!
# Concrete instances of the 1D solver (helper lemmas)
-/

open Matrix

namespace Meent

set_option linter.unusedSectionVars false
set_option linter.unusedSimpArgs false

theorem csqrt_neg_sq {a : ℝ} (ha : 0 < a) : csqrt (-((a : ℂ) ^ 2)) = Complex.I * a := by
  unfold csqrt
  have h : -((a : ℂ) ^ 2) = ((-(a ^ 2) : ℝ) : ℂ) := by push_cast; ring
  rw [h, Complex.ofReal_cpow_of_nonpos (by nlinarith [sq_nonneg a])]
  have h2 : -(((-(a ^ 2) : ℝ)) : ℂ) = (a : ℂ) ^ 2 := by push_cast; ring
  rw [h2]
  have h3 : ((a : ℂ) ^ 2) ^ (1 / 2 : ℂ) = a := csqrt_ofReal_sq ha.le
  rw [h3]
  have h4 : Complex.exp (Real.pi * Complex.I * (1 / 2)) = Complex.I := by
    rw [show (Real.pi : ℂ) * Complex.I * (1 / 2) = Real.pi / 2 * Complex.I by ring]
    exact Complex.exp_pi_div_two_mul_I
  rw [h4]; ring

/-- Eigenvalue square roots of the diagonal layer. -/
noncomputable def dq (pol : ℝ) (kx a b e : ℂ) : ℂ :=
  if pol = 0 then csqrt (kx ^ 2 - b) else csqrt (a * (kx * e * kx - 1))

/-- Admittance weight of a layer mode. -/
noncomputable def dv (pol : ℝ) (kx a b e : ℂ) : ℂ :=
  if pol = 0 then dq pol kx a b e else dq pol kx a b e / a

/-- Admittance of a half-space. -/
noncomputable def dy (pol : ℝ) (kz nn : ℂ) : ℂ := if pol = 0 then kz else kz / nn ^ 2

/-- Reflection of the bottom interface seen from the layer. -/
noncomputable def dr (v yb : ℂ) : ℂ := (1 - Complex.I * yb / v) / (1 + Complex.I * yb / v)

section
variable {n : Type} [Fintype n] [DecidableEq n]

theorem transfer_1d_2_diag {pol : ℝ} (hpol : pol = 0 ∨ pol = 1) (kx a b e : n → ℂ)
    (ha : ∀ i, a i ≠ 0) :
    transfer_1d_2 exLA pol kx ⟨diagonal a, diagonal b, diagonal e⟩ false
      = .ok ⟨1, diagonal fun i => dv pol (kx i) (a i) (b i) (e i),
          fun i => dq pol (kx i) (a i) (b i) (e i)⟩ := by
  unfold transfer_1d_2
  rcases hpol with rfl | rfl
  · simp only [if_true, diagonal_sub, exLA_eig_diagonal, Matrix.one_mul, dv, dq]
  · simp only [one_ne_zero, if_true, if_false, meeinv_diagonal exLA ha, bind, Except.bind,
      diagonal_mul_diagonal, ← diagonal_one, diagonal_sub, exLA_eig_diagonal, Matrix.one_mul, dv, dq]
    simp only [Except.ok.injEq, Modes.mk.injEq, true_and, and_true]
    congr 1; ext i
    field_simp [ha i]

end

/-- A single diagonal layer: `solve_1d` succeeds when no denominator vanishes. -/
theorem solve_1d_diag_ok {p : Params} {wl d : ℝ} (hu : p.use_pinv = false)
    (hpol : p.pol = 0 ∨ p.pol = 1) (hd : p.thickness = [d]) (a b e : Fin (2 * p.fto.1 + 1) → ℂ)
    (ha : ∀ i, a i ≠ 0)
    (hv : ∀ i, dv p.pol (kxVec p wl i) (a i) (b i) (e i) ≠ 0)
    (h1 : ∀ i, 1 + Complex.I * dy p.pol (kz1d p.n_bot (kxVec p wl) i) p.n_bot
      / dv p.pol (kxVec p wl i) (a i) (b i) (e i) ≠ 0)
    (h2 : ∀ i,
      dv p.pol (kxVec p wl i) (a i) (b i) (e i)
        * (1 - Complex.exp (-((2 * Real.pi / wl : ℝ) : ℂ) * dq p.pol (kxVec p wl i) (a i) (b i) (e i) * d) ^ 2
            * dr (dv p.pol (kxVec p wl i) (a i) (b i) (e i))
              (dy p.pol (kz1d p.n_bot (kxVec p wl) i) p.n_bot))
      + Complex.I * dy p.pol (kz1d p.n_top (kxVec p wl) i) p.n_top
        * (1 + Complex.exp (-((2 * Real.pi / wl : ℝ) : ℂ) * dq p.pol (kxVec p wl i) (a i) (b i) (e i) * d) ^ 2
            * dr (dv p.pol (kxVec p wl i) (a i) (b i) (e i))
              (dy p.pol (kz1d p.n_bot (kxVec p wl) i) p.n_bot)) ≠ 0)
    (extra : List (Conv (Fin (2 * p.fto.1 + 1)))) :
    ∃ o, solve_1d exLA p wl (⟨diagonal a, diagonal b, diagonal e⟩ :: extra) = .ok o := by
  set v := fun i => dv p.pol (kxVec p wl i) (a i) (b i) (e i) with hvdef
  set q := fun i => dq p.pol (kxVec p wl i) (a i) (b i) (e i) with hqdef
  set yb := fun i => dy p.pol (kz1d p.n_bot (kxVec p wl) i) p.n_bot with hyb
  set yt := fun i => dy p.pol (kz1d p.n_top (kxVec p wl) i) p.n_top with hyt
  have hm : transfer_1d_2 exLA p.pol (kxVec p wl) ⟨diagonal a, diagonal b, diagonal e⟩ false
      = .ok ⟨1, diagonal v, q⟩ := transfer_1d_2_diag hpol (kxVec p wl) a b e ha
  have hinit : transfer_1d_1 p.pol (kxVec p wl) p.n_top p.n_bot
      = .ok (kz1d p.n_top (kxVec p wl), kz1d p.n_bot (kxVec p wl),
        ⟨diagonal fun _ => 1, diagonal fun i => Complex.I * yb i, diagonal fun _ => 1⟩) := by
    unfold transfer_1d_1
    rcases hpol with h | h <;>
      simp only [h, if_true, if_false, one_ne_zero, diagonal_one, hyb, dy, ← diagonal_smul] <;> rfl
  have hstep : tmmStep exLA false (phaseX (2 * Real.pi / wl) q d) (diagonal fun _ => 1) (diagonal v)
      ⟨diagonal fun _ => 1, diagonal fun i => Complex.I * yb i, diagonal fun _ => 1⟩ = _ :=
    tmmStep_diag exLA (fun _ => one_ne_zero) hv (by intro i; simpa using h1 i)
  simp only [diagonal_one] at hstep
  have hloop : ∃ t infos, layerLoop (step1d exLA p (2 * Real.pi / wl) (kxVec p wl))
      (⟨diagonal a, diagonal b, diagonal e⟩ :: extra) [d] 1
      (⟨diagonal fun _ => 1, diagonal fun i => Complex.I * yb i, diagonal fun _ => 1⟩, [])
      = .ok (⟨diagonal fun i => 1 + Complex.exp (-((2 * Real.pi / wl : ℝ) : ℂ) * q i * d) ^ 2 * dr (v i) (yb i),
        diagonal fun i => v i * (1 - Complex.exp (-((2 * Real.pi / wl : ℝ) : ℂ) * q i * d) ^ 2 * dr (v i) (yb i)),
        t⟩, infos) := by
    simp only [layerLoop, getIdx, List.getElem?_cons_zero, bind, Except.bind, step1d, hu, hm,
      transfer_1d_3, hstep, dr, diagonal_one, Except.ok.injEq, Prod.mk.injEq, TState.mk.injEq]
    refine ⟨_, _, ⟨?_, ?_, rfl⟩, rfl⟩
    all_goals (congr 1; ext i; simp)
  obtain ⟨t, infos, hloop⟩ := hloop
  unfold solve_1d
  simp only [hinit, bind, Except.bind, hd, List.length_singleton, hloop, hu]
  unfold transfer_1d_4
  have hfin : ∀ i, v i * (1 - Complex.exp (-((2 * Real.pi / wl : ℝ) : ℂ) * q i * d) ^ 2 * dr (v i) (yb i))
      + Complex.I * yt i * (1 + Complex.exp (-((2 * Real.pi / wl : ℝ) : ℂ) * q i * d) ^ 2 * dr (v i) (yb i)) ≠ 0 := h2
  rcases hpol with h | h
  · simp only [h, if_true, bind, Except.bind]
    rw [← diagonal_smul, diagonal_mul_diagonal, diagonal_add]
    rw [meeinv_diagonal exLA (by
      intro i
      have := hfin i
      simp only [hyt, dy, h, if_true] at this
      simpa using this)]
    exact ⟨_, rfl⟩
  · simp only [h, one_ne_zero, if_true, if_false, bind, Except.bind]
    rw [← diagonal_smul, ← diagonal_smul, diagonal_mul_diagonal, diagonal_add]
    rw [meeinv_diagonal exLA (by
      intro i
      have := hfin i
      simp only [hyt, dy, h, if_false, one_ne_zero] at this
      simp only [Pi.smul_apply, smul_eq_mul]
      convert this using 3
      ring)]
    exact ⟨_, rfl⟩

/-- Parameters of the example problems: 30° incidence in air onto a grating in air, one order,
thickness a third of the wavelength. -/
noncomputable def exParams (pol : ℝ) (phi : Option ℂ) : Params where
  n_top := 1
  n_bot := 1
  theta := ((Real.pi / 6 : ℝ) : ℂ)
  phi := phi
  psi := ((Real.pi / 2 * (1 - pol) : ℝ) : ℂ)
  pol := pol
  fto := (0, 0)
  period := (1, 1)
  wavelength := 1
  thickness := [1 / 3]
  use_pinv := false

/-- The example settings: the two-pixel grating of `exCell`. -/
noncomputable def exSettings (pol : ℝ) (phi : Option ℂ) : Settings where
  p := exParams pol phi
  ucell := .raster exCell
  fourier_type := 0
  enhanced_dfs := false
  algo := .tmm

theorem exIncidence (pol : ℝ) (phi : Option ℂ) : RealIncidence (exParams pol phi) 1 (Real.pi / 6) := by
  have := Real.pi_pos
  refine ⟨by simp [exParams], by norm_num, rfl, by linarith, by linarith⟩

theorem exKx (pol : ℝ) (i : Fin (2 * (exParams pol none).fto.1 + 1)) :
    kxVec (exParams pol none) 1 i = 1 / 2 := by
  rw [(exIncidence pol none).kx_eq rfl]
  have : ((i : ℕ) : ℤ) - (((exParams pol none).fto.1 : ℕ) : ℤ) = 0 := by
    have := i.2
    simp only [exParams] at this ⊢
    omega
  rw [this, Real.sin_pi_div_six]
  push_cast
  norm_num

theorem exKz (pol : ℝ) (i : Fin (2 * (exParams pol none).fto.1 + 1)) :
    kz1d 1 (kxVec (exParams pol none) 1) i = ((Real.sqrt 3 / 2 : ℝ) : ℂ) := by
  unfold kz1d
  rw [exKx]
  have h3 : (Real.sqrt 3) ^ 2 = 3 := Real.sq_sqrt (by norm_num)
  have : (1 : ℂ) ^ 2 - (1 / 2) ^ 2 = ((Real.sqrt 3 / 2 : ℝ) : ℂ) ^ 2 := by
    rw [← Complex.ofReal_pow, div_pow (Real.sqrt 3), h3]; push_cast; norm_num
  rw [this, csqrt_ofReal_sq (by positivity), Complex.star_def, Complex.conj_ofReal]

theorem exScalars {v : ℝ} (hv : 0 < v) :
    (1 : ℂ) + Complex.I * ((Real.sqrt 3 / 2 : ℝ) : ℂ) / (Complex.I * v) ≠ 0 ∧
    ∀ x2 : ℂ, ‖x2‖ = 1 → Complex.I * v * (1 - x2 * dr (Complex.I * v) ((Real.sqrt 3 / 2 : ℝ) : ℂ))
      + Complex.I * ((Real.sqrt 3 / 2 : ℝ) : ℂ) * (1 + x2 * dr (Complex.I * v) ((Real.sqrt 3 / 2 : ℝ) : ℂ)) ≠ 0 := by
  have hs : 0 < Real.sqrt 3 / 2 := by positivity
  set y := Real.sqrt 3 / 2
  have e : Complex.I * (y : ℂ) / (Complex.I * v) = ((y / v : ℝ) : ℂ) := by
    push_cast
    rw [mul_div_mul_left _ _ Complex.I_ne_zero]
  have hyv : 0 < y / v := div_pos hs hv
  have h1 : (1 : ℂ) + ((y / v : ℝ) : ℂ) ≠ 0 := by norm_cast; linarith
  have hvc : (v : ℂ) ≠ 0 := by exact_mod_cast hv.ne'
  refine ⟨by rw [e]; exact h1, fun x2 hx h0 => ?_⟩
  unfold dr at h0
  rw [e] at h0
  have h3 : ((v : ℂ) + y) ^ 2 = x2 * ((v : ℂ) - y) ^ 2 := by
    have h2 : (1 : ℂ) + (y : ℂ) / v ≠ 0 := by simpa using h1
    have h4 : (v : ℂ) + y ≠ 0 := by norm_cast; linarith
    push_cast at h0
    field_simp at h0
    rw [mul_zero] at h0
    have h6 := (mul_eq_zero.mp h0).resolve_left Complex.I_ne_zero
    linear_combination h6
  have h5 := congrArg norm h3
  rw [norm_mul, hx, one_mul, norm_pow, norm_pow, ← Complex.ofReal_add, ← Complex.ofReal_sub,
    Complex.norm_real, Complex.norm_real, Real.norm_eq_abs, Real.norm_eq_abs, sq_abs, sq_abs] at h5
  nlinarith [mul_pos hv hs]

theorem exPhase (k q d : ℝ) :
    ‖Complex.exp (-(k : ℂ) * (Complex.I * q) * (d : ℂ)) ^ 2‖ = 1 := by
  rw [norm_pow, Complex.norm_exp]
  simp

theorem exSettings_grating (pol : ℝ) (h : pol = 0 ∨ pol = 1) : gratingType (exSettings pol none) = 0 := by
  simp [gratingType, exSettings, exCell, exParams, h]

theorem exConv_row : exConv.row = (⟨diagonal fun _ => 8 / 5, diagonal fun _ => 5 / 2, diagonal fun _ => 2 / 5⟩ :
      Conv (Fin (2 * 0 + 1))) := by
  unfold Conv.row exConv
  simp only [Conv.mk.injEq]
  refine ⟨?_, ?_, ?_⟩ <;> (ext i j; obtain rfl := Subsingleton.elim i j; simp)

theorem exConvMats (pol : ℝ) (phi : Option ℂ) : convMats exLA (exSettings pol phi) = .ok [exConv] := by
  unfold convMats
  simp only [exSettings, exParams, if_true]
  exact exCell_conv exLA

theorem ex1d_ok {pol : ℝ} (hpol : pol = 0 ∨ pol = 1) {q v : ℝ} (hv : 0 < v)
    (hq' : dq pol (1 / 2) (8 / 5) (5 / 2) (2 / 5) = Complex.I * q)
    (hv' : dv pol (1 / 2) (8 / 5) (5 / 2) (2 / 5) = Complex.I * v) :
    ∃ o, conv_solve exLA (exSettings pol none) = .ok (.tetm o) := by
  have hy : ∀ z : ℂ, dy pol z 1 = z := by intro z; simp [dy]
  have h : ∃ o, solve_1d exLA (exParams pol none) 1
      [⟨diagonal fun _ => 8 / 5, diagonal fun _ => 5 / 2, diagonal fun _ => 2 / 5⟩] = .ok o := by
    have hs := exScalars hv
    refine solve_1d_diag_ok rfl hpol rfl _ _ _ (fun _ => by norm_num) ?_ ?_ ?_ []
    · intro i
      simp only [exKx, show (exParams pol none).pol = pol from rfl, hv']
      exact mul_ne_zero Complex.I_ne_zero (by exact_mod_cast hv.ne')
    · intro i
      simp only [exKx, show (exParams pol none).pol = pol from rfl, hv',
        show (exParams pol none).n_bot = 1 from rfl, exKz, hy]
      exact hs.1
    · intro i
      simp only [exKx, show (exParams pol none).pol = pol from rfl, hv', hq',
        show (exParams pol none).n_bot = 1 from rfl, show (exParams pol none).n_top = 1 from rfl, exKz, hy]
      exact hs.2 _ (exPhase _ _ _)
  obtain ⟨o, ho⟩ := h
  refine ⟨o, conv_solve_tetm.mpr ⟨[exConv], exConvMats pol none, exSettings_grating pol hpol, rfl, ?_⟩⟩
  have : [exConv].map Conv.row = [(⟨diagonal fun _ => 8 / 5, diagonal fun _ => 5 / 2, diagonal fun _ => 2 / 5⟩ :
      Conv (Fin (2 * 0 + 1)))] := by simp only [List.map_cons, List.map_nil, exConv_row]
  exact (congrArg (solve_1d exLA (exParams pol none) 1) this).trans ho

/-- The TE example problem is solved successfully. -/
theorem exTE_ok : ∃ o, conv_solve exLA (exSettings 0 none) = .ok (.tetm o) := by
  have hq : dq 0 (1 / 2) (8 / 5) (5 / 2) (2 / 5) = Complex.I * ((3 / 2 : ℝ) : ℂ) := by
    unfold dq
    rw [if_pos rfl, ← csqrt_neg_sq (by norm_num)]
    congr 1; push_cast; norm_num
  exact ex1d_ok (.inl rfl) (q := 3 / 2) (v := 3 / 2) (by norm_num) hq (by unfold dv; rw [if_pos rfl, hq])

/-- The TM example problem is solved successfully. -/
theorem exTM_ok : ∃ o, conv_solve exLA (exSettings 1 none) = .ok (.tetm o) := by
  have hq : dq 1 (1 / 2) (8 / 5) (5 / 2) (2 / 5) = Complex.I * ((6 / 5 : ℝ) : ℂ) := by
    unfold dq
    rw [if_neg one_ne_zero, ← csqrt_neg_sq (by norm_num)]
    congr 1; push_cast; norm_num
  refine ex1d_ok (.inr rfl) (q := 6 / 5) (v := 3 / 4) (by norm_num) hq ?_
  unfold dv
  rw [if_neg one_ne_zero, hq]; push_cast; ring

theorem RealIncidence.of_spec {p : Params} (h : Spec.RealIllumination p) :
    RealIncidence p p.n_top.re p.theta.re where
  hn := Complex.ext rfl h.n_top_real
  hnt := h.n_top_pos
  hth := Complex.ext rfl h.theta_real
  lo := h.theta_lo
  hi := h.theta_hi

theorem exSettings_lossless (pol : ℝ) (phi : Option ℂ) (hphi : ∀ φ, phi = some φ → Spec.IsReal φ) :
    Spec.LosslessProblem (exSettings pol phi) := by
  have := Real.pi_pos
  refine ⟨⟨?_, ?_, ?_, ?_, ?_, hphi, ?_, ?_, ?_, ?_⟩, ?_, ?_, ?_⟩ <;>
    simp only [exSettings, exParams, Spec.IsReal, Complex.ofReal_im, Complex.ofReal_re, Complex.one_re,
      Complex.one_im, zero_lt_one] <;> try linarith
  intro l hl i j
  obtain rfl : l = fun _ j => if j = (0 : Fin 2) then 1 else 2 := by
    rcases List.mem_cons.mp hl with h | h
    · exact h
    · cases h
  simp only [Spec.IsReal]
  split <;> simp

end Meent
