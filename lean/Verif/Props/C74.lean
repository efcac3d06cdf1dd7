import Verif.Lemmas.SignSpec
import Verif.Props.C18
import Verif.Props.C69
import Verif.Props.C73

/-!
# C74: the sum of the efficiencies tells loss from gain

The documented check on the sign of a refractive index: a structure entered as `n - i k` absorbs, the same structure entered as
`n + i k` amplifies, and the sum of all efficiencies says which.  Property C03 has the bound for absorbing rasters; here are vector
structures, gain, and the strict inequalities.
-/

open Matrix

set_option linter.unusedVariables false
set_option linter.unusedSimpArgs false

namespace Meent

/-- The structure with every index `n - i k` entered as `n + i k`. -/
def Spec.wrongSign (u : Ucell) : Ucell := ⟨u.ny, u.nx, u.layers.map fun l i j => star (l i j)⟩

private theorem loss_sign {n : ℂ} (h : Spec.PassiveMedium n) : SignMedium 1 n := ⟨h.1, by have := h.2; linarith⟩

private theorem gain_sign {n : ℂ} (h : Spec.GainMedium n) : SignMedium (-1) n := ⟨h.1, by have := h.2; linarith⟩

private theorem loss_strict {n : ℂ} (h : Spec.AbsorbingMedium n) : StrictMedium 1 n := ⟨h.1, by have := h.2; linarith⟩

private theorem gain_strict {n : ℂ} (h : Spec.AmplifyingMedium n) : StrictMedium (-1) n := ⟨h.1, by have := h.2; linarith⟩

theorem Spec.MadeOf.mono {P Q : ℂ → Prop} {s : Settings} (h : Spec.MadeOf P s) (hPQ : ∀ n, Spec.Occurs s n → P n → Q n) :
    Spec.MadeOf Q s :=
  { h with media := fun n hn => hPQ n hn (h.media n hn) }

theorem Spec.Shows.mono {P Q : ℂ → Prop} {s : Settings} (hPQ : ∀ n, P n → Q n) (h : Spec.Shows s P) : Spec.Shows s Q := by
  obtain ⟨k, d, hk, hd, h⟩ := h
  refine ⟨k, d, hk, hd, ?_⟩
  unfold Spec.LayerShows at h ⊢
  split at h
  · obtain ⟨hf, l, hl, i, j, hP⟩ := h
    exact ⟨hf, l, hl, i, j, hPQ _ hP⟩
  · obtain ⟨cells, c, h1, h2, i, j, hP⟩ := h
    exact ⟨cells, c, h1, h2, i, j, hPQ _ hP⟩

private theorem sign_totals {la : LinAlg} {s : Settings} {σ : ℝ} (hσ : σ = 1 ∨ σ = -1) (hp : s.p.use_pinv = false) (ha : s.algo = .tmm)
    (h : Spec.MadeOf (SignMedium σ) s) {sol : Solved s.p.fto.1 s.p.fto.2} (hs : conv_solve la s = .ok sol) :
    Spec.Totals sol.result (Balance σ (Spec.Shows s (StrictMedium σ))) := by
  obtain ⟨h0, h12⟩ := conv_solve_sign hσ hp ha h hs
  exact numpy_totals h0 h12 hs

theorem Spec.Totals.mono {fx fy : ℕ} {r : Result fx fy} {P Q : ℝ → Prop} (hPQ : ∀ x, P x → Q x) (h : Spec.Totals r P) : Spec.Totals r Q :=
  ⟨h.1, fun x hx => hPQ _ (h.2 x hx)⟩

/-! ### NumPy -/

/-- **C74, loss.**  If no medium amplifies, the efficiencies of every reported dictionary add up to at most one. -/
theorem C74_loss (la : LinAlg) (s : Settings) (hp : s.p.use_pinv = false) (ha : s.algo = .tmm) (h : Spec.MadeOf Spec.PassiveMedium s)
    (sol : Solved s.p.fto.1 s.p.fto.2) (hs : conv_solve la s = .ok sol) : Spec.Totals sol.result (· ≤ 1) :=
  (sign_totals (Or.inl rfl) hp ha (h.mono fun _ _ => loss_sign) hs).mono fun x hx => by have := hx.1; linarith

/-- **C74, strict loss.**  If moreover a layer of positive thickness shows the light an absorbing medium, they add up to less
than one. -/
theorem C74_strict_loss (la : LinAlg) (s : Settings) (hp : s.p.use_pinv = false) (ha : s.algo = .tmm)
    (h : Spec.MadeOf Spec.PassiveMedium s) (hm : Spec.Shows s Spec.AbsorbingMedium) (sol : Solved s.p.fto.1 s.p.fto.2)
    (hs : conv_solve la s = .ok sol) : Spec.Totals sol.result (· < 1) :=
  (sign_totals (Or.inl rfl) hp ha (h.mono fun _ _ => loss_sign) hs).mono fun x hx => by
    have := hx.2 (hm.mono fun _ => loss_strict); linarith

/-- **C74, gain.**  If no medium absorbs, the efficiencies of every reported dictionary add up to at least one. -/
theorem C74_gain (la : LinAlg) (s : Settings) (hp : s.p.use_pinv = false) (ha : s.algo = .tmm) (h : Spec.MadeOf Spec.GainMedium s)
    (sol : Solved s.p.fto.1 s.p.fto.2) (hs : conv_solve la s = .ok sol) : Spec.Totals sol.result (1 ≤ ·) :=
  (sign_totals (Or.inr rfl) hp ha (h.mono fun _ _ => gain_sign) hs).mono fun x hx => by have := hx.1; linarith

/-- **C74, strict gain.**  If moreover a layer of positive thickness shows the light an amplifying medium, they add up to more
than one. -/
theorem C74_strict_gain (la : LinAlg) (s : Settings) (hp : s.p.use_pinv = false) (ha : s.algo = .tmm)
    (h : Spec.MadeOf Spec.GainMedium s) (hm : Spec.Shows s Spec.AmplifyingMedium) (sol : Solved s.p.fto.1 s.p.fto.2)
    (hs : conv_solve la s = .ok sol) : Spec.Totals sol.result (1 < ·) :=
  (sign_totals (Or.inr rfl) hp ha (h.mono fun _ _ => gain_sign) hs).mono fun x hx => by
    have := hx.2 (hm.mono fun _ => gain_strict); linarith

/-- **C74, diagnosis.**  Among structures whose indices have non-negative real parts: if the efficiencies of some reported dictionary
add up to more than one, some index has a positive imaginary part; if to less than one, some index has a negative one. -/
theorem C74_diagnosis (la : LinAlg) (s : Settings) (hp : s.p.use_pinv = false) (ha : s.algo = .tmm)
    (h : Spec.MadeOf (fun n => 0 ≤ n.re) s) (sol : Solved s.p.fto.1 s.p.fto.2) (hs : conv_solve la s = .ok sol)
    (x : SubRes (2 * s.p.fto.2 + 1) (2 * s.p.fto.1 + 1)) (hx : Spec.Reports sol.result x) :
    (1 < Spec.totalEfficiency x → ∃ n, Spec.Occurs s n ∧ 0 < n.im) ∧ (Spec.totalEfficiency x < 1 → ∃ n, Spec.Occurs s n ∧ n.im < 0) := by
  constructor <;> intro h1 <;> by_contra hn <;> push Not at hn
  · exact absurd ((C74_loss la s hp ha (h.mono fun n ho hr => ⟨hr, hn n ho⟩) sol hs).2 x hx) (by linarith)
  · exact absurd ((C74_gain la s hp ha (h.mono fun n ho hr => ⟨hr, hn n ho⟩) sol hs).2 x hx) (by linarith)

private theorem wrong_made {s : Settings} {u : Ucell} (hu : s.ucell = .raster u) (h : Spec.MadeOf Spec.PassiveMedium s) :
    Spec.MadeOf Spec.GainMedium (Spec.withUcell s (.raster (Spec.wrongSign u))) where
  toRealIllumination := h.toRealIllumination
  media := by
    rintro n ⟨l, hl, i, j, rfl⟩
    obtain ⟨l', hl', rfl⟩ := List.mem_map.mp hl
    have h1 : Spec.PassiveMedium (l' i j) := h.media _ (by unfold Spec.Occurs; rw [hu]; exact ⟨l', hl', i, j, rfl⟩)
    exact ⟨h1.1, by have := h1.2; simpa using this⟩
  geometry := fun ls hl => by cases hl
  thickness_nonneg := h.thickness_nonneg
  n_bot_real := h.n_bot_real
  n_bot_pos := h.n_bot_pos

private theorem wrong_shows {s : Settings} {u : Ucell} (hu : s.ucell = .raster u) (h : Spec.Shows s Spec.AbsorbingMedium) :
    Spec.Shows (Spec.withUcell s (.raster (Spec.wrongSign u))) Spec.AmplifyingMedium := by
  obtain ⟨k, d, hk, hd, h⟩ := h
  unfold Spec.LayerShows at h
  rw [hu] at h
  obtain ⟨hf, l, hl, i, j, hP⟩ := h
  refine ⟨k, d, hk, hd, hf, fun i j => star (l i j), ?_, i, j, hP.1, by have := hP.2; simpa using this⟩
  show (u.layers.map fun l i j => star (l i j))[k]? = _
  rw [List.getElem?_map, hl]
  rfl

/-- **C74, the documented check.**  Take a raster of media without gain, in which a layer of positive thickness shows the light an
absorbing medium.  Entered in the documented convention `n - i k`, all efficiencies together stay below one; entered as `n + i k`, they
exceed one. -/
theorem C74_check (la : LinAlg) (s : Settings) (hp : s.p.use_pinv = false) (ha : s.algo = .tmm) (u : Ucell) (hu : s.ucell = .raster u)
    (h : Spec.MadeOf Spec.PassiveMedium s) (hm : Spec.Shows s Spec.AbsorbingMedium) (sol sol' : Solved s.p.fto.1 s.p.fto.2)
    (hs : conv_solve la s = .ok sol) (hs' : conv_solve la (Spec.withUcell s (.raster (Spec.wrongSign u))) = .ok sol') :
    Spec.Totals sol.result (· < 1) ∧ Spec.Totals sol'.result (1 < ·) :=
  ⟨C74_strict_loss la s hp ha h hm sol hs, C74_strict_gain la (Spec.withUcell s (.raster (Spec.wrongSign u))) hp ha (wrong_made hu h) (wrong_shows hu hm) sol' hs'⟩

/-! ### JAX -/

/-- **C74, JAX.**  The same four laws, whenever the JAX backend solves the problem. -/
theorem C74_jax (env : Jax.Env) (s : Settings) (hp : s.p.use_pinv = false) (ha : s.algo = .tmm) (hr : Spec.JaxReady s)
    (sol : Solved s.p.fto.1 s.p.fto.2) (hs : Jax.conv_solve env s = .ok sol) :
    (Spec.MadeOf Spec.PassiveMedium s → Spec.Totals sol.result (· ≤ 1) ∧
      (Spec.Shows s Spec.AbsorbingMedium → Spec.Totals sol.result (· < 1))) ∧
    (Spec.MadeOf Spec.GainMedium s → Spec.Totals sol.result (1 ≤ ·) ∧
      (Spec.Shows s Spec.AmplifyingMedium → Spec.Totals sol.result (1 < ·))) := by
  have hn := C57_jax_to_numpy env s hr.pixels hr.ellipses hr.layers sol hs
  exact ⟨fun h => ⟨C74_loss _ s hp ha h sol hn, fun hm => C74_strict_loss _ s hp ha h hm sol hn⟩,
    fun h => ⟨C74_gain _ s hp ha h sol hn, fun hm => C74_strict_gain _ s hp ha h hm sol hn⟩⟩

/-! ### PyTorch -/

private theorem made_psi {P : ℂ → Prop} {s : Settings} {psi : ℂ} (hpsi : Spec.IsReal psi) (h : Spec.MadeOf P s) :
    Spec.MadeOf P (Spec.withPsi s psi) :=
  { h.toRealIllumination with
    psi_real := hpsi
    media := h.media
    geometry := h.geometry
    thickness_nonneg := h.thickness_nonneg
    n_bot_real := h.n_bot_real
    n_bot_pos := h.n_bot_pos }

/-- **C74, PyTorch.**  Problems that NumPy solves are solved by the PyTorch backend, and the same four laws hold for what it reports.  Left
out, as in C40: `phi` exactly zero on a one-row raster that NumPy solves as conical, and 2D eigenvalues so small that PyTorch
replaces them. -/
theorem C74_torch (la : LinAlg) (s : Settings) (hp : s.p.use_pinv = false) (ha : s.algo = .tmm)
    (sol : Solved s.p.fto.1 s.p.fto.2) (hs : conv_solve la s = .ok sol) (hr : Spec.TorchReady s sol) :
    ∃ t : Solved s.p.fto.1 s.p.fto.2, tConv_solve la s.torch = .ok t ∧
    (Spec.MadeOf Spec.PassiveMedium s → Spec.Totals t.result (· ≤ 1) ∧
      (Spec.Shows s Spec.AbsorbingMedium → Spec.Totals t.result (· < 1))) ∧
    (Spec.MadeOf Spec.GainMedium s → Spec.Totals t.result (1 ≤ ·) ∧
      (Spec.Shows s Spec.AmplifyingMedium → Spec.Totals t.result (1 < ·))) := by
  obtain ⟨t, ht, h⟩ := torch_totals (P := fun x =>
    (Spec.MadeOf Spec.PassiveMedium s → x ≤ 1 ∧ (Spec.Shows s Spec.AbsorbingMedium → x < 1)) ∧
    (Spec.MadeOf Spec.GainMedium s → 1 ≤ x ∧ (Spec.Shows s Spec.AmplifyingMedium → 1 < x))) hr.claddings ha hr.azimuth hs hr.modes (by
      intro psi hpsi sol' hs'
      have hd : ∃ x, sol'.result.res = some x := by
        rcases conv_solve_cases hs' with ⟨-, o, rfl⟩ | ⟨-, ⟨o, rfl⟩ | rfl⟩ | ⟨-, o, rfl⟩
        · exact ⟨_, rfl⟩
        · exact ⟨_, rfl⟩
        · have := (solve_for_conv_smm.mp (conv_solve_ok.mp hs').choose_spec.2).2
          rw [show (Spec.withPsi s psi).algo = s.algo from rfl, ha] at this; cases this
        · exact ⟨_, rfl⟩
      refine ⟨hd, fun x hx => ⟨fun h => ⟨?_, fun hm => ?_⟩, fun h => ⟨?_, fun hm => ?_⟩⟩⟩
      · exact (C74_loss la (Spec.withPsi s psi) hp ha (made_psi hpsi h) sol' hs').2 x hx
      · exact (C74_strict_loss la (Spec.withPsi s psi) hp ha (made_psi hpsi h) hm sol' hs').2 x hx
      · exact (C74_gain la (Spec.withPsi s psi) hp ha (made_psi hpsi h) sol' hs').2 x hx
      · exact (C74_strict_gain la (Spec.withPsi s psi) hp ha (made_psi hpsi h) hm sol' hs').2 x hx)
  exact ⟨t, ht, fun hm => ⟨h.mono fun x hx => (hx.1 hm).1, fun hm' => h.mono fun x hx => (hx.1 hm).2 hm'⟩,
    fun hm => ⟨h.mono fun x hx => (hx.2 hm).1, fun hm' => h.mono fun x hx => (hx.2 hm).2 hm'⟩⟩

/-! ### A slab with gain -/

/-- A slab of index `3 + i` and thickness `d` in air, TE light of wavelength 1 at normal incidence. -/
noncomputable def gainSettings (d : ℝ) : Settings where
  p := { exParams 0 none with theta := 0, thickness := [d] }
  ucell := .raster (Spec.homogeneousRaster 1 2 [3 + Complex.I])
  fourier_type := 1
  enhanced_dfs := false
  algo := .tmm

private theorem gain_illumination (d : ℝ) : Spec.RealIllumination (gainSettings d).p := by
  have h := lossy_illumination 0 none (by simp) 0 0
  have := Real.pi_pos
  exact ⟨h.n_top_real, h.n_top_pos, rfl, by simp [gainSettings]; linarith, by simp [gainSettings]; linarith, h.phi_real, h.psi_real,
    h.wavelength_pos, h.period_x_pos, h.period_y_pos⟩

theorem gainSettings_made {d : ℝ} (hd : 0 ≤ d) : Spec.MadeOf Spec.GainMedium (gainSettings d) where
  toRealIllumination := gain_illumination d
  media := by
    rintro n ⟨l, hl, i, j, rfl⟩
    obtain rfl := List.mem_singleton.mp hl
    simp [Spec.GainMedium]
  geometry := fun ls h => by cases h
  thickness_nonneg := by simp [gainSettings, hd]
  n_bot_real := rfl
  n_bot_pos := by simp [gainSettings, exParams]

theorem gainSettings_shows {d : ℝ} (hd : 0 < d) : Spec.Shows (gainSettings d) Spec.AmplifyingMedium :=
  ⟨0, d, rfl, hd, Or.inl rfl, _, rfl, (0 : Fin 1), (0 : Fin 2), by simp [Spec.AmplifyingMedium]⟩

private theorem gain_q : csqrt (-(3 + Complex.I) ^ 2) = 1 - 3 * Complex.I := by
  have h1 := csqrt_sq (-(3 + Complex.I) ^ 2)
  have h2 : csqrt (-(3 + Complex.I) ^ 2) ^ 2 = (1 - 3 * Complex.I) ^ 2 := by
    rw [h1]; linear_combination (-10 : ℂ) * Complex.I_sq
  rcases sq_eq_sq_iff_eq_or_eq_neg.mp h2 with h | h
  · exact h
  · have := csqrt_re_nonneg (-(3 + Complex.I) ^ 2)
    rw [h] at this
    simp at this
    linarith

private theorem gain_kx (d : ℝ) (i : Fin (2 * (gainSettings d).p.fto.1 + 1)) : kxVec (gainSettings d).p 1 i = 0 := by
  have h := kxVec_order (gain_illumination d) i
  rw [show (gainSettings d).p.wavelength = 1 from rfl] at h
  rw [h]
  have hi : Spec.colOrder i = 0 := by
    have := i.2
    simp only [gainSettings, exParams] at this
    simp only [Spec.colOrder, gainSettings, exParams]
    omega
  rw [hi]
  simp [Spec.orderKx, gainSettings]

private theorem gain_kz (d : ℝ) (i : Fin (2 * (gainSettings d).p.fto.1 + 1)) : kz1d 1 (kxVec (gainSettings d).p 1) i = 1 := by
  unfold kz1d
  rw [gain_kx]
  have := csqrt_ofReal_sq (x := 1) (by norm_num)
  simp at this ⊢
  rw [this]; simp

theorem slab_pole {q j X : ℂ} (hq : q ≠ 0) (hj : q + j ≠ 0)
    (h : q * (1 - X * ((1 - j / q) / (1 + j / q))) + j * (1 + X * ((1 - j / q) / (1 + j / q))) = 0) : (q + j) ^ 2 = X * (q - j) ^ 2 := by
  have e : (1 - j / q) / (1 + j / q) = (q - j) / (q + j) := by
    rw [show 1 - j / q = (q - j) / q by rw [sub_div, div_self hq], show 1 + j / q = (q + j) / q by rw [add_div, div_self hq],
      div_div_div_cancel_right₀ hq]
  rw [e] at h
  have e2 : (q - j) / (q + j) * (q + j) = q - j := div_mul_cancel₀ _ hj
  linear_combination (q + j) * h + (q - j) * X * e2

/-- The slab is solved if it is thick enough. -/
theorem gain_ok {d : ℝ} (hd : 1 / 3 ≤ d) : ∃ o, conv_solve exLA (gainSettings d) = .ok (.tetm o) := by
  have h : ∃ o, solve_1d exLA (gainSettings d).p 1 [⟨diagonal fun _ => (3 + Complex.I) ^ 2, diagonal fun _ => (3 + Complex.I) ^ 2,
      diagonal fun _ => ((3 + Complex.I) ^ 2)⁻¹⟩] = .ok o := by
    have hn : (3 + Complex.I) ≠ 0 := fun h => by have := congrArg Complex.im h; simp at this
    have hq : dq 0 0 ((3 + Complex.I) ^ 2) ((3 + Complex.I) ^ 2) ((3 + Complex.I) ^ 2)⁻¹ = 1 - 3 * Complex.I := by
      unfold dq
      rw [if_pos rfl, ← gain_q]
      congr 1; ring
    have hv : dv 0 0 ((3 + Complex.I) ^ 2) ((3 + Complex.I) ^ 2) ((3 + Complex.I) ^ 2)⁻¹ = 1 - 3 * Complex.I := by
      unfold dv; rw [if_pos rfl, hq]
    have hq0 : (1 - 3 * Complex.I) ≠ 0 := fun h => by have := congrArg Complex.re h; simp at this
    have hqp : (1 - 3 * Complex.I) + Complex.I ≠ 0 := fun h => by have := congrArg Complex.re h; simp at this
    have hd1 : 1 + Complex.I / (1 - 3 * Complex.I) ≠ 0 := by
      rw [show 1 + Complex.I / (1 - 3 * Complex.I) = ((1 - 3 * Complex.I) + Complex.I) / (1 - 3 * Complex.I) by rw [add_div, div_self hq0]]
      exact div_ne_zero hqp hq0
    refine solve_1d_diag_ok (p := (gainSettings d).p) (d := d) rfl (Or.inl rfl) rfl _ _ _ (fun _ => pow_ne_zero 2 hn) ?_ ?_ ?_ []
    · intro i
      simp only [gain_kx, show (gainSettings d).p.pol = 0 from rfl, hv]
      exact hq0
    · intro i
      simp only [gain_kx, show (gainSettings d).p.pol = 0 from rfl, hv, show (gainSettings d).p.n_bot = 1 from rfl, gain_kz, dy, if_true, mul_one]
      exact hd1
    · intro i
      simp only [gain_kx, show (gainSettings d).p.pol = 0 from rfl, hv, hq, show (gainSettings d).p.n_bot = 1 from rfl,
        show (gainSettings d).p.n_top = 1 from rfl, gain_kz, dy, if_true, mul_one, dr]
      set X : ℂ := Complex.exp (-((2 * Real.pi / 1 : ℝ) : ℂ) * (1 - 3 * Complex.I) * d) ^ 2 with hX
      have hXn : ‖X‖ < 5 / 17 := by
        rw [hX, norm_pow, Complex.norm_exp]
        have : (-((2 * Real.pi / 1 : ℝ) : ℂ) * (1 - 3 * Complex.I) * d).re = -(2 * Real.pi * d) := by simp
        rw [this, ← Real.exp_nat_mul, show ((2 : ℕ) : ℝ) * -(2 * Real.pi * d) = -(4 * Real.pi * d) by push_cast; ring, Real.exp_neg]
        have h1 := Real.add_one_le_exp (4 * Real.pi * d)
        have h2 := Real.pi_gt_three
        have h3 : 4 ≤ 4 * Real.pi * d := by nlinarith
        rw [inv_lt_comm₀ (by positivity) (by norm_num)]
        norm_num; linarith
      intro h0
      have h1 : (1 - 2 * Complex.I) ^ 2 = X * (1 - 4 * Complex.I) ^ 2 := by
        have := slab_pole hq0 hqp h0
        linear_combination this
      have h2 := congrArg norm h1
      have n1 : ‖(1 - 2 * Complex.I) ^ 2‖ = 5 := by
        rw [norm_pow, ← Complex.normSq_eq_norm_sq]; simp [Complex.normSq_apply]; norm_num
      have n2 : ‖(1 - 4 * Complex.I) ^ 2‖ = 17 := by
        rw [norm_pow, ← Complex.normSq_eq_norm_sq]; simp [Complex.normSq_apply]; norm_num
      rw [norm_mul, n1, n2] at h2
      linarith
  obtain ⟨o, ho⟩ := h
  have hc : convMats exLA (gainSettings d) = .ok [Spec.scalarConv 0 0 (3 + Complex.I)] := by
    unfold convMats
    simp only [gainSettings, exParams]
    exact C18_homogeneous_continuous exLA 1 2 one_pos two_pos [3 + Complex.I]
      (by intro n hn h; obtain rfl := List.mem_singleton.mp hn; have := congrArg Complex.im h; simp at this) 0 0 false
  refine ⟨o, conv_solve_tetm.mpr ⟨_, hc, by simp [gratingType, gainSettings, exParams, Spec.homogeneousRaster], rfl, ?_⟩⟩
  have : [Spec.scalarConv 0 0 (3 + Complex.I)].map Conv.row = [(⟨diagonal fun _ => (3 + Complex.I) ^ 2, diagonal fun _ => (3 + Complex.I) ^ 2,
      diagonal fun _ => ((3 + Complex.I) ^ 2)⁻¹⟩ : Conv (Fin (2 * 0 + 1)))] := by
    simp only [List.map_cons, List.map_nil, Conv.row, Spec.scalarConv, List.cons.injEq, Conv.mk.injEq, and_true]
    refine ⟨?_, ?_, ?_⟩ <;> (ext i j; obtain rfl := Subsingleton.elim i j; simp)
  exact (congrArg (solve_1d exLA (gainSettings d).p 1) this).trans ho

/-- The slab as a thin film. -/
theorem gainSettings_film (d : ℝ) : Spec.FilmProblem (gainSettings d) [⟨3 + Complex.I, 3 + Complex.I, d⟩] 1 where
  toRealIllumination := gain_illumination d
  n_bot_real := rfl
  n_bot_pos := by simp [gainSettings, exParams]
  layers := ⟨one_pos, two_pos, .cons (fun _ _ => rfl) .nil⟩
  thickness := rfl
  refracts := by
    intro x hx
    obtain rfl := List.mem_singleton.mp hx
    have hn : (3 + Complex.I) ≠ 0 := fun h => by have := congrArg Complex.im h; simp at this
    refine ⟨hn, hn, ?_⟩
    simp [gainSettings]
  cosine := by
    refine ⟨?_, ?_, ?_⟩ <;> simp [gainSettings, exParams]

/-- All transmitted light. -/
noncomputable def Spec.totalTransmission {fy fx : ℕ} (x : SubRes fy fx) : ℝ := ∑ j, ∑ i, x.de_ti j i

private theorem slab_T (m : ℕ) : Spec.filmTransmittance 1 1 (Spec.stackMatrix (2 * Real.pi) Spec.Film.teY
      [⟨3 + Complex.I, 3 + Complex.I, (m : ℝ) / 3⟩]) =
    4 / ((2 * Real.cosh (2 * Real.pi * m / 3) - 33 / 10 * Real.sinh (2 * Real.pi * m / 3)) ^ 2 + (9 / 10 * Real.sinh (2 * Real.pi * m / 3)) ^ 2) := by
  set y : ℝ := 2 * Real.pi * m / 3 with hy
  have hδ : ((2 * Real.pi : ℝ) : ℂ) * (3 + Complex.I) * (((m : ℝ) / 3 : ℝ) : ℂ) = (y : ℂ) * Complex.I + m * (2 * Real.pi) := by
    rw [hy]; push_cast; ring
  have hc : Complex.cos ((y : ℂ) * Complex.I + m * (2 * Real.pi)) = ((Real.cosh y : ℝ) : ℂ) := by
    rw [Complex.cos_add_nat_mul_two_pi, Complex.cos_mul_I, Complex.ofReal_cosh]
  have hs : Complex.sin ((y : ℂ) * Complex.I + m * (2 * Real.pi)) = ((Real.sinh y : ℝ) : ℂ) * Complex.I := by
    rw [Complex.sin_add_nat_mul_two_pi, Complex.sin_mul_I, Complex.ofReal_sinh]
  have hi : (3 + Complex.I)⁻¹ = 3 / 10 - Complex.I / 10 := by
    apply inv_eq_of_mul_eq_one_right
    linear_combination (-1 / 10 : ℂ) * Complex.I_sq
  simp only [Spec.filmTransmittance, Spec.filmT, Spec.stackMatrix, List.map_cons, List.map_nil, List.prod_cons, List.prod_nil, mul_one,
    Spec.filmMatrix, Spec.Film.teY, hδ, hc, hs, of_apply, cons_val', cons_val_zero, cons_val_one, one_mul, Complex.one_re, div_one]
  simp only [div_eq_mul_inv, hi]
  generalize Real.cosh y = c
  generalize Real.sinh y = t
  have e : ((c : ℂ) + Complex.I * ((t : ℂ) * Complex.I) * (3 * 10⁻¹ - Complex.I * 10⁻¹) + (Complex.I * (3 + Complex.I) * ((t : ℂ) * Complex.I) + c)) =
      ((2 * c - 33 / 10 * t : ℝ) : ℂ) + ((-(9 / 10 * t) : ℝ) : ℂ) * Complex.I := by
    push_cast
    linear_combination ((33 / 10 : ℂ) * t + 9 / 10 * t * Complex.I) * Complex.I_sq
  have h2 : ∀ z : ℂ, ‖2 * z⁻¹‖ ^ 2 = 4 * (Complex.normSq z)⁻¹ := by
    intro z
    rw [norm_mul, norm_inv, mul_pow, inv_pow, ← Complex.normSq_eq_norm_sq z]; norm_num
  simp only [div_eq_mul_inv] at e ⊢
  rw [e, h2, Complex.normSq_add_mul_I]
  congr 2; ring

/-- The denominator of the transmittance. -/
private noncomputable def slabD (y : ℝ) : ℝ := (2 * Real.cosh y - 33 / 10 * Real.sinh y) ^ 2 + (9 / 10 * Real.sinh y) ^ 2

private theorem slabD_bounds {y : ℝ} (hy : 2 < y) : 4 < slabD y ∧ slabD y < slabD (2 * y) := by
  have key : ∀ y : ℝ, 2 < y → 2 < Real.sinh y ∧ 0 < Real.cosh y ∧ Real.cosh y ^ 2 = Real.sinh y ^ 2 + 1 ∧
      slabD y ≤ 4 + 5 / 2 * Real.sinh y ^ 2 ∧ 5 / 2 * Real.sinh y ^ 2 - 13 / 5 ≤ slabD y := by
    intro y hy
    have h1 : y < Real.sinh y := Real.self_lt_sinh_iff.mpr (by linarith)
    have h2 := Real.cosh_pos y
    have h3 := Real.cosh_sq y
    have e : slabD y = 4 + 157 / 10 * Real.sinh y ^ 2 - 66 / 5 * (Real.sinh y * Real.cosh y) := by
      unfold slabD; linear_combination 4 * h3
    have h4 : Real.sinh y ^ 2 ≤ Real.sinh y * Real.cosh y := by
      have : Real.sinh y ≤ Real.cosh y := (Real.sinh_lt_cosh y).le
      nlinarith
    have h5 : Real.sinh y * Real.cosh y ≤ Real.sinh y ^ 2 + 1 / 2 := by
      rw [← sq_le_sq₀ (by positivity) (by positivity)]
      rw [mul_pow, h3]; nlinarith
    exact ⟨by linarith, h2, h3, by linarith, by linarith⟩
  obtain ⟨a1, a2, a3, a4, a5⟩ := key y hy
  obtain ⟨b1, b2, b3, b4, b5⟩ := key (2 * y) (by linarith)
  rw [Real.sinh_two_mul] at b5
  have h6 : (2 * Real.sinh y * Real.cosh y) ^ 2 = 4 * Real.sinh y ^ 2 * (Real.sinh y ^ 2 + 1) := by rw [← a3]; ring
  rw [h6] at b5
  have h7 : 4 < Real.sinh y ^ 2 := by nlinarith
  constructor
  · nlinarith
  · nlinarith

private theorem gain_transmission {d : ℝ} {m : ℕ} (hd : d = (m : ℝ) / 3) {o : Out1D (2 * 0 + 1)}
    (ho : conv_solve exLA (gainSettings d) = .ok (.tetm o)) (x : SubRes (2 * 0 + 1) (2 * 0 + 1))
    (hx : (Solved.tetm (fx := 0) (fy := 0) o).result.res = some x) : Spec.totalTransmission x = 4 / slabD (2 * Real.pi * m / 3) := by
  subst hd
  have hf := C73_efficiencies exLA _ _ _ (gainSettings_film ((m : ℝ) / 3)) rfl rfl _ ho
  have hT := slab_T m
  rcases hf with ⟨y, hy, h⟩ | ⟨_, _, _, hy, -⟩
  · have hxy : y = x := by
      have : some y = some x := by rw [← hx]; exact (congrArg Result.res hy).symm
      exact Option.some.inj this
    subst hxy
    rcases h with ⟨-, h⟩ | ⟨h, -⟩
    · have e : ∀ j i, y.de_ti j i = 4 / slabD (2 * Real.pi * m / 3) := by
        intro j i
        have hj : Spec.rowOrder j = 0 ∧ Spec.colOrder i = 0 := by
          constructor
          · have := j.2; simp only [gainSettings, exParams] at this; simp only [Spec.rowOrder, gainSettings, exParams]; omega
          · have := i.2; simp only [gainSettings, exParams] at this; simp only [Spec.colOrder, gainSettings, exParams]; omega
        have h1 := h.de_ti j i
        rw [h.de_ti_s, h.de_ti_p, if_pos hj, if_pos hj, zero_mul, add_zero, one_mul] at h1
        rw [h1]
        unfold slabD
        rw [← hT]
        congr 1 <;> simp [gainSettings, exParams, Spec.k0Of]
      unfold Spec.totalTransmission
      refine (Finset.sum_congr rfl fun j _ => Finset.sum_congr rfl fun i _ => e j i).trans ?_
      show (∑ _j : Fin 1, ∑ _i : Fin 1, 4 / slabD (2 * Real.pi * m / 3)) = _
      simp
    · simp [gainSettings, exParams] at h
  · cases hy

/-- **C74 fails for the growth with thickness.**  "Handed `n + ik` a material amplifies instead of absorbing: transmission through a
slab grows with thickness rather than decaying."  In a slab of index `3 + i` in air, a third of a wavelength thick, less than all light is
transmitted, and in one twice as thick even less: what grows is the reflected light, and the sum. -/
theorem C74_thickness_negation : ∃ sol sol', conv_solve exLA (gainSettings (1 / 3)) = .ok sol ∧ conv_solve exLA (gainSettings (2 / 3)) = .ok sol' ∧
    Spec.Totals sol.result (1 < ·) ∧ Spec.Totals sol'.result (1 < ·) ∧
    ∃ x x', sol.result.res = some x ∧ sol'.result.res = some x' ∧
      Spec.totalTransmission x' < Spec.totalTransmission x ∧ Spec.totalTransmission x < 1 := by
  obtain ⟨o, ho⟩ := gain_ok (d := 1 / 3) le_rfl
  obtain ⟨o', ho'⟩ := gain_ok (d := 2 / 3) (by norm_num)
  refine ⟨_, _, ho, ho', C74_strict_gain _ _ rfl rfl (gainSettings_made (by norm_num)) (gainSettings_shows (by norm_num)) _ ho,
    C74_strict_gain _ _ rfl rfl (gainSettings_made (by norm_num)) (gainSettings_shows (by norm_num)) _ ho', _, _, rfl, rfl, ?_⟩
  have h1 := gain_transmission (m := 1) (by norm_num) ho _ rfl
  have h2 := gain_transmission (m := 2) (by norm_num) ho' _ rfl
  have hpi := Real.pi_gt_three
  obtain ⟨b1, b2⟩ := slabD_bounds (y := 2 * Real.pi * (1 : ℕ) / 3) (by push_cast; linarith)
  rw [show 2 * (2 * Real.pi * (1 : ℕ) / 3) = 2 * Real.pi * (2 : ℕ) / 3 by push_cast; ring] at b2
  constructor
  · refine (h2.trans_lt ?_).trans_eq h1.symm
    exact div_lt_div_of_pos_left (by norm_num) (by linarith) b2
  · refine h1.trans_lt ?_
    rw [div_lt_one (by linarith)]; exact b1

/-! ### Non-vacuity -/

/-- Non-vacuity, loss: the two absorbing films of C73, with any numbers of orders, in TE, TM and 2D. -/
example (pol : ℝ) (phi : Option ℂ) (rows f g : ℕ) (hr : 0 < rows)
    (hphi : phi = none ∧ (pol = 0 ∨ pol = 1) ∧ rows = 1 ∧ g = 0 ∨ phi = some 0 ∧ rows = 2) :
    ∃ sol, conv_solve exLA (filmSettings pol phi rows f g) = .ok sol ∧ Spec.Totals sol.result (· < 1) := by
  have ha := filmSettings_absorbing pol phi rows f g hr hphi
  obtain ⟨sol, hs, -⟩ := C73_absorbing exLA exLA_basis _ exFilms _
    (filmSettings_films pol phi (by rcases hphi with ⟨rfl, -⟩ | ⟨rfl, -⟩ <;> intro φ h <;> cases h; rfl) rows f g hr) rfl rfl ha rows 2 _ rfl
  refine ⟨sol, hs, C74_strict_loss _ _ rfl rfl
    { ha.toRealIllumination with
      media := ?_
      geometry := fun ls h => by cases h
      thickness_nonneg := fun d hd => (ha.thickness_pos d hd).le
      n_bot_real := ha.n_bot_real
      n_bot_pos := ha.n_bot_pos }
    ⟨0, 1 / 3, rfl, by norm_num, Or.inl rfl, _, rfl, ⟨0, hr⟩, (0 : Fin 2), by simp [Spec.AbsorbingMedium]⟩ sol hs⟩
  rintro n ⟨l, hl, i, j, rfl⟩
  rcases List.mem_cons.mp hl with rfl | hl
  · simp [Spec.PassiveMedium]
  · obtain rfl := List.mem_singleton.mp hl
    simp [Spec.PassiveMedium]

/-- Non-vacuity, gain: the slab of any thickness from a third of a wavelength, on the three backends. -/
example (d : ℝ) (hd : 1 / 3 ≤ d) : ∃ o t, conv_solve exLA (gainSettings d) = .ok (.tetm o) ∧
    Spec.Totals (Solved.tetm (fx := 0) (fy := 0) o).result (1 < ·) ∧ Spec.JaxReady (gainSettings d) ∧
    (∀ env : Jax.Env, env.la = exLA → Jax.conv_solve env (gainSettings d) = .ok (.tetm o)) ∧
    tConv_solve exLA (gainSettings d).torch = .ok t ∧ Spec.Totals t.result (1 < ·) := by
  obtain ⟨o, ho⟩ := gain_ok hd
  have hm := gainSettings_made (d := d) (by linarith)
  have hs := gainSettings_shows (d := d) (by linarith)
  have hg : gratingType (gainSettings d) = 0 := by simp [gratingType, gainSettings, exParams, Spec.homogeneousRaster]
  obtain ⟨t, ht, -, h⟩ := C74_torch exLA (gainSettings d) rfl rfl _ ho
    ⟨⟨hm.toRealIllumination, hm.n_bot_real, hm.n_bot_pos⟩, fun h => by omega, fun o h => by cases h⟩
  refine ⟨o, t, ho, C74_strict_gain _ _ rfl rfl hm hs _ ho, ⟨?_, fun ls h => (by cases h), ?_⟩, ?_, ht, (h hm).2 hs⟩
  · intro u hu; cases hu; exact ⟨one_pos, two_pos⟩
  · simp [gainSettings, Spec.layerCount, Spec.homogeneousRaster]
  · intro env he
    exact C57_numpy_to_jax_partial env _ (Or.inl rfl) _ (by rw [he]; exact ho)

/-- The films of C73 are what the documented check needs: absorbing as entered, amplifying with the wrong sign. -/
example : Spec.AbsorbingMedium (2 - Complex.I) ∧ Spec.AmplifyingMedium (star (2 - Complex.I)) := by
  simp [Spec.AbsorbingMedium, Spec.AmplifyingMedium]

end Meent

#print axioms Meent.C74_loss
#print axioms Meent.C74_strict_loss
#print axioms Meent.C74_gain
#print axioms Meent.C74_strict_gain
#print axioms Meent.C74_diagnosis
#print axioms Meent.C74_check
#print axioms Meent.C74_jax
#print axioms Meent.C74_torch
#print axioms Meent.C74_thickness_negation
