import Verif.Lemmas.Pipeline
import Verif.Props.C74
import Verif.Props.C28
import Verif.Props.C31

/-!
# C75: structures filled with materials

A ucell of labels is filled with `put_refractive_index_in_ucell` and solved. The signs in the material data then decide whether the
reported efficiencies may add up to more than one.
-/

namespace Meent

open Matrix

section
variable {L ny nx : ℕ}

/-! ### Indices -/

/-- **C75, indices.**  Published data never become an amplifying index, clear materials get a real index, and flipped data never become
an absorbing one.  No real part is negative. -/
theorem C75_index (sp : SciPy) (disk : Res Table) (cache : Table) (wl : ℝ) (m : Material) (z : ℂ)
    (h : Spec.IndexOf sp disk cache wl m (some z)) :
    (Spec.IsFaddeeva sp.wofz → 0 < wl → Spec.SafeMaterial disk cache m → Spec.PassiveMedium z) ∧
    (Spec.ClearMaterial disk cache m → 0 ≤ z.re ∧ z.im = 0) ∧
    (Spec.FlippedMaterial disk cache m → Spec.GainMedium z) :=
  ⟨fun hw hwl hm => safe_index hw hwl hm h, fun hm => clear_index hm h, fun hm => flipped_index hm h⟩

/-! ### Efficiencies -/

/-- **C75, published data.**  A structure filled with published data does not amplify, and it absorbs if a labelled material does. -/
theorem C75_safe (la : LinAlg) (sp : SciPy) (hw : Spec.IsFaddeeva sp.wofz) (disk : Res Table) (cache : Table) (mats : List Material) (wl : ℝ)
    (hwl : 0 < wl) (hm : ∀ m ∈ mats, Spec.SafeMaterial disk cache m) (labels : Fin L × Fin ny × Fin nx → ℂ)
    (out : Fin L × Fin ny × Fin nx → Option ℂ) (ho : (put_refractive_index_in_ucell sp disk cache labels mats wl).2 = .ok out)
    (s : Settings) (hh : Spec.Holding s out) (hp : s.p.use_pinv = false) (ha : s.algo = .tmm) (hs : Spec.PlainStack s.p)
    (sol : Solved s.p.fto.1 s.p.fto.2) (hsol : conv_solve la s = .ok sol) :
    Spec.Totals sol.result (· ≤ 1) ∧
      (Spec.Labelled s labels mats sp disk cache wl Spec.AbsorbingMedium → Spec.Totals sol.result (· < 1)) := by
  have h := filled_made (P := Spec.PassiveMedium) ⟨le_rfl, le_rfl⟩ (fun m h z hz => safe_index hw hwl (hm m h) hz) ho hh hs
  exact ⟨C74_loss la s hp ha h sol hsol, fun hl => C74_strict_loss la s hp ha h (filled_shows ho hh hl) sol hsol⟩

private theorem clear_both {sp : SciPy} {disk : Res Table} {cache : Table} {mats : List Material} {wl : ℝ}
    (hm : ∀ m ∈ mats, Spec.ClearMaterial disk cache m) {labels : Fin L × Fin ny × Fin nx → ℂ}
    {out : Fin L × Fin ny × Fin nx → Option ℂ} (ho : (put_refractive_index_in_ucell sp disk cache labels mats wl).2 = .ok out)
    {s : Settings} (hh : Spec.Holding s out) (hs : Spec.PlainStack s.p) :
    Spec.MadeOf Spec.PassiveMedium s ∧ Spec.MadeOf Spec.GainMedium s :=
  ⟨filled_made ⟨le_rfl, le_rfl⟩ (fun m h z hz => ⟨(clear_index (hm m h) hz).1, (clear_index (hm m h) hz).2.le⟩) ho hh hs,
    filled_made ⟨le_rfl, le_rfl⟩ (fun m h z hz => ⟨(clear_index (hm m h) hz).1, (clear_index (hm m h) hz).2.ge⟩) ho hh hs⟩

/-- **C75, clear materials.**  A structure filled with clear materials conserves energy. -/
theorem C75_clear (la : LinAlg) (sp : SciPy) (disk : Res Table) (cache : Table) (mats : List Material) (wl : ℝ)
    (hm : ∀ m ∈ mats, Spec.ClearMaterial disk cache m) (labels : Fin L × Fin ny × Fin nx → ℂ)
    (out : Fin L × Fin ny × Fin nx → Option ℂ) (ho : (put_refractive_index_in_ucell sp disk cache labels mats wl).2 = .ok out)
    (s : Settings) (hh : Spec.Holding s out) (hp : s.p.use_pinv = false) (ha : s.algo = .tmm) (hs : Spec.PlainStack s.p)
    (sol : Solved s.p.fto.1 s.p.fto.2) (hsol : conv_solve la s = .ok sol) : Spec.Totals sol.result (· = 1) := by
  obtain ⟨h1, h2⟩ := clear_both hm ho hh hs
  have a := C74_loss la s hp ha h1 sol hsol
  have b := C74_gain la s hp ha h2 sol hsol
  exact ⟨a.1, fun x hx => le_antisymm (a.2 x hx) (b.2 x hx)⟩

/-- **C75, flipped data.**  A structure filled with data whose `k` was flipped does not absorb, and it amplifies if a labelled material
does. -/
theorem C75_flipped (la : LinAlg) (sp : SciPy) (disk : Res Table) (cache : Table) (mats : List Material) (wl : ℝ)
    (hm : ∀ m ∈ mats, Spec.FlippedMaterial disk cache m) (labels : Fin L × Fin ny × Fin nx → ℂ)
    (out : Fin L × Fin ny × Fin nx → Option ℂ) (ho : (put_refractive_index_in_ucell sp disk cache labels mats wl).2 = .ok out)
    (s : Settings) (hh : Spec.Holding s out) (hp : s.p.use_pinv = false) (ha : s.algo = .tmm) (hs : Spec.PlainStack s.p)
    (sol : Solved s.p.fto.1 s.p.fto.2) (hsol : conv_solve la s = .ok sol) :
    Spec.Totals sol.result (1 ≤ ·) ∧
      (Spec.Labelled s labels mats sp disk cache wl Spec.AmplifyingMedium → Spec.Totals sol.result (1 < ·)) := by
  have h := filled_made (P := Spec.GainMedium) ⟨le_rfl, le_rfl⟩ (fun m h z hz => flipped_index (hm m h) hz) ho hh hs
  exact ⟨C74_gain la s hp ha h sol hsol, fun hl => C74_strict_gain la s hp ha h (filled_shows ho hh hl) sol hsol⟩

/-- **C75, JAX.**  The same three laws for a filled structure that the JAX backend solves. -/
theorem C75_jax (env : Jax.Env) (sp : SciPy) (hw : Spec.IsFaddeeva sp.wofz) (disk : Res Table) (cache : Table) (mats : List Material) (wl : ℝ)
    (hwl : 0 < wl) (labels : Fin L × Fin ny × Fin nx → ℂ)
    (out : Fin L × Fin ny × Fin nx → Option ℂ) (ho : (put_refractive_index_in_ucell sp disk cache labels mats wl).2 = .ok out)
    (s : Settings) (hh : Spec.Holding s out) (hp : s.p.use_pinv = false) (ha : s.algo = .tmm) (hs : Spec.PlainStack s.p)
    (hr : Spec.JaxReady s) (sol : Solved s.p.fto.1 s.p.fto.2) (hsol : Jax.conv_solve env s = .ok sol) :
    ((∀ m ∈ mats, Spec.SafeMaterial disk cache m) → Spec.Totals sol.result (· ≤ 1) ∧
      (Spec.Labelled s labels mats sp disk cache wl Spec.AbsorbingMedium → Spec.Totals sol.result (· < 1))) ∧
    ((∀ m ∈ mats, Spec.ClearMaterial disk cache m) → Spec.Totals sol.result (· = 1)) ∧
    ((∀ m ∈ mats, Spec.FlippedMaterial disk cache m) → Spec.Totals sol.result (1 ≤ ·) ∧
      (Spec.Labelled s labels mats sp disk cache wl Spec.AmplifyingMedium → Spec.Totals sol.result (1 < ·))) := by
  have hn := C57_jax_to_numpy env s hr.pixels hr.ellipses hr.layers sol hsol
  exact ⟨fun hm => C75_safe _ sp hw disk cache mats wl hwl hm labels out ho s hh hp ha hs sol hn,
    fun hm => C75_clear _ sp disk cache mats wl hm labels out ho s hh hp ha hs sol hn,
    fun hm => C75_flipped _ sp disk cache mats wl hm labels out ho s hh hp ha hs sol hn⟩

/-- **C75, PyTorch.**  A filled structure that NumPy solves is solved by the PyTorch backend, and the same three laws hold for what it
reports.  Left out, as in C40: `phi` exactly zero on a one-row raster that NumPy solves as conical, and 2D eigenvalues so small that
PyTorch replaces them. -/
theorem C75_torch (la : LinAlg) (sp : SciPy) (hw : Spec.IsFaddeeva sp.wofz) (disk : Res Table) (cache : Table) (mats : List Material) (wl : ℝ)
    (hwl : 0 < wl) (labels : Fin L × Fin ny × Fin nx → ℂ)
    (out : Fin L × Fin ny × Fin nx → Option ℂ) (ho : (put_refractive_index_in_ucell sp disk cache labels mats wl).2 = .ok out)
    (s : Settings) (hh : Spec.Holding s out) (hp : s.p.use_pinv = false) (ha : s.algo = .tmm) (hs : Spec.PlainStack s.p)
    (sol : Solved s.p.fto.1 s.p.fto.2) (hsol : conv_solve la s = .ok sol) (hr : Spec.TorchReady s sol) :
    ∃ t : Solved s.p.fto.1 s.p.fto.2, tConv_solve la s.torch = .ok t ∧
    ((∀ m ∈ mats, Spec.SafeMaterial disk cache m) → Spec.Totals t.result (· ≤ 1) ∧
      (Spec.Labelled s labels mats sp disk cache wl Spec.AbsorbingMedium → Spec.Totals t.result (· < 1))) ∧
    ((∀ m ∈ mats, Spec.ClearMaterial disk cache m) → Spec.Totals t.result (· = 1)) ∧
    ((∀ m ∈ mats, Spec.FlippedMaterial disk cache m) → Spec.Totals t.result (1 ≤ ·) ∧
      (Spec.Labelled s labels mats sp disk cache wl Spec.AmplifyingMedium → Spec.Totals t.result (1 < ·))) := by
  obtain ⟨t, ht, h1, h2⟩ := C74_torch la s hp ha sol hsol hr
  refine ⟨t, ht, fun hm => ?_, fun hm => ?_, fun hm => ?_⟩
  · have h := filled_made (P := Spec.PassiveMedium) ⟨le_rfl, le_rfl⟩ (fun m h z hz => safe_index hw hwl (hm m h) hz) ho hh hs
    exact ⟨(h1 h).1, fun hl => (h1 h).2 (filled_shows ho hh hl)⟩
  · obtain ⟨ha', hb'⟩ := clear_both hm ho hh hs
    exact ⟨(h1 ha').1.1, fun x hx => le_antisymm ((h1 ha').1.2 x hx) ((h2 hb').1.2 x hx)⟩
  · have h := filled_made (P := Spec.GainMedium) ⟨le_rfl, le_rfl⟩ (fun m h z hz => flipped_index (hm m h) hz) ho hh hs
    exact ⟨(h2 h).1, fun hl => (h2 h).2 (filled_shows ho hh hl)⟩

end

/-! ### A slab with gain, of any index -/

/-- A slab of index `n` and thickness `d` in air, TE light of wavelength `wl` at normal incidence. -/
noncomputable def slabSettings (n : ℂ) (wl d : ℝ) : Settings where
  p := { exParams 0 none with theta := 0, wavelength := wl, thickness := [d] }
  ucell := .raster (Spec.homogeneousRaster 1 2 [n])
  fourier_type := 1
  enhanced_dfs := false
  algo := .tmm

theorem slab_stack (n : ℂ) {wl d : ℝ} (hwl : 0 < wl) (hd : 0 ≤ d) : Spec.PlainStack (slabSettings n wl d).p := by
  have h := lossy_illumination 0 none (by simp) 0 0
  have := Real.pi_pos
  exact { h with
    theta_real := by simp [slabSettings, Spec.IsReal]
    theta_lo := by simp [slabSettings]; linarith
    theta_hi := by simp [slabSettings]; linarith
    wavelength_pos := hwl
    thickness_nonneg := by simp [slabSettings, hd]
    n_bot_real := rfl
    n_bot_pos := by simp [slabSettings, exParams] }

private theorem slab_q {n : ℂ} (hn : 0 < n.im) : csqrt (-n ^ 2) = -(Complex.I * n) := by
  have h1 := csqrt_sq (-n ^ 2)
  have h2 : csqrt (-n ^ 2) ^ 2 = (-(Complex.I * n)) ^ 2 := by
    rw [h1]; linear_combination (-(n ^ 2)) * Complex.I_sq
  rcases sq_eq_sq_iff_eq_or_eq_neg.mp h2 with h | h
  · exact h
  · have := csqrt_re_nonneg (-n ^ 2)
    rw [h] at this
    simp at this
    linarith

private theorem slab_kx {n : ℂ} {wl d : ℝ} (hwl : 0 < wl) (hd : 0 ≤ d) (i : Fin (2 * (slabSettings n wl d).p.fto.1 + 1)) :
    kxVec (slabSettings n wl d).p wl i = 0 := by
  have h := kxVec_order (slab_stack n hwl hd).toRealIllumination i
  rw [show (slabSettings n wl d).p.wavelength = wl from rfl] at h
  rw [h]
  have hi : Spec.colOrder i = 0 := by
    have := i.2
    simp only [slabSettings, exParams] at this
    simp only [Spec.colOrder, slabSettings, exParams]
    omega
  rw [hi]
  simp [Spec.orderKx, slabSettings]

private theorem slab_kz {n : ℂ} {wl d : ℝ} (hwl : 0 < wl) (hd : 0 ≤ d) (i : Fin (2 * (slabSettings n wl d).p.fto.1 + 1)) :
    kz1d 1 (kxVec (slabSettings n wl d).p wl) i = 1 := by
  unfold kz1d
  rw [slab_kx hwl hd]
  have := csqrt_ofReal_sq (x := 1) (by norm_num)
  simp at this ⊢
  rw [this]; simp

/-- The slab is solved if it is so thick that light is amplified more on a round trip than it loses at the two surfaces. -/
theorem slab_ok {n : ℂ} (hn : 0 < n.im) {wl d : ℝ} (hwl : 0 < wl) (hd : 0 ≤ d)
    (h : Complex.normSq (n + 1) < Complex.normSq (n - 1) * Real.exp (4 * Real.pi / wl * n.im * d)) :
    ∃ o, conv_solve exLA (slabSettings n wl d) = .ok (.tetm o) := by
  have hn0 : n ≠ 0 := fun h => by rw [h] at hn; simp at hn
  have hs : ∃ o, solve_1d exLA (slabSettings n wl d).p wl [⟨diagonal fun _ => n ^ 2, diagonal fun _ => n ^ 2,
      diagonal fun _ => (n ^ 2)⁻¹⟩] = .ok o := by
    have hq : dq 0 0 (n ^ 2) (n ^ 2) (n ^ 2)⁻¹ = -(Complex.I * n) := by
      unfold dq
      rw [if_pos rfl, ← slab_q hn]
      congr 1; ring
    have hv : dv 0 0 (n ^ 2) (n ^ 2) (n ^ 2)⁻¹ = -(Complex.I * n) := by
      unfold dv; rw [if_pos rfl, hq]
    have hq0 : -(Complex.I * n) ≠ 0 := neg_ne_zero.mpr (mul_ne_zero Complex.I_ne_zero hn0)
    have hqp : -(Complex.I * n) + Complex.I ≠ 0 := fun h => by have := congrArg Complex.re h; simp at this; linarith
    have hd1 : 1 + Complex.I / -(Complex.I * n) ≠ 0 := by
      rw [show 1 + Complex.I / -(Complex.I * n) = (-(Complex.I * n) + Complex.I) / -(Complex.I * n) by rw [add_div, div_self hq0]]
      exact div_ne_zero hqp hq0
    refine solve_1d_diag_ok (p := (slabSettings n wl d).p) (d := d) rfl (Or.inl rfl) rfl _ _ _ (fun _ => pow_ne_zero 2 hn0) ?_ ?_ ?_ []
    · intro i
      simp only [slab_kx hwl hd, show (slabSettings n wl d).p.pol = 0 from rfl, hv]
      exact hq0
    · intro i
      simp only [slab_kx hwl hd, show (slabSettings n wl d).p.pol = 0 from rfl, hv, show (slabSettings n wl d).p.n_bot = 1 from rfl,
        slab_kz hwl hd, dy, if_true, mul_one]
      exact hd1
    · intro i
      simp only [slab_kx hwl hd, show (slabSettings n wl d).p.pol = 0 from rfl, hv, hq, show (slabSettings n wl d).p.n_bot = 1 from rfl,
        show (slabSettings n wl d).p.n_top = 1 from rfl, slab_kz hwl hd, dy, if_true, mul_one, dr]
      set X : ℂ := Complex.exp (-((2 * Real.pi / wl : ℝ) : ℂ) * -(Complex.I * n) * d) ^ 2 with hX
      have hXn : ‖X‖ * Real.exp (4 * Real.pi / wl * n.im * d) = 1 := by
        rw [hX, norm_pow, Complex.norm_exp]
        have : (-((2 * Real.pi / wl : ℝ) : ℂ) * -(Complex.I * n) * d).re = -(2 * Real.pi / wl * n.im * d) := by
          simp [-Complex.ofReal_div, -Complex.ofReal_mul]
        rw [this, ← Real.exp_nat_mul, ← Real.exp_add]
        rw [show ((2 : ℕ) : ℝ) * -(2 * Real.pi / wl * n.im * d) + 4 * Real.pi / wl * n.im * d = 0 by push_cast; ring, Real.exp_zero]
      intro h0
      have h1 : (n - 1) ^ 2 = X * (n + 1) ^ 2 := by
        have := slab_pole hq0 hqp h0
        linear_combination -this + ((n - 1) ^ 2 - X * (n + 1) ^ 2) * Complex.I_sq
      have h2 := congrArg norm h1
      have n1 : ‖(n - 1) ^ 2‖ = Complex.normSq (n - 1) := by rw [norm_pow, ← Complex.normSq_eq_norm_sq]
      have n2 : ‖(n + 1) ^ 2‖ = Complex.normSq (n + 1) := by rw [norm_pow, ← Complex.normSq_eq_norm_sq]
      rw [norm_mul, n1, n2] at h2
      rw [h2, mul_right_comm, hXn, one_mul] at h
      exact lt_irrefl _ h
  obtain ⟨o, ho⟩ := hs
  have hc : convMats exLA (slabSettings n wl d) = .ok [Spec.scalarConv 0 0 n] := by
    unfold convMats
    simp only [slabSettings, exParams]
    exact C18_homogeneous_continuous exLA 1 2 one_pos two_pos [n] (by intro m hm; obtain rfl := List.mem_singleton.mp hm; exact hn0) 0 0 false
  refine ⟨o, conv_solve_tetm.mpr ⟨_, hc, by simp [gratingType, slabSettings, exParams, Spec.homogeneousRaster], rfl, ?_⟩⟩
  have : [Spec.scalarConv 0 0 n].map Conv.row = [(⟨diagonal fun _ => n ^ 2, diagonal fun _ => n ^ 2,
      diagonal fun _ => (n ^ 2)⁻¹⟩ : Conv (Fin (2 * 0 + 1)))] := by
    simp only [List.map_cons, List.map_nil, Conv.row, Spec.scalarConv, List.cons.injEq, Conv.mk.injEq, and_true]
    refine ⟨?_, ?_, ?_⟩ <;> (ext i j; obtain rfl := Subsingleton.elim i j; simp)
  exact (congrArg (solve_1d exLA (slabSettings n wl d).p wl) this).trans ho

/-- A slab filled with one material. -/
theorem slab_holding {n : ℂ} {wl d : ℝ} {out : Fin 1 × Fin 1 × Fin 2 → Option ℂ} (h : ∀ p, out p = some n) :
    Spec.Holding (slabSettings n wl d) out :=
  ⟨fun _ _ _ => n, rfl, fun _ _ _ => h _⟩

/-! ### A shipped table -/

/-- The first rows of `meent/nk_data/refractiveindex_info/Al2O3_querry-e.txt` (lines 9-15). -/
noncomputable def sapphireHead : List (ℝ × ℝ × ℝ) :=
  [(2.1e-7, 1.804, -0.048), (2.2e-7, 1.79, -0.035), (2.3e-7, 1.78, -0.024), (2.4e-7, 1.768, -0.017), (2.5e-7, 1.763, -0.014),
    (2.6e-7, 1.755, -0.008), (2.7e-7, 1.751, -0.003)]

/-- The index that the shipped table gives at 210 nm. -/
theorem sapphire_index (sp : SciPy) (t : Table) (rest : List (ℝ × ℝ × ℝ)) (ht : t.lookup "AL2O3_QUERRY-E".toList = some (.table (sapphireHead ++ rest)))
    (ha : Spec.Ascending (sapphireHead ++ rest)) :
    Spec.IndexOf sp (.ok t) [] 2.1e-7 (.lookup (.name "al2o3_querry-e".toList)) (some (⟨1.804, 0.048⟩ : ℂ)) := by
  have hd : Spec.Denotes t (.name "al2o3_querry-e".toList) (.table (sapphireHead ++ rest)) false := by
    refine .plain _ _ (by rw [endsWithReal_iff]; decide) ?_
    rw [show upper "al2o3_querry-e".toList = "AL2O3_QUERRY-E".toList by decide]
    exact ht
  refine ⟨t, Or.inr ⟨rfl, rfl⟩, ?_⟩
  have := C28_exact sp t _ _ hd ha 2.1e-7 1.804 (-0.048) [] (sapphireHead.tail ++ rest) rfl (by
    intro r hr
    have h2 : ((2.2e-7 : ℝ), (1.79 : ℝ), (-0.035 : ℝ)) ∈ sapphireHead.tail ++ rest := by simp [sapphireHead]
    have ha' : Spec.Ascending (sapphireHead.tail ++ rest) := (List.pairwise_cons.mp ha).2
    have h3 : (2.2e-7 : ℝ) ≤ r.1 := by
      rcases List.mem_cons.mp (show r ∈ ((2.2e-7 : ℝ), (1.79 : ℝ), (-0.035 : ℝ)) :: (sapphireHead.tail.tail ++ rest) from hr) with rfl | h
      · exact le_rfl
      · exact (List.pairwise_cons.mp ha').1 r h
    intro e
    rw [e] at h3
    norm_num at h3)
  rw [this]
  congr 3
  apply Complex.ext <;> simp

/-- **C75, a shipped material amplifies.**  Whatever else the tables hold: the first row of a shipped sapphire table has a negative `k`,
so a slab filled with that material reports efficiencies that add up to more than one. -/
theorem C75_shipped_negation (sp : SciPy) (t : Table) (rest : List (ℝ × ℝ × ℝ))
    (ht : t.lookup "AL2O3_QUERRY-E".toList = some (.table (sapphireHead ++ rest))) (ha : Spec.Ascending (sapphireHead ++ rest)) :
    ∃ (out : Fin 1 × Fin 1 × Fin 2 → Option ℂ) (s : Settings) (sol : Solved s.p.fto.1 s.p.fto.2),
      (put_refractive_index_in_ucell sp (.ok t) [] (fun _ : Fin 1 × Fin 1 × Fin 2 => 0) [.lookup (.name "al2o3_querry-e".toList)] 2.1e-7).2 = .ok out ∧
      Spec.Holding s out ∧ Spec.PlainStack s.p ∧ s.p.wavelength = 2.1e-7 ∧ conv_solve exLA s = .ok sol ∧
      Spec.Totals sol.result (1 < ·) := by
  have hi := sapphire_index sp t rest ht ha
  obtain ⟨out, ho⟩ := (C31_success sp (.ok t) [] (fun _ : Fin 1 × Fin 1 × Fin 2 => 0) [.lookup (.name "al2o3_querry-e".toList)] 2.1e-7).mpr
    (by simp only [List.mem_singleton, forall_eq]; exact ⟨_, hi⟩)
  have he : ∀ p, out p = some (⟨1.804, 0.048⟩ : ℂ) := fun p =>
    indexOf_unique (C31_pixel sp (.ok t) [] _ _ _ out ho p 0 _ rfl (by simp)) hi
  have hwl : (0 : ℝ) < 2.1e-7 := by norm_num
  have hd : (0 : ℝ) ≤ 20 * 2.1e-7 := by norm_num
  obtain ⟨o, hsol⟩ := slab_ok (n := ⟨1.804, 0.048⟩) (by norm_num) hwl hd (by
    have e : 4 * Real.pi / 2.1e-7 * (⟨1.804, 0.048⟩ : ℂ).im * (20 * 2.1e-7) = 3.84 * Real.pi := by
      simp only; field_simp; norm_num
    rw [e]
    have h1 := Real.add_one_le_exp (3.84 * Real.pi)
    have h2 := Real.pi_gt_d2
    simp only [Complex.normSq_apply, Complex.add_re, Complex.add_im, Complex.sub_re, Complex.sub_im, Complex.one_re, Complex.one_im]
    norm_num at h1 h2 ⊢
    nlinarith)
  have hs := slab_stack ⟨1.804, 0.048⟩ hwl hd
  have hh : Spec.Holding (slabSettings ⟨1.804, 0.048⟩ 2.1e-7 (20 * 2.1e-7)) out := slab_holding he
  refine ⟨out, slabSettings ⟨1.804, 0.048⟩ 2.1e-7 (20 * 2.1e-7), _, ho, hh, hs, rfl, hsol, ?_⟩
  refine C74_strict_gain exLA _ rfl rfl (filled_made (P := Spec.GainMedium) ⟨le_rfl, le_rfl⟩ ?_ ho hh hs) (filled_shows ho hh ?_) _ hsol
  · intro m hm z hz
    obtain rfl := List.mem_singleton.mp hm
    have := indexOf_unique hz hi
    cases this
    exact ⟨by norm_num, by norm_num⟩
  · exact ⟨Or.inl rfl, 0, 0, 0, _, 0, _, _, rfl, by norm_num, by simp, rfl, hi, by constructor <;> norm_num⟩

/-! ### Non-vacuity -/

/-- SciPy with the Faddeeva function as the integral that defines it. -/
noncomputable def exSciPy : SciPy where
  wofz := fun z => Complex.I / Real.pi * ∫ t : ℝ, ((Real.exp (-t ^ 2) : ℝ) : ℂ) / (z - (t : ℂ))
  quad := fun _ _ => 0

theorem exSciPy_faddeeva : Spec.IsFaddeeva exSciPy.wofz := fun _ _ => rfl

private theorem gold_denotes (s : Str) (b : Bool) (rows : List (ℝ × ℝ × ℝ)) (hs : s = "gold".toList ∧ b = false ∨ s = "gold__real".toList ∧ b = true) :
    Spec.Denotes [("GOLD".toList, .table rows)] (.name s) (.table rows) b := by
  have hu : upper "gold".toList = "GOLD".toList := by decide
  rcases hs with ⟨rfl, rfl⟩ | ⟨rfl, rfl⟩
  · exact .plain _ _ (by rw [endsWithReal_iff]; decide) (by rw [hu]; exact List.lookup_cons_self)
  · exact .real "gold".toList _ (by rw [hu]; exact List.lookup_cons_self)

/-- Non-vacuity, published data: a slab of a tabulated metal absorbs. -/
example (d : ℝ) (hd : 0 < d) : ∃ (out : Fin 1 × Fin 1 × Fin 2 → Option ℂ) (s : Settings) (sol : Solved s.p.fto.1 s.p.fto.2),
    (∀ m ∈ [Material.lookup (.name "gold".toList)], Spec.SafeMaterial (.ok [("GOLD".toList, .table [(1, 2, 3)])]) [] m) ∧
    (put_refractive_index_in_ucell exSciPy (.ok [("GOLD".toList, .table [(1, 2, 3)])]) [] (fun _ : Fin 1 × Fin 1 × Fin 2 => 0)
      [.lookup (.name "gold".toList)] 1).2 = .ok out ∧
    Spec.Holding s out ∧ Spec.PlainStack s.p ∧ conv_solve exLA s = .ok sol ∧ Spec.Totals sol.result (· < 1) := by
  have hdn := gold_denotes "gold".toList false [(1, 2, 3)] (Or.inl ⟨rfl, rfl⟩)
  have hpub : Spec.PublishedRows [(1, 2, 3)] := ⟨by simp, by simp [Spec.Ascending], by simp, by simp⟩
  have hsafe : ∀ m ∈ [Material.lookup (.name "gold".toList)], Spec.SafeMaterial (.ok [("GOLD".toList, .table [(1, 2, 3)])]) [] m := by
    simp only [List.mem_singleton, forall_eq]
    exact .tabulated _ _ _ _ (Or.inr ⟨rfl, rfl⟩) hdn hpub
  have hi : Spec.IndexOf exSciPy (.ok [("GOLD".toList, .table [(1, 2, 3)])]) [] 1 (.lookup (.name "gold".toList)) (some ((2 : ℝ) - Complex.I * (3 : ℝ))) :=
    ⟨_, Or.inr ⟨rfl, rfl⟩, C28_exact _ _ _ _ hdn hpub.ascending 1 2 3 [] [] rfl (by simp)⟩
  obtain ⟨out, ho⟩ := (C31_success exSciPy (.ok [("GOLD".toList, .table [(1, 2, 3)])]) [] (fun _ : Fin 1 × Fin 1 × Fin 2 => 0)
    [.lookup (.name "gold".toList)] 1).mpr (by simp only [List.mem_singleton, forall_eq]; exact ⟨_, hi⟩)
  have he : ∀ p, out p = some ((2 : ℝ) - Complex.I * (3 : ℝ)) := fun p =>
    indexOf_unique (C31_pixel _ _ [] _ _ _ out ho p 0 _ rfl (by simp)) hi
  have hs := slab_stack ((2 : ℝ) - Complex.I * (3 : ℝ)) one_pos hd.le
  have hh : Spec.Holding (slabSettings ((2 : ℝ) - Complex.I * (3 : ℝ)) 1 d) out := slab_holding he
  obtain ⟨sol, hsol⟩ := C56_films exLA exLA_basis (slabSettings ((2 : ℝ) - Complex.I * (3 : ℝ)) 1 d) rfl rfl
    { hs.toRealIllumination with
      layers := by
        refine ⟨Or.inl rfl, fun l hl => ?_⟩
        obtain rfl := List.mem_singleton.mp hl
        exact ⟨fun _ _ => ⟨by simp, by simp⟩, (0 : Fin 1), (0 : Fin 2), by constructor <;> simp⟩
      thickness_pos := by simp [slabSettings, hd]
      thickness_some := by simp [slabSettings]
      layers_enough := by simp [slabSettings, Spec.layerCount, Spec.homogeneousRaster]
      n_bot_real := hs.n_bot_real
      n_bot_pos := hs.n_bot_pos
      not_normal := Or.inl (by simp [gratingType, slabSettings, exParams, Spec.homogeneousRaster])
      orders := fun h => by simp [gratingType, slabSettings, exParams, Spec.homogeneousRaster] at h } 1 2 _ rfl
  exact ⟨out, _, sol, hsafe, ho, hh, hs, hsol,
    (C75_safe exLA exSciPy exSciPy_faddeeva _ _ _ 1 one_pos hsafe _ out ho _ hh rfl rfl hs sol hsol).2
      ⟨Or.inl rfl, 0, 0, 0, d, 0, _, _, rfl, hd, by simp, rfl, hi, by constructor <;> simp⟩⟩

/-- Non-vacuity, clear materials: a grating of air and of the real part of a tabulated metal conserves energy. -/
example : ∃ (out : Fin 1 × Fin 1 × Fin 2 → Option ℂ) (s : Settings) (sol : Solved s.p.fto.1 s.p.fto.2),
    (∀ m ∈ [Material.value 1, .lookup (.name "gold__real".toList)], Spec.ClearMaterial (.ok [("GOLD".toList, .table [(1, 2, 3)])]) [] m) ∧
    (put_refractive_index_in_ucell exSciPy (.ok [("GOLD".toList, .table [(1, 2, 3)])]) [] (fun p : Fin 1 × Fin 1 × Fin 2 => ((p.2.2 : ℕ) : ℂ))
      [.value 1, .lookup (.name "gold__real".toList)] 1).2 = .ok out ∧
    Spec.Holding s out ∧ Spec.PlainStack s.p ∧ conv_solve exLA s = .ok sol ∧ Spec.Totals sol.result (· = 1) := by
  have hdn := gold_denotes "gold__real".toList true [(1, 2, 3)] (Or.inr ⟨rfl, rfl⟩)
  have hclear : ∀ m ∈ [Material.value 1, .lookup (.name "gold__real".toList)], Spec.ClearMaterial (.ok [("GOLD".toList, .table [(1, 2, 3)])]) [] m := by
    simp only [List.mem_cons, List.not_mem_nil, or_false, forall_eq_or_imp, forall_eq]
    exact ⟨.value 1 (by simp) (by simp),
      .realRows "gold".toList _ _ (Or.inr ⟨rfl, rfl⟩) hdn (by simp) (by simp [Spec.Ascending]) (by simp)⟩
  have hi : Spec.IndexOf exSciPy (.ok [("GOLD".toList, .table [(1, 2, 3)])]) [] 1 (.lookup (.name "gold__real".toList)) (some 2) := by
    refine ⟨_, Or.inr ⟨rfl, rfl⟩, ?_⟩
    rw [find_of_denotes exSciPy hdn (by simp [Spec.HasRange])]
    simp [indexOf, npInterp, interpFrom]
    rfl
  obtain ⟨out, ho⟩ := (C31_success exSciPy (.ok [("GOLD".toList, .table [(1, 2, 3)])]) [] (fun p : Fin 1 × Fin 1 × Fin 2 => ((p.2.2 : ℕ) : ℂ))
    [.value 1, .lookup (.name "gold__real".toList)] 1).mpr (by
      simp only [List.mem_cons, List.not_mem_nil, or_false, forall_eq_or_imp, forall_eq]; exact ⟨⟨_, rfl⟩, _, hi⟩)
  have h0 : ∀ l i, out (l, i, 0) = some 1 := fun l i => C31_pixel _ _ [] _ _ _ out ho (l, i, 0) 0 _ rfl (by simp)
  have h1 : ∀ l i, out (l, i, 1) = some 2 := fun l i => indexOf_unique (C31_pixel _ _ [] _ _ _ out ho (l, i, 1) 1 _ rfl (by simp)) hi
  have hl := exSettings_lossless 0 none (by simp)
  have hs : Spec.PlainStack (exSettings 0 none).p :=
    { hl.toRealIllumination with
      thickness_nonneg := by simp [exSettings, exParams]
      n_bot_real := hl.n_bot_real
      n_bot_pos := hl.n_bot_pos }
  have hh : Spec.Holding (exSettings 0 none) out := by
    refine ⟨fun _ _ j => if j = 0 then 1 else 2, rfl, fun l i j => ?_⟩
    fin_cases j
    · exact h0 l i
    · exact h1 l i
  obtain ⟨o, hsol⟩ := exTE_ok
  exact ⟨out, _, _, hclear, ho, hh, hs, hsol, C75_clear exLA exSciPy _ _ _ 1 hclear _ out ho _ hh rfl rfl hs _ hsol⟩

/-- Non-vacuity, flipped data and the shipped table: rows that ascend exist. -/
example : Spec.Ascending (sapphireHead ++ []) ∧ Spec.FlippedRows sapphireHead := by
  have h : Spec.Ascending sapphireHead := by
    simp only [Spec.Ascending, sapphireHead, List.pairwise_cons, List.mem_cons, List.not_mem_nil, or_false, forall_eq_or_imp, forall_eq,
      IsEmpty.forall_iff, implies_true, List.Pairwise.nil, and_true]
    norm_num
  refine ⟨by rw [List.append_nil]; exact h, by simp [sapphireHead], h, ?_, ?_⟩
  · simp only [sapphireHead, List.mem_cons, List.not_mem_nil, or_false, forall_eq_or_imp, forall_eq]; norm_num
  · simp only [sapphireHead, List.mem_cons, List.not_mem_nil, or_false, forall_eq_or_imp, forall_eq]; norm_num

end Meent

#print axioms Meent.C75_index
#print axioms Meent.C75_safe
#print axioms Meent.C75_clear
#print axioms Meent.C75_flipped
#print axioms Meent.C75_jax
#print axioms Meent.C75_torch
#print axioms Meent.C75_shipped_negation
