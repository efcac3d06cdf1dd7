import Verif.Lemmas.SubstrateNeg
import Verif.Props.C41

/-!
# C07: a layer made of the substrate material is invisible
-/

open Matrix

namespace Meent

/-- **C07 for real substrates (partial).**  Put one more layer directly above the substrate, filled with the substrate
material, of any thickness `d`.  Whenever the longer stack is solved, the shorter one is solved too, and every reflected
amplitude and efficiency of `res`, `res_te_inc` and `res_tm_inc` is the same.  All three solvers, raster and vector
structures, both Fourier types, any stack on top (absorbing layers included), any eigenvectors.  Missing: absorbing
substrates, for which the claim is false (`C07_absorbing_negation`); for `use_pinv` see `C07_use_pinv_partial`. -/
theorem C07_substrate_layer_partial (la : LinAlg) (s : Settings) (u u' : Structure) (th : List ℝ) (d : ℝ)
    (hp : s.p.use_pinv = false) (hill : Spec.RealIllumination s.p) (hb : Spec.IsReal s.p.n_bot) (hb0 : s.p.n_bot ≠ 0)
    (hg : Spec.Grounded s.p.n_bot u u') (hth : th.length = Spec.layerCount u)
    (sol' : Solved s.p.fto.1 s.p.fto.2) (h : conv_solve la (Spec.withStack s u' (th ++ [d])) = .ok sol') :
    ∃ sol : Solved s.p.fto.1 s.p.fto.2,
      conv_solve la (Spec.withStack s u th) = .ok sol ∧ Spec.SameReflection sol.result sol'.result :=
  conv_solve_grounded hp hill hb hb0 hg hth h

/-- Non-vacuity: the two-pixel grating on a substrate of index 1 with a spacer of index 1 and any thickness below it. -/
example (d : ℝ) : ∃ (s : Settings) (u u' : Structure), s.p.use_pinv = false ∧ Spec.RealIllumination s.p ∧
    Spec.IsReal s.p.n_bot ∧ s.p.n_bot ≠ 0 ∧ Spec.Grounded s.p.n_bot u u' ∧
    s.p.thickness.length = Spec.layerCount u ∧
    ∃ sol', conv_solve exLA (Spec.withStack s u' (s.p.thickness ++ [d])) = .ok sol' := by
  obtain ⟨o, ho⟩ := exTE_ok
  have hill : Spec.RealIllumination (exSettings 0 none).p := (exSettings_lossless 0 none (by simp)).toRealIllumination
  obtain ⟨o', ho'⟩ := grounded_1d_ok (s := exSettings 0 none) (ls := exCell.layers) (d := d) (by norm_num [exCell]) (by norm_num [exCell])
    rfl hill (by simp [Spec.IsReal, exSettings, exParams]) (by simp [exSettings, exParams]) rfl rfl rfl
    (by
      intro i
      have := exKx 0 i
      simp only [exSettings] at this ⊢
      erw [this]
      simp only [exParams]
      norm_num) ho
  refine ⟨exSettings 0 none, .raster exCell, _, rfl, hill, by simp [Spec.IsReal, exSettings, exParams],
    by simp [exSettings, exParams], ?_, rfl, _, ho'⟩
  exact .raster (by norm_num [exCell]) (by norm_num [exCell]) _

/-- **C07 with `use_pinv` (partial).**  With `use_pinv` the same holds whenever the longer stack can also be solved without it, i.e.
whenever no singular matrix has to be inverted on the way.  Missing: stacks that only a pseudo-inverse of a singular matrix solves. -/
theorem C07_use_pinv_partial (la : LinAlg) (s : Settings) (u u' : Structure) (th : List ℝ) (d : ℝ)
    (hill : Spec.RealIllumination s.p) (hb : Spec.IsReal s.p.n_bot) (hb0 : s.p.n_bot ≠ 0)
    (hg : Spec.Grounded s.p.n_bot u u') (hth : th.length = Spec.layerCount u)
    (sol' : Solved s.p.fto.1 s.p.fto.2) (h : conv_solve la (Spec.withPinv (Spec.withStack s u' (th ++ [d])) false) = .ok sol') :
    ∃ sol : Solved s.p.fto.1 s.p.fto.2, conv_solve la (Spec.withPinv (Spec.withStack s u th) true) = .ok sol ∧
      conv_solve la (Spec.withPinv (Spec.withStack s u' (th ++ [d])) true) = .ok sol' ∧ Spec.SameReflection sol.result sol'.result := by
  obtain ⟨sol, h1, h2⟩ := C07_substrate_layer_partial la (Spec.withPinv s false) u u' th d rfl { hill with } hb hb0 hg hth sol' h
  exact ⟨sol, C41_use_pinv la (Spec.withStack s u th) sol h1, C41_use_pinv la (Spec.withStack s u' (th ++ [d])) sol' h, h2⟩

/-- **C07 fails for an absorbing substrate** (NumPy and JAX backends).  Index 2 over the passive metal `(9 - 7i)/8` at 30
degrees, TE: a layer of the metal itself, `2/7` of a wavelength thick, changes the reflected amplitude.  The layer obeys
the dispersion relation of the metal but `kz_bot` that of the conjugate medium. -/
theorem C07_absorbing_negation : ∃ (s : Settings) (u u' : Structure) (d : ℝ)
    (sol sol' : Solved s.p.fto.1 s.p.fto.2),
    Spec.RealIllumination s.p ∧ s.p.use_pinv = false ∧ 0 < s.p.n_bot.re ∧ s.p.n_bot.im < 0 ∧ 0 < d ∧
    Spec.Grounded s.p.n_bot u u' ∧ Spec.layerCount u = 0 ∧
    conv_solve exLA (Spec.withStack s u []) = .ok sol ∧
    conv_solve exLA (Spec.withStack s u' [d]) = .ok sol' ∧
    ¬ Spec.SameReflection sol.result sol'.result := by
  set nb : ℂ := ⟨9 / 8, -(7 / 8)⟩ with hnb
  have hnb0 : nb ≠ 0 := by
    intro h
    have := congrArg Complex.re h
    simp [hnb] at this
  have hsq : nb ^ 2 - 1 = (⟨7 / 8, -(9 / 8)⟩ : ℂ) ^ 2 := by
    apply Complex.ext <;> simp [hnb, pow_two] <;> norm_num
  have hkzb : star (csqrt (nb ^ 2 - 1)) = (⟨7 / 8, 9 / 8⟩ : ℂ) := by
    rw [hsq]
    unfold csqrt
    have : (1 / 2 : ℂ) = 2⁻¹ := by norm_num
    rw [this, Complex.sq_cpow_two_inv (by norm_num)]
    apply Complex.ext <;> simp
  have hsq' : (1 : ℂ) ^ 2 - nb ^ 2 = (⟨9 / 8, 7 / 8⟩ : ℂ) ^ 2 := by
    apply Complex.ext <;> simp [hnb, pow_two] <;> norm_num
  have hv : csqrt ((1 : ℂ) ^ 2 - nb ^ 2) = (⟨9 / 8, 7 / 8⟩ : ℂ) := by
    rw [hsq']
    unfold csqrt
    have : (1 / 2 : ℂ) = 2⁻¹ := by norm_num
    rw [this, Complex.sq_cpow_two_inv (by norm_num)]
  have hX : Complex.exp (-((2 * Real.pi / 1 : ℝ) : ℂ) * (⟨9 / 8, 7 / 8⟩ : ℂ) * ((2 / 7 : ℝ) : ℂ)) ^ 2
      = -((Real.exp (-(9 / 7 * Real.pi)) : ℝ) : ℂ) := by
    rw [← Complex.exp_nat_mul]
    have e : ((2 : ℕ) : ℂ) * (-((2 * Real.pi / 1 : ℝ) : ℂ) * (⟨9 / 8, 7 / 8⟩ : ℂ) * ((2 / 7 : ℝ) : ℂ))
        = ((-(9 / 7 * Real.pi) : ℝ) : ℂ) - Real.pi * Complex.I := by
      apply Complex.ext <;> simp <;> ring
    rw [e, Complex.exp_sub, Complex.exp_pi_mul_I, Complex.ofReal_exp]
    ring
  set ε := Real.exp (-(9 / 7 * Real.pi)) with hε
  have hε0 : 0 < ε := Real.exp_pos _
  have hε1 : ε < 1 := by
    rw [hε, ← Real.exp_zero]
    exact Real.exp_lt_exp.mpr (by have := Real.pi_pos; linarith)
  have h3p : 0 < Real.sqrt 3 := Real.sqrt_pos.mpr (by norm_num)
  have h3q : 1 < Real.sqrt 3 := by rw [Real.lt_sqrt (by norm_num)]; norm_num
  obtain ⟨o, ho⟩ := bareSettings_ok exLA nb 0 (.inl rfl) (by
    simp only [dy, if_true]
    rw [hkzb]
    intro h
    have := congrArg Complex.im h
    simp at this)
  have hill := bareSettings_illumination nb 0 none (by simp)
  have hkx : ∀ i, kxVec (bareSettings nb 0 none).p 1 i = 1 := fun i => bareSettings_kx nb 0 i
  have hkzt : star (csqrt ((2 : ℂ) ^ 2 - 1)) = ((Real.sqrt 3 : ℝ) : ℂ) := by
    rw [show ((2 : ℂ) ^ 2 - 1) = 3 by norm_num, sqrt3_csqrt]
  -- the layered problem is solved
  let p' : Params := { (bareSettings nb 0 none).p with thickness := [2 / 7] }
  have hkx' : ∀ i, kxVec p' 1 i = 1 := hkx
  have hkzb' : ∀ i, kz1d p'.n_bot (kxVec p' 1) i = ⟨7 / 8, 9 / 8⟩ := by
    intro i; unfold kz1d; rw [hkx', one_pow]; exact hkzb
  have hkzt' : ∀ i, kz1d p'.n_top (kxVec p' 1) i = ((Real.sqrt 3 : ℝ) : ℂ) := by
    intro i; unfold kz1d; rw [hkx', one_pow]; exact hkzt
  have hdq : dq 0 1 (nb ^ 2) (nb ^ 2) (nb ^ 2)⁻¹ = ⟨9 / 8, 7 / 8⟩ := by unfold dq; rw [if_pos rfl, hv]
  have hdv : dv 0 1 (nb ^ 2) (nb ^ 2) (nb ^ 2)⁻¹ = ⟨9 / 8, 7 / 8⟩ := by unfold dv; rw [if_pos rfl, hdq]
  have hv0 : (⟨9 / 8, 7 / 8⟩ : ℂ) ≠ 0 := by
    intro h
    have := congrArg Complex.re h
    simp at this
  have hdiv : Complex.I * (⟨7 / 8, 9 / 8⟩ : ℂ) / ⟨9 / 8, 7 / 8⟩ = ⟨-(16 / 65), 63 / 65⟩ := by
    rw [div_eq_iff hv0]
    apply Complex.ext <;> simp <;> norm_num
  have hdr : dr ⟨9 / 8, 7 / 8⟩ ⟨7 / 8, 9 / 8⟩ = ⟨0, -(9 / 7)⟩ := by
    unfold dr
    rw [hdiv, div_eq_iff]
    · apply Complex.ext <;> simp <;> norm_num
    · intro h
      have := congrArg Complex.im h
      simp at this
  obtain ⟨o', ho'⟩ : ∃ o', solve_1d exLA p' 1 [scalarC _ nb] = .ok o' := by
    have hsc : scalarC (Fin (2 * p'.fto.1 + 1)) nb
        = ⟨diagonal fun _ => nb ^ 2, diagonal fun _ => nb ^ 2, diagonal fun _ => (nb ^ 2)⁻¹⟩ := by
      unfold scalarC
      simp only [← diagonal_one, ← diagonal_smul, Pi.smul_def, smul_eq_mul, mul_one]
    rw [hsc]
    have hpol : p'.pol = 0 := rfl
    have hdy : ∀ z n, dy 0 z n = z := fun z n => by simp [dy]
    refine solve_1d_diag_ok rfl (.inl rfl) rfl _ _ _ (fun _ => pow_ne_zero _ hnb0) ?_ ?_ ?_ []
    · intro i
      rw [hkx', hpol, hdv]
      exact hv0
    · intro i
      rw [hkx', hkzb', hpol, hdv, hdy, hdiv]
      intro h
      have := congrArg Complex.im h
      simp at this
    · intro i
      rw [hkx', hkzb', hkzt', hpol, hdv, hdq, hdy, hdy, hdr, hX]
      intro h
      have := congrArg Complex.im h
      simp at this
      nlinarith
  have hc' : convMats exLA (Spec.withStack (bareSettings nb 0 none) (.raster ⟨1, 1, [] ++ [fun _ _ => nb]⟩) [2 / 7])
      = .ok [Spec.scalarConv 0 0 nb] := by
    refine (convMats_raster (u := ⟨1, 1, [] ++ [fun _ _ => nb]⟩) rfl).mpr ⟨.inl rfl, ?_⟩
    refine mapM_cons_ok.mpr ⟨_, [], ?_, rfl, rfl⟩
    unfold rasterConv
    refine (if_pos rfl).trans ?_
    exact convDiscrete_const exLA one_pos one_pos _ _ _ _ hnb0
  have hsol' : conv_solve exLA (Spec.withStack (bareSettings nb 0 none) (.raster ⟨1, 1, [] ++ [fun _ _ => nb]⟩) [2 / 7])
      = .ok (.tetm o') := by
    refine conv_solve_tetm.mpr ⟨_, hc', by simp [gratingType, bareSettings], rfl, ?_⟩
    refine (congrArg (fun c => solve_1d exLA p' 1 [c]) (scalarConv_row 0 0 nb)).trans ?_
    exact ho'
  refine ⟨bareSettings nb 0 none, .raster ⟨1, 1, []⟩, .raster ⟨1, 1, [] ++ [fun _ _ => nb]⟩, 2 / 7, .tetm o, .tetm o',
    hill, rfl, ?_, ?_, by norm_num, .raster one_pos one_pos [], rfl, ho, hsol', ?_⟩
  · simp only [bareSettings, hnb]; norm_num
  · simp only [bareSettings, hnb]; norm_num
  rintro ⟨h, -, -⟩
  obtain ⟨hR, -, -, -, -⟩ : Spec.SameRefl _ _ := by cases h; assumption
  -- the bare interface
  obtain ⟨cs, -, -, -, hs⟩ := conv_solve_tetm.mp ho
  obtain ⟨R, T, hT, hcase⟩ := bare_1d rfl rfl hs
  rcases hcase with ⟨-, hRs, -, he⟩ | ⟨h0, -⟩
  swap
  · exact absurd h0.symm one_ne_zero
  let i : Fin (2 * (bareSettings nb 0 none).p.fto.1 + 1) := ⟨0, by norm_num [bareSettings]⟩
  have hδ : (deltaI0 i : ℂ) = 1 := by rw [deltaI0_eq, if_pos]; rfl
  have he := he i
  rw [hT, Pi.add_apply, hδ, mul_one] at he
  have hcos : Complex.cos p'.theta = ((Real.sqrt 3 / 2 : ℝ) : ℂ) := by
    rw [← Real.cos_pi_div_six, Complex.ofReal_cos]; rfl
  refine te_layer_visible (p := p') rfl rfl rfl hnb0 ho' i hδ ?_ ?_ ?_ 0 ?_
  · rw [hkx', hkzb', hv]
    intro h
    have := congrArg Complex.re h
    simp at this
    norm_num at this
  · rw [hkx', hv, hX]
    intro h
    have := congrArg Complex.re h
    simp at this
    linarith
  · rw [hkzt', hcos]
    change (2 : ℂ) * _ + _ ≠ 0
    intro h
    have := congrArg Complex.re h
    simp at this
    linarith
  · have e : o'.res.R_s 0 i = R i := by
      have := congrFun (congrFun hR 0) i
      simp only [SubRes.row1] at this
      rw [← hRs 0]
      exact this
    rw [e]
    exact he

end Meent

#print axioms Meent.C07_substrate_layer_partial
#print axioms Meent.C07_use_pinv_partial
#print axioms Meent.C07_absorbing_negation
