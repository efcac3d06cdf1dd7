import Verif.Props.C72
import Verif.Props.C85
import Verif.Lemmas.SmallCell

/-!
# C85 on JAX and PyTorch

JAX: whenever both solves succeed.  PyTorch: for the solves in which no pseudo-inverse replaces an inverse, see C72.
-/

namespace Meent

private theorem parallel_split {ls : List VLayer} (h : ∀ l ∈ ls, Spec.Parallel l) (dx dy : ℝ) :
    Spec.EllipsesSplit (.vector (ls.map (Spec.moveLayer dx dy))) := by
  intro ls' e l hl
  cases e
  obtain ⟨l₀, h0, rfl⟩ := List.mem_map.mp hl
  intro cx cy lx ly n angle nw nh hi
  obtain ⟨i₀, hi₀, e⟩ := List.mem_map.mp hi
  obtain ⟨_, _, _, _, _, _, _, _, rfl⟩ := h l₀ h0 i₀ hi₀
  cases e

/-- **C85, JAX.** -/
theorem C85_jax (env env' : Jax.Env) (s : Settings) (hp : s.p.use_pinv = false) (hr : Spec.JaxReady s) (ls : List VLayer) (hu : s.ucell = .vector ls)
    (hP : s.p.period.1 ≠ 0) (hQ : s.p.period.2 ≠ 0) (dx dy : ℝ) (hl : ∀ l ∈ ls, Spec.Parallel l)
    (h1 : ∀ l ∈ ls, ∃ objs, Spec.FreeEdges s.p.period l objs) (h2 : ∀ l ∈ ls, ∃ objs, Spec.FreeEdges s.p.period (Spec.moveLayer dx dy l) objs)
    (sol sol' : Solved s.p.fto.1 s.p.fto.2) (h : Jax.conv_solve env s = .ok sol)
    (h' : Jax.conv_solve env' (Spec.withUcell s (.vector (ls.map (Spec.moveLayer dx dy)))) = .ok sol') :
    Spec.SameEfficiencies sol.result sol'.result := by
  have hr' : Spec.JaxReady (Spec.withUcell s (.vector (ls.map (Spec.moveLayer dx dy)))) :=
    ⟨fun u e => (by cases e), parallel_split hl dx dy, by have := hr.layers; rw [hu] at this; simpa [Spec.layerCount] using this⟩
  exact ((C85_anywhere env.la s hp ls hu hP hQ dx dy hl h1 h2 sol (C57_jax_to_numpy env s hr.pixels hr.ellipses hr.layers sol h)).2 env'.la sol'
    (C57_jax_to_numpy env' _ hr'.pixels hr'.ellipses hr'.layers sol' h')).1

/-- **C85, PyTorch.** -/
theorem C85_torch (la la' : LinAlg) (s : Settings) (hp : s.p.use_pinv = false) (ha : s.algo = .tmm) (ls : List VLayer) (hu : s.ucell = .vector ls)
    (hP : s.p.period.1 ≠ 0) (hQ : s.p.period.2 ≠ 0) (dx dy : ℝ) (hl : ∀ l ∈ ls, Spec.Parallel l)
    (h1 : ∀ l ∈ ls, ∃ objs, Spec.FreeEdges s.p.period l objs) (h2 : ∀ l ∈ ls, ∃ objs, Spec.FreeEdges s.p.period (Spec.moveLayer dx dy l) objs)
    (sol sol' : Solved s.p.fto.1 s.p.fto.2) (h : conv_solve la s = .ok sol)
    (h' : conv_solve la' (Spec.withUcell s (.vector (ls.map (Spec.moveLayer dx dy)))) = .ok sol')
    (hr : Spec.TorchReady s sol) (hr' : Spec.TorchReady (Spec.withUcell s (.vector (ls.map (Spec.moveLayer dx dy)))) sol') :
    ∃ t t' : Solved s.p.fto.1 s.p.fto.2, tConv_solve la s.torch = .ok t ∧
      tConv_solve la' (Spec.withUcell s (.vector (ls.map (Spec.moveLayer dx dy)))).torch = .ok t' ∧ Spec.SameEfficiencies t.result t'.result := by
  obtain ⟨n, t, hn, ht, e⟩ := torch_runs hr.claddings ha hr.azimuth h hr.modes
  obtain ⟨n', t', hn', ht', e'⟩ := torch_runs (s := Spec.withUcell s (.vector (ls.map (Spec.moveLayer dx dy)))) hr'.claddings ha hr'.azimuth h' hr'.modes
  have hg : torchPsi (Spec.withUcell s (.vector (ls.map (Spec.moveLayer dx dy)))) s.p.psi = torchPsi s s.p.psi := by
    unfold torchPsi gratingType; simp [hu]
  rw [hg] at hn'
  exact ⟨t, t', ht, ht', (e.symm.trans ((C85_anywhere la (Spec.withPsi s (torchPsi s s.p.psi)) hp ls hu hP hQ dx dy hl h1 h2 n hn).2 la' n' hn').1).trans e'⟩

/-! ### Examples -/

private theorem square_draw {x y : ℝ} (hx : 1 / 8 < x) (hx' : x < 7 / 8) (hy : 1 / 8 < y) (hy' : y < 7 / 8) :
    drawLayer (1, 1) 1 [⟨y - 1 / 8, x - 1 / 8, y + 1 / 8, x + 1 / 8, 2 - Complex.I⟩]
      = .ok ⟨3, 3, ⟨by norm_num⟩, ⟨by norm_num⟩, fun i j => if i = 1 ∧ j = 1 then 2 - Complex.I else 1, ![x - 1 / 8, x + 1 / 8, 1],
        ![y - 1 / 8, y + 1 / 8, 1]⟩ := by
  unfold drawLayer
  rw [drawLayer_one_eq (by linarith) (by linarith) (by linarith) (by linarith) (by linarith) (by linarith)]
  simp only [bind, Except.bind]
  rw [toVCell_get (n := 3) (k := 3) ⟨by norm_num⟩ ⟨by norm_num⟩ rfl rfl]
  congr 2
  · funext i j
    unfold paintSlice
    fin_cases i <;> fin_cases j <;> simp
  · funext j
    fin_cases j <;> rfl
  · funext j
    fin_cases j <;> rfl

private theorem avg3 (x : ℝ) (a : Fin 3 → ℂ) (ha : a 2 = a 0) :
    cfsC ![x - 1 / 8, x + 1 / 8, 1] ((![x - 1 / 8, x + 1 / 8, 1] : Fin 3 → ℝ) (-1)) a 0 = a 0 * (3 / 4) + a 1 * (1 / 4) := by
  unfold cfsC
  rw [if_pos rfl, Fin.sum_univ_three, ha]
  have e : (![x - 1 / 8, x + 1 / 8, 1] : Fin 3 → ℝ) (-1) = 1 := rfl
  have e1 : (![x - 1 / 8, x + 1 / 8, 1] : Fin 3 → ℝ) (1 - 1) = x - 1 / 8 := rfl
  have e2 : (![x - 1 / 8, x + 1 / 8, 1] : Fin 3 → ℝ) (2 - 1) = x + 1 / 8 := rfl
  rw [e, e1, e2, if_pos rfl, if_neg (by decide), if_neg (by decide)]
  simp only [Matrix.cons_val_zero, Matrix.cons_val_one, Matrix.cons_val]
  push_cast
  ring

private theorem square_conv {la : LinAlg} {x y : ℝ} (hx : 1 / 8 < x) (hx' : x < 7 / 8) (hy : 1 / 8 < y) (hy' : y < 7 / 8) {c : Conv (FlatIdx 0 0)} {v : VCell}
    (hv : drawLayer (1, 1) 1 [⟨y - 1 / 8, x - 1 / 8, y + 1 / 8, x + 1 / 8, 2 - Complex.I⟩] = .ok v)
    (h : convContinuous la v 0 0 false = .ok c) :
    c.epx = (52 * (45 - 4 * Complex.I) / 2041 : ℂ) • 1 ∧ c.epy = (3 / 4 + (78 - 4 * Complex.I) / 244 : ℂ) • 1 ∧
    c.epzi = ((72 + 16 * Complex.I) / 85 : ℂ) • 1 := by
  obtain rfl := Except.ok.inj ((square_draw hx hx' hy hy').symm.trans hv)
  obtain ⟨epz, hf⟩ := convContinuous_fromCell.mp h
  have e1 := gen0_x hf.hx
  have e2 := gen0_y hf.hy
  have e3 := gen0_zz hf.hz
  have e4 := hf.hi
  rw [e3, scal_inv] at e4
  have I2 := Complex.I_sq
  have w : (2 - Complex.I) ^ 2 = 3 - 4 * Complex.I := by linear_combination I2
  simp only at e1 e2 e4
  have i1 : ((3 / 2 : ℂ) - Complex.I)⁻¹ = (6 + 4 * Complex.I) / 13 := inv_eq_of_mul_eq_one_right (by linear_combination -(4 / 13) * I2)
  have i2 : ((45 + 4 * Complex.I) / 52 : ℂ)⁻¹ = 52 * (45 - 4 * Complex.I) / 2041 := inv_eq_of_mul_eq_one_right (by linear_combination -(16 / 2041) * I2)
  have i3 : (3 - 4 * Complex.I : ℂ)⁻¹ = (3 + 4 * Complex.I) / 25 := inv_eq_of_mul_eq_one_right (by linear_combination -(16 / 25) * I2)
  have i4 : ((78 + 4 * Complex.I) / 100 : ℂ)⁻¹ = (78 - 4 * Complex.I) / 61 := inv_eq_of_mul_eq_one_right (by linear_combination -(16 / 6100) * I2)
  have i5 : (9 / 8 - Complex.I / 4 : ℂ)⁻¹ = (72 + 16 * Complex.I) / 85 := inv_eq_of_mul_eq_one_right (by linear_combination -(4 / 85) * I2)
  refine ⟨?_, ?_, ?_⟩
  · rw [e1, avg3 x _ (by rw [avg3 y _ (by simp), avg3 y _ (by simp)]; simp), avg3 y _ (by simp), avg3 y _ (by simp)]
    simp only [Fin.isValue, zero_ne_one, one_ne_zero, and_false, false_and, if_false, and_true, true_and, if_true, w, one_pow]
    rw [show (1 * (3 / 4) + (3 - 4 * Complex.I) * (1 / 4) : ℂ) = 3 / 2 - Complex.I by ring, i1,
      show ((1 * (3 / 4) + 1 * (1 / 4) : ℂ)⁻¹ * (3 / 4) + (6 + 4 * Complex.I) / 13 * (1 / 4)) = (45 + 4 * Complex.I) / 52 by norm_num; ring, i2]
  · rw [e2, avg3 x _ (by rw [avg3 y _ (by simp), avg3 y _ (by simp)]; simp), avg3 y _ (by simp), avg3 y _ (by simp)]
    simp only [Fin.isValue, zero_ne_one, one_ne_zero, and_false, false_and, if_false, and_true, true_and, if_true, w, one_pow, inv_one, one_div, i3]
    rw [show (1 * (3 / 4) + (3 + 4 * Complex.I) / 25 * 4⁻¹ : ℂ) = (78 + 4 * Complex.I) / 100 by ring, i4]
    congr 1
    norm_num
    ring
  · rw [e4, avg3 x _ (by rw [avg3 y _ (by simp), avg3 y _ (by simp)]; simp), avg3 y _ (by simp), avg3 y _ (by simp)]
    simp only [Fin.isValue, zero_ne_one, one_ne_zero, and_false, false_and, if_false, and_true, true_and, if_true, w, one_pow]
    rw [show ((1 * (3 / 4) + 1 * (1 / 4)) * (3 / 4) + (1 * (3 / 4) + (3 - 4 * Complex.I) * (1 / 4)) * (1 / 4) : ℂ) = 9 / 8 - Complex.I / 4 by ring, i5]

private theorem square_omega {c : Conv (FlatIdx 0 0)} (f1 : c.epx = (52 * (45 - 4 * Complex.I) / 2041 : ℂ) • 1)
    (f2 : c.epy = (3 / 4 + (78 - 4 * Complex.I) / 244 : ℂ) • 1) (f3 : c.epzi = ((72 + 16 * Complex.I) / 85 : ℂ) • 1) :
    Spec.DiagonalisableAway (omega2LR (fun _ => (1 / 2 : ℂ)) (fun _ => 0) c) := by
  have I2 := Complex.I_sq
  have e : omega2LR (fun _ => (1 / 2 : ℂ)) (fun _ => 0) c
      = Matrix.diagonal (Sum.elim (fun _ => 52 * (-2999 + 448 * Complex.I) / 173485) (fun _ => -(1 / 2) - (78 - 4 * Complex.I) / 244)) := by
    rw [omega_spec, f1, f2, f3]
    simp only [Matrix.smul_one_eq_diagonal, Matrix.diagonal_mul_diagonal, mul_zero, zero_mul, Matrix.diagonal_zero, sub_self, zero_add]
    rw [← Matrix.diagonal_one]
    simp only [Matrix.diagonal_mul_diagonal, Matrix.diagonal_sub]
    simp only [zero_mul, zero_sub, sub_zero, Matrix.diagonal_zero, Matrix.diagonal_neg, Matrix.diagonal_mul_diagonal, Matrix.diagonal_add]
    rw [← Matrix.fromBlocks_diagonal]
    congr 2
    · funext _
      linear_combination (-64 / 13345) * I2
    · funext _
      ring
  rw [e]
  refine ⟨⟨1, _, by simp, by rw [Matrix.mul_one, Matrix.one_mul]⟩, fun l v hv h => ?_⟩
  obtain ⟨i, hi⟩ := Function.ne_iff.mp hv
  have hi' := congrFun h i
  rw [Matrix.mulVec_diagonal, Pi.smul_apply, smul_eq_mul] at hi'
  rw [← mul_right_cancel₀ hi hi']
  rcases i with i | i
  · refine le_trans ?_ (Complex.abs_re_le_norm _)
    rw [Sum.elim_inl, show (52 * (-2999 + 448 * Complex.I) / 173485 : ℂ) = ((-155948 / 173485 : ℝ) : ℂ) + ((23296 / 173485 : ℝ) : ℂ) * Complex.I by
      push_cast; ring]
    simp
    norm_num [abs_of_neg]
  · refine le_trans ?_ (Complex.abs_re_le_norm _)
    rw [Sum.elim_inr, show (-(1 / 2) - (78 - 4 * Complex.I) / 244 : ℂ) = ((-200 / 244 : ℝ) : ℂ) + ((4 / 244 : ℝ) : ℂ) * Complex.I by
      push_cast; ring]
    simp
    norm_num [abs_of_neg]

private theorem square_away {la : LinAlg} (hb : Spec.ReturnsBasis la) {x y : ℝ} (hx : 1 / 8 < x) (hx' : x < 7 / 8) (hy : 1 / 8 < y) (hy' : y < 7 / 8)
    {sol} (h : conv_solve la (squareSettings x y) = .ok sol) : Spec.ModesAway sol := by
  rintro o rfl
  obtain ⟨cs, hcs, -, -, h4⟩ := conv_solve_twoD.mp h
  refine infos_away (p := (squareSettings x y).p) hb rfl (fun z hz => ?_) h4
  have hz := (List.of_mem_zip hz).1
  have hd := (convMats_drawn (s := squareSettings x y) rfl rfl).mp hcs
  cases hd with
  | cons a b =>
    cases b
    obtain ⟨objs, v, k1, k2, k3⟩ := a
    obtain rfl := Except.ok.inj (k1.symm.trans (square_objs x y))
    rw [List.mem_singleton.mp hz]
    obtain ⟨f1, f2, f3⟩ := square_conv hx hx' hy hy' k2 k3
    have hi : Spec.RealIllumination (squareSettings x y).p := (exSettings_lossless 0 (some 0) (by intro φ h; cases h; rfl)).toRealIllumination
    have hX : kxF (squareSettings x y).p (squareSettings x y).p.wavelength = fun _ => (1 / 2 : ℂ) := by
      rw [kxF_eq_kxOf hi]
      funext i
      have hi : (i : FlatIdx 0 0) = 0 := Subsingleton.elim (α := Fin 1) _ _
      subst hi
      simp [Spec.kxOf, squareSettings, exSettings, exParams]
      rw [show ((Real.pi : ℂ) / 6) = ((Real.pi / 6 : ℝ) : ℂ) by push_cast; ring, ← Complex.ofReal_sin, Real.sin_pi_div_six]
      norm_num
    have hY : kyF (squareSettings x y).p (squareSettings x y).p.wavelength = fun _ => (0 : ℂ) := by
      rw [kyF_eq_kyOf hi]
      funext i
      have hi : (i : FlatIdx 0 0) = 0 := Subsingleton.elim (α := Fin 1) _ _
      subst hi
      simp [Spec.kyOf, squareSettings, exSettings, exParams]
    show Spec.DiagonalisableAway (omega2LR (kxF (squareSettings x y).p (squareSettings x y).p.wavelength) (kyF (squareSettings x y).p (squareSettings x y).p.wavelength) _)
    rw [hX, hY]
    exact square_omega f1 f2 f3

/-- The square, moved within the cell, on JAX and on PyTorch. -/
example (env : Jax.Env) (hb : Spec.ReturnsBasis env.la) : ∃ j j' t t' : Solved 0 0,
    Jax.conv_solve env (squareSettings (1 / 4) (3 / 8)) = .ok j ∧ Jax.conv_solve env (squareSettings (1 / 4 + 1 / 8) (3 / 8 + -(1 / 5))) = .ok j' ∧
    tConv_solve exLA (squareSettings (1 / 4) (3 / 8)).torch = .ok t ∧ tConv_solve exLA (squareSettings (1 / 4 + 1 / 8) (3 / 8 + -(1 / 5))).torch = .ok t' ∧
    Spec.SameEfficiencies j.result j'.result ∧ Spec.SameEfficiencies t.result t'.result := by
  obtain ⟨sol, h⟩ := square_solves
  have p : ∀ l ∈ [squareLayer (1 / 4) (3 / 8)], Spec.Parallel l := fun l hl => by
    rw [List.mem_singleton.mp hl]
    intro i hi
    rw [List.mem_singleton.mp hi]
    exact ⟨_, _, _, _, _, 0, _, _, rfl⟩
  have f1 : ∀ l ∈ [squareLayer (1 / 4) (3 / 8)], ∃ objs, Spec.FreeEdges (squareSettings (1 / 4) (3 / 8)).p.period l objs := fun l hl => by
    rw [List.mem_singleton.mp hl]
    refine ⟨_, square_objs _ _, ?_, ?_, ?_, ?_⟩ <;> norm_num [Spec.rowEdges, Spec.colEdges, squareSettings, exSettings, exParams]
  have f2 : ∀ l ∈ [squareLayer (1 / 4) (3 / 8)], ∃ objs,
      Spec.FreeEdges (squareSettings (1 / 4) (3 / 8)).p.period (Spec.moveLayer (1 / 8) (-(1 / 5)) l) objs := fun l hl => by
    rw [List.mem_singleton.mp hl, show Spec.moveLayer (1 / 8) (-(1 / 5)) (squareLayer (1 / 4) (3 / 8)) = squareLayer (1 / 4 + 1 / 8) (3 / 8 + -(1 / 5)) from rfl]
    refine ⟨_, square_objs _ _, ?_, ?_, ?_, ?_⟩ <;> norm_num [Spec.rowEdges, Spec.colEdges, squareSettings, exSettings, exParams]
  obtain ⟨sol', h'⟩ := (C85_anywhere exLA (squareSettings (1 / 4) (3 / 8)) rfl _ rfl one_ne_zero one_ne_zero (1 / 8) (-(1 / 5)) p f1 f2 sol h).1 exLA exLA_basis
  have h' : conv_solve exLA (squareSettings (1 / 4 + 1 / 8) (3 / 8 + -(1 / 5))) = .ok sol' := h'
  obtain ⟨j, hj, -⟩ := C57_other_eig exLA env hb _ rfl _ h
  obtain ⟨j', hj', -⟩ := C57_other_eig exLA env hb _ rfl _ h'
  have c : ∀ x y, Spec.LosslessCladdings (squareSettings x y).p := fun x y =>
    { (exSettings_lossless 0 (some 0) (by intro φ h; cases h; rfl)).toRealIllumination with
      n_bot_real := by simp [squareSettings, exSettings, exParams, Spec.IsReal]
      n_bot_pos := by simp [squareSettings, exSettings, exParams] }
  have r : ∀ {x y : ℝ}, 1 / 8 < x → x < 7 / 8 → 1 / 8 < y → y < 7 / 8 → ∀ {s}, conv_solve exLA (squareSettings x y) = .ok s → Spec.TorchReady (squareSettings x y) s :=
    fun a1 a2 a3 a4 s hs => ⟨c _ _, fun hg => absurd hg (by simp [gratingType, squareSettings]), square_away exLA_basis a1 a2 a3 a4 hs⟩
  obtain ⟨t, t', k1, k2, k3⟩ := C85_torch exLA exLA (squareSettings (1 / 4) (3 / 8)) rfl rfl _ rfl one_ne_zero one_ne_zero (1 / 8) (-(1 / 5)) p f1 f2 sol sol' h h'
    (r (by norm_num) (by norm_num) (by norm_num) (by norm_num) h) (r (x := 1 / 4 + 1 / 8) (y := 3 / 8 + -(1 / 5)) (by norm_num) (by norm_num) (by norm_num) (by norm_num) h')
  have hr : Spec.JaxReady (squareSettings (1 / 4) (3 / 8)) :=
    ⟨fun u e => (by cases e), fun ls e l hl cx cy lx ly n angle nw nh hi => (by
      cases e
      rw [List.mem_singleton.mp hl] at hi
      cases List.mem_singleton.mp hi), by simp [squareSettings, exSettings, exParams, Spec.layerCount]⟩
  exact ⟨j, j', t, t', hj, hj', k1, k2, C85_jax env env (squareSettings (1 / 4) (3 / 8)) rfl hr _ rfl one_ne_zero one_ne_zero (1 / 8) (-(1 / 5)) p f1 f2 j j' hj hj', k3⟩

end Meent

#print axioms Meent.C85_jax
#print axioms Meent.C85_torch
