import Verif.Lemmas.PassiveExample
import Verif.Lemmas.Example2D

/-!
# An absorbing grating in the conical solver (helper lemmas)
-/

open Matrix

namespace Meent

set_option linter.unusedSectionVars false
set_option linter.unusedSimpArgs false

/-- The scalars of one diagonal layer: `q1 ^ 2 = 1/4 - b`, `q2 ^ 2 = a (e/4 - 1)`, both with admittances in the upper half plane. -/
structure LayerScalars (a b e q1 q2 : ℂ) : Prop where
  ha : a ≠ 0
  e1 : csqrt (1 / 4 - b) = q1
  e2 : csqrt ((e / 4 - 1) * a) = q2
  r1 : 0 ≤ q1.re
  r2 : 0 ≤ q2.re
  i1 : 0 < q1.im
  i2 : 0 < (q2 / a).im

section
variable {m : Type} [Fintype m] [DecidableEq m] {a b e q1 q2 : ℂ}

/-- Modes of the diagonal layer. -/
noncomputable def dgM (m : Type) [DecidableEq m] (a q1 q2 : ℂ) : ConModes m :=
  ⟨1, 1, diagonal fun _ => 1 / q1, 0, 0, diagonal fun _ => 1 / (q2 / a), fun _ => q1, fun _ => q2⟩

/-- Matrices of the diagonal layer. -/
noncomputable def dgC (m : Type) [DecidableEq m] (a b e : ℂ) : Conv m :=
  ⟨diagonal fun _ => a, diagonal fun _ => b, diagonal fun _ => e⟩

theorem dgConModes (h : LayerScalars a b e q1 q2) :
    transfer_1d_conical_2 exLA (fun _ : m => (1 / 2 : ℂ)) (fun _ => 0) (dgC m a b e) false = .ok (dgM m a q1 q2) := by
  have h1 : q1 ≠ 0 := ne_of_im h.i1.ne'
  have h2' : q2 / a ≠ 0 := ne_of_im h.i2.ne'
  have h2 : q2 ≠ 0 := fun h0 => h2' (by rw [h0, zero_div])
  have s1 : q1 ^ 2 = 1 / 4 - b := by rw [← h.e1, csqrt_sq]
  have s2 : q2 ^ 2 = (e / 4 - 1) * a := by rw [← h.e2, csqrt_sq]
  have n1 : (1 / 4 - b : ℂ) ≠ 0 := by rw [← s1]; exact pow_ne_zero 2 h1
  have n2 : (e / 4 - 1 : ℂ) ≠ 0 := by
    intro h0; rw [h0, zero_mul] at s2; exact pow_ne_zero 2 h2 s2
  unfold transfer_1d_conical_2 dgC dgM
  have eA : (diagonal fun _ : m => ((1 / 2 : ℂ)) ^ 2) - (diagonal fun _ : m => b) = diagonal fun _ => 1 / 4 - b := by
    rw [diagonal_sub]; congr 1; funext i; norm_num
  have eB : (diagonal fun _ : m => ((1 / 2 : ℂ))) * (diagonal fun _ : m => e) * (diagonal fun _ : m => (1 / 2 : ℂ)) - 1
      = diagonal fun _ => e / 4 - 1 := by
    rw [diagonal_mul_diagonal, diagonal_mul_diagonal, ← diagonal_one, diagonal_sub]; congr 1; funext i; ring
  have e0 : (diagonal fun _ : m => (0 : ℂ) ^ 2) = 0 := by simp
  have e0' : (diagonal fun _ : m => (0 : ℂ)) = 0 := by simp
  have eBx : (diagonal fun _ : m => (e / 4 - 1 : ℂ)) * (diagonal fun _ : m => a) = diagonal fun _ => (e / 4 - 1) * a := by
    rw [diagonal_mul_diagonal]
  simp only [eA, eB, e0, e0', eBx, zero_add, exLA_eig_diagonal]
  simp only [meeinv_diagonal exLA (fun _ : m => n1),
    meeinv_diagonal exLA (fun _ : m => n2), bind, Except.bind, h.e1, h.e2, Matrix.mul_one,
    Matrix.zero_mul, diagonal_mul_diagonal, Except.ok.injEq, ConModes.mk.injEq, true_and, and_true]
  constructor
  · congr 1; funext i
    rw [← s1]
    field_simp
  · congr 1; funext i
    rw [one_div_div, inv_mul_eq_div, div_eq_div_iff n2 h2]
    linear_combination s2

noncomputable def dgW (q1 : ℂ) : m ⊕ m → ℂ := Sum.elim (fun _ => 1 / q1) fun _ => 1
noncomputable def dgV (v2 : ℂ) : m ⊕ m → ℂ := Sum.elim (fun _ => 1) fun _ => 1 / v2
noncomputable def dgQ (q1 q2 : ℂ) : m ⊕ m → ℂ := Sum.elim (fun _ => q1) fun _ => q2

theorem dg_add_ne {z : ℂ} (h : 0 < z.im) : z + Complex.I * ((Real.sqrt 3 / 2 : ℝ) : ℂ) ≠ 0 := by
  have hy : 0 < Real.sqrt 3 / 2 := by positivity
  refine ne_of_im ?_
  rw [Complex.add_im, mul_comm, Complex.im_ofReal_mul, Complex.I_im]
  linarith

theorem dgA_ne {v1 v2 : ℂ} (h1 : 0 < v1.im) (h2 : 0 < v2.im) (i : m ⊕ m) : exF i / dgW v1 i + exG i / dgV v2 i ≠ 0 := by
  rcases i with i | i
  · simp only [exF, exG, dgW, dgV, Sum.elim_inl]
    rw [one_div_one_div, div_one]
    exact dg_add_ne h1
  · simp only [exF, exG, dgW, dgV, Sum.elim_inr]
    rw [one_div_one_div, div_one, add_comm]
    exact dg_add_ne h2

noncomputable def dgRho (v1 v2 q1 q2 : ℂ) (i : m ⊕ m) : ℂ :=
  Complex.exp (-((2 * Real.pi / 1 : ℝ) : ℂ) * dgQ q1 q2 i * ((1 / 3 : ℝ) : ℂ)) ^ 2
        * ((exF i / dgW v1 i - exG i / dgV v2 i) / (exF i / dgW v1 i + exG i / dgV v2 i))

theorem dgStep (h : LayerScalars a b e q1 q2) : ∃ r : TState (m ⊕ m) × LayerInfoCon m,
    stepCon exLA false (2 * Real.pi / 1) (fun _ => 1 / 2) (fun _ => 0) (fun _ => 0) (dgC m a b e) (1 / 3)
      ⟨diagonal exF, diagonal exG, diagonal fun _ => 1⟩ = .ok r ∧
    r.1.F = (diagonal fun i => dgW q1 i * (1 + dgRho q1 (q2 / a) q1 q2 i)) ∧
    r.1.G = (diagonal fun i => dgV (q2 / a) i * (1 - dgRho q1 (q2 / a) q1 q2 i)) := by
  have h1 : q1 ≠ 0 := ne_of_im h.i1.ne'
  have h2' : q2 / a ≠ 0 := ne_of_im h.i2.ne'
  have eW : conW (fun _ : m => (0 : ℂ)) (dgM m a q1 q2) = diagonal (dgW q1) := by
    unfold conW dgM dgW
    rw [← fromBlocks_diagonal]
    simp
  have eV : conV (fun _ : m => (0 : ℂ)) (dgM m a q1 q2) = diagonal (dgV (q2 / a)) := by
    unfold conV dgM dgV
    rw [← fromBlocks_diagonal]
    simp
  have hm := dgConModes (m := m) h
  have wne : ∀ i : m ⊕ m, dgW q1 i ≠ 0 := by
    intro i; rcases i with i | i <;> simp [dgW, h1]
  have vne : ∀ i : m ⊕ m, dgV (q2 / a) i ≠ 0 := by
    intro i
    rcases i with i | i
    · simp [dgV]
    · simp only [dgV, Sum.elim_inr]; exact one_div_ne_zero h2'
  have hstep : tmmStep exLA false (phaseX (2 * Real.pi / 1) (dgQ q1 q2) (1 / 3)) (diagonal (dgW q1)) (diagonal (dgV (q2 / a)))
      ⟨diagonal (exF (m := m)), diagonal exG, diagonal fun _ => 1⟩ = _ := tmmStep_diag exLA wne vne (dgA_ne h.i1 h.i2)
  have hq : Sum.elim (dgM m a q1 q2).q1 (dgM m a q1 q2).q2 = dgQ q1 q2 := rfl
  unfold stepCon
  rw [hm]
  simp only [bind, Except.bind, transfer_1d_conical_3_eq]
  rw [hq, eW, eV, hstep]
  exact ⟨_, rfl, rfl, rfl⟩

theorem dgFinal {v1 v2 : ℂ} (h1 : 0 < v1.im) (h2 : 0 < v2.im) (r1 : 0 ≤ q1.re) (r2 : 0 ≤ q2.re) {r : TState (m ⊕ m)}
    (hF : r.F = (diagonal fun i => dgW v1 i * (1 + dgRho v1 v2 q1 q2 i)))
    (hG : r.G = (diagonal fun i => dgV v2 i * (1 - dgRho v1 v2 q1 q2 i))) :
    IsUnit (finalA 1 (fun _ => ((Real.sqrt 3 / 2 : ℝ) : ℂ)) r).det := by
  have hpi := Real.pi_pos
  have : r = ⟨r.F, r.G, r.T⟩ := rfl
  rw [this, hF, hG]
  refine finalA_diag ?_ ?_
  · intro i
    simp only [dgRho, exF, exG, dgW, dgV, dgQ, Sum.elim_inl]
    have h3 := (absScalars h1).2 _ (absPhase (k := 2 * Real.pi / 1) (d := 1 / 3) r1 (by positivity) (by norm_num))
    generalize Complex.exp (-((2 * Real.pi / 1 : ℝ) : ℂ) * q1 * ((1 / 3 : ℝ) : ℂ)) ^ 2 = X at h3 ⊢
    have h0 : v1 ≠ 0 := ne_of_im h1.ne'
    have e : (1 / (1 / v1) - Complex.I * ((Real.sqrt 3 / 2 : ℝ) : ℂ) / 1)
        / (1 / (1 / v1) + Complex.I * ((Real.sqrt 3 / 2 : ℝ) : ℂ) / 1)
        = dr v1 ((Real.sqrt 3 / 2 : ℝ) : ℂ) := by
      unfold dr
      rw [one_div_one_div, div_one]
      field_simp
    rw [e]
    intro h2
    refine h3 ?_
    generalize dr v1 ((Real.sqrt 3 / 2 : ℝ) : ℂ) = ρ at h2 ⊢
    field_simp at h2
    linear_combination h2
  · intro i
    simp only [dgRho, exF, exG, dgW, dgV, dgQ, Sum.elim_inr]
    have h3 := (absScalars h2).2 _ (absPhase (k := 2 * Real.pi / 1) (d := 1 / 3) r2 (by positivity) (by norm_num))
    generalize Complex.exp (-((2 * Real.pi / 1 : ℝ) : ℂ) * q2 * ((1 / 3 : ℝ) : ℂ)) ^ 2 = X at h3 ⊢
    have hzy := dg_add_ne h2
    have h0 : v2 ≠ 0 := ne_of_im h2.ne'
    have e : (Complex.I * ((Real.sqrt 3 / 2 : ℝ) : ℂ) / 1 - 1 / (1 / v2))
        / (Complex.I * ((Real.sqrt 3 / 2 : ℝ) : ℂ) / 1 + 1 / (1 / v2))
        = -dr v2 ((Real.sqrt 3 / 2 : ℝ) : ℂ) := by
      unfold dr
      generalize Complex.I * ((Real.sqrt 3 / 2 : ℝ) : ℂ) = w at hzy ⊢
      have h3 : w + v2 ≠ 0 := by rw [add_comm]; exact hzy
      have h4 : 1 + w / v2 ≠ 0 := by
        intro h; apply hzy; field_simp at h; rw [h, mul_zero]
      rw [one_div_one_div, div_one]
      field_simp
      ring
    rw [e]
    intro h4
    refine h3 ?_
    generalize dr v2 ((Real.sqrt 3 / 2 : ℝ) : ℂ) = ρ at h4 ⊢
    field_simp at h4
    linear_combination h4

end

theorem dgSolveCon {p : Params} {a b e q1 q2 : ℂ} (h : LayerScalars a b e q1 q2) (hp : p.use_pinv = false) (ht : p.n_top = 1)
    (hb : p.n_bot = 1)
    (hd : p.thickness = [1 / 3]) (hf : p.fto.2 = 0) (hx : kxF p 1 = fun _ => 1 / 2) (hy : kyF p 1 = fun _ => 0) :
    ∃ o, solve_1d_conical exLA p 1 [dgC _ a b e] = .ok o := by
  obtain ⟨r, hr, hF, hG⟩ := dgStep (m := FlatIdx p.fto.1 p.fto.2) h
  have hfin := dgFinal h.i1 h.i2 h.r1 h.r2 hF hG
  have h4 : ∃ x : Out4 p.fto.1 p.fto.2, transfer_2d_4 exLA r.1 (fun _ => ((Real.sqrt 3 / 2 : ℝ) : ℂ))
      (fun _ => ((Real.sqrt 3 / 2 : ℝ) : ℂ)) p.psi p.theta 1 1 false = .ok x := by
    unfold transfer_2d_4
    simp only [Except.bind_ok, meeinv_false_ok, Except.ok.injEq]
    exact ⟨_, _, ⟨hfin, rfl⟩, rfl⟩
  obtain ⟨x, h4⟩ := h4
  refine ⟨⟨x, [r.2]⟩, (solve_con_iff hp).mpr ⟨by rw [hd]; simp, hf,
    (fun _ => ((Real.sqrt 3 / 2 : ℝ) : ℂ), fun _ => ((Real.sqrt 3 / 2 : ℝ) : ℂ), fun _ => 0,
        ⟨diagonal exF, diagonal exG, diagonal fun _ => 1⟩), (r.1, [r.2]), x, ?_, ?_, ?_, rfl⟩⟩
  · rw [hx, hy, ht, hb]; exact exInit
  · rw [hx, hy, hd]
    simp only [List.zip_cons_cons, List.zip_nil_right]
    exact runLayers_cons.mpr ⟨_, rfl, r, hr, rfl⟩
  · rw [ht, hb]; exact h4

theorem absLayerScalars : LayerScalars ((7 - Complex.I) / 4) (2 - 2 * Complex.I) ((1 + Complex.I) / 4)
    (dq 0 (1 / 2) ((7 - Complex.I) / 4) (2 - 2 * Complex.I) ((1 + Complex.I) / 4))
    (dq 1 (1 / 2) ((7 - Complex.I) / 4) (2 - 2 * Complex.I) ((1 + Complex.I) / 4)) := by
  have h0 := abs_dq (pol := 0) (.inl rfl)
  have h1 := abs_dq (pol := 1) (.inr rfl)
  unfold dv at h0 h1
  simp only [if_true, one_ne_zero, if_false] at h0 h1
  refine ⟨ne_of_im (by norm_num), ?_, ?_, h0.1.le, h1.1.le, h0.2, h1.2⟩
  · unfold dq; simp only [if_true]; congr 1; ring
  · unfold dq; simp only [one_ne_zero, if_false]; congr 1; ring

theorem absCon_ok (pol : ℝ) : ∃ o, conv_solve exLA (absSettings pol (some 0)) = .ok (.conical o) := by
  have hg : gratingType (absSettings pol (some 0)) = 1 := by
    simp [gratingType, absSettings, absCell, exParams]
  obtain ⟨o, ho⟩ := dgSolveCon (p := exParams pol (some 0)) absLayerScalars rfl rfl rfl rfl rfl (exKxF pol) (exKyF pol)
  exact ⟨o, conv_solve_conical.mpr ⟨[absConv], absConvMats pol (some 0), hg, rfl, ho⟩⟩

end Meent
