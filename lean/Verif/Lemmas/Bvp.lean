import Mathlib.Analysis.Calculus.MeanValue
import Mathlib.Analysis.SpecialFunctions.ExpDeriv
import Verif.Spec.Maxwell
import Verif.Lemmas.FieldMatch

/-!
# Layers as systems of differential equations (helper lemmas)

The transverse amplitudes of a layer satisfy `S' = k0 P U`, `U' = k0 R S`; the modes diagonalise this system.
-/

open Matrix

namespace Meent

set_option linter.unusedSectionVars false
set_option linter.unusedSimpArgs false

variable {n : Type} [Fintype n] [DecidableEq n]

/-- `S' = k0 P U`, `U' = k0 R S` at the depths `D`. -/
structure PRSol (k0 : ℝ) (P R : Matrix n n ℂ) (D : Set ℝ) (S U : ℝ → n → ℂ) : Prop where
  dS : ∀ t ∈ D, ∀ i, HasDerivWithinAt (fun t => S t i) ((k0 : ℂ) * (P *ᵥ U t) i) D t
  dU : ∀ t ∈ D, ∀ i, HasDerivWithinAt (fun t => U t i) ((k0 : ℂ) * (R *ᵥ S t) i) D t

theorem PRSol.congr {k0 : ℝ} {P R : Matrix n n ℂ} {D : Set ℝ} {S U S' U' : ℝ → n → ℂ} (h : PRSol k0 P R D S U)
    (hS : ∀ t, S' t = S t) (hU : ∀ t, U' t = U t) : PRSol k0 P R D S' U' := by
  rw [show S' = S from funext hS, show U' = U from funext hU]; exact h

/-- Modes of such a system. -/
structure PRModes (P R W V : Matrix n n ℂ) (q : n → ℂ) : Prop where
  left : P * V = W * diagonal q
  right : R * W = V * diagonal q

theorem hasDeriv_exp_lin (a b : ℂ) (t : ℝ) (D : Set ℝ) :
    HasDerivWithinAt (fun t : ℝ => Complex.exp (a * (t : ℂ) + b)) (a * Complex.exp (a * (t : ℂ) + b)) D t := by
  have h1 : HasDerivAt (fun z : ℂ => Complex.exp (a * z + b)) (Complex.exp (a * (t : ℂ) + b) * (a * 1)) (t : ℂ) :=
    (((hasDerivAt_id _).const_mul a).add_const b).cexp
  have h2 := h1.comp_ofReal.hasDerivWithinAt (s := D)
  rwa [mul_one, mul_comm] at h2

theorem hasDeriv_mulVec {M : Matrix n n ℂ} {g g' : ℝ → n → ℂ} {D : Set ℝ} {t : ℝ}
    (h : ∀ j, HasDerivWithinAt (fun t => g t j) (g' t j) D t) (i : n) :
    HasDerivWithinAt (fun t => (M *ᵥ g t) i) ((M *ᵥ g' t) i) D t := by
  simp only [mulVec, dotProduct]
  exact HasDerivWithinAt.fun_sum fun j _ => (h j).const_mul (M i j)

/-- The combination of modes computed by the code solves the system. -/
theorem PRModes.sol {k0 : ℝ} {P R W V : Matrix n n ℂ} {q : n → ℂ} (h : PRModes P R W V q) (d : ℝ) (a b : n → ℂ)
    (D : Set ℝ) :
    PRSol k0 P R D (fun t => W *ᵥ (expDown k0 q t *ᵥ a + expUp k0 q d t *ᵥ b))
      (fun t => V *ᵥ (-(expDown k0 q t *ᵥ a) + expUp k0 q d t *ᵥ b)) := by
  have e1 : ∀ (t : ℝ) j, HasDerivWithinAt (fun t => (expDown k0 q t *ᵥ a) j)
      (-(k0 : ℂ) * q j * (expDown k0 q t *ᵥ a) j) D t := by
    intro t j
    have := (hasDeriv_exp_lin (-(k0 : ℂ) * q j) 0 t D).mul_const (a j)
    simp only [add_zero] at this
    simp only [expDown, mulVec_diagonal]
    rwa [← mul_assoc]
  have e2 : ∀ (t : ℝ) j, HasDerivWithinAt (fun t => (expUp k0 q d t *ᵥ b) j)
      ((k0 : ℂ) * q j * (expUp k0 q d t *ᵥ b) j) D t := by
    intro t j
    have := (hasDeriv_exp_lin ((k0 : ℂ) * q j) (-((k0 : ℂ) * q j * d)) t D).mul_const (b j)
    simp only [expUp, mulVec_diagonal]
    rw [← mul_assoc]
    have e : ∀ t : ℝ, (k0 : ℂ) * q j * ((t - d : ℝ) : ℂ) = (k0 : ℂ) * q j * t + -((k0 : ℂ) * q j * d) := by
      intro t; push_cast; ring
    simp only [e]
    exact this
  constructor
  · intro t _ i
    have := hasDeriv_mulVec (M := W) (fun j => (e1 t j).add (e2 t j)) i
      (g := fun t => expDown k0 q t *ᵥ a + expUp k0 q d t *ᵥ b)
      (g' := fun t j => -(k0 : ℂ) * q j * (expDown k0 q t *ᵥ a) j + (k0 : ℂ) * q j * (expUp k0 q d t *ᵥ b) j)
    refine this.congr_deriv ?_
    rw [mulVec_mulVec, h.left, ← mulVec_mulVec, ← smul_eq_mul, ← Pi.smul_apply, ← mulVec_smul]
    congr 2
    ext j
    simp only [Pi.smul_apply, mulVec_diagonal, Pi.add_apply, Pi.neg_apply, smul_eq_mul]
    ring
  · intro t _ i
    have := hasDeriv_mulVec (M := V) (fun j => (e1 t j).neg.add (e2 t j)) i
      (g := fun t => -(expDown k0 q t *ᵥ a) + expUp k0 q d t *ᵥ b)
      (g' := fun t j => -(-(k0 : ℂ) * q j * (expDown k0 q t *ᵥ a) j) + (k0 : ℂ) * q j * (expUp k0 q d t *ᵥ b) j)
    refine this.congr_deriv ?_
    rw [mulVec_mulVec, h.right, ← mulVec_mulVec, ← smul_eq_mul, ← Pi.smul_apply, ← mulVec_smul]
    congr 2
    ext j
    simp only [Pi.smul_apply, mulVec_diagonal, Pi.add_apply, Pi.neg_apply, smul_eq_mul]
    ring

/-- A function with `u' = a u` between `0` and `d` is an exponential. -/
theorem exp_of_deriv {u : ℝ → ℂ} {a : ℂ} {d : ℝ}
    (h : ∀ t ∈ Set.uIcc 0 d, HasDerivWithinAt u (a * u t) (Set.uIcc 0 d) t) :
    u 0 = Complex.exp (-(a * d)) * u d := by
  have hd : ∀ t ∈ Set.uIcc 0 d, HasDerivWithinAt (fun t : ℝ => Complex.exp (-a * t + 0) * u t) 0 (Set.uIcc 0 d) t := by
    intro t ht
    refine ((hasDeriv_exp_lin (-a) 0 t _).mul (h t ht)).congr_deriv ?_
    ring
  have := Convex.norm_image_sub_le_of_norm_hasDerivWithin_le hd (C := 0) (fun t _ => by simp) (convex_uIcc 0 d)
    Set.left_mem_uIcc Set.right_mem_uIcc
  rw [zero_mul, norm_le_zero_iff, sub_eq_zero] at this
  simp only [Complex.ofReal_zero, mul_zero, zero_add, Complex.exp_zero, one_mul, add_zero] at this
  rw [← this, neg_mul]

/-- Every solution is a combination of modes. -/
theorem PRModes.rep {k0 : ℝ} {P R W V : Matrix n n ℂ} {q : n → ℂ} (h : PRModes P R W V q) (hW : IsUnit W.det)
    (hV : IsUnit V.det) {d : ℝ} {S U : ℝ → n → ℂ} (hs : PRSol k0 P R (Set.uIcc 0 d) S U) :
    ∃ a b : n → ℂ, S 0 = W *ᵥ (a + phaseX k0 q d *ᵥ b) ∧ U 0 = V *ᵥ (-a + phaseX k0 q d *ᵥ b) ∧
      S d = W *ᵥ (phaseX k0 q d *ᵥ a + b) ∧ U d = V *ᵥ (-(phaseX k0 q d *ᵥ a) + b) := by
  have hP : W⁻¹ * P = diagonal q * V⁻¹ := by
    calc W⁻¹ * P = W⁻¹ * (P * V) * V⁻¹ := by
          rw [Matrix.mul_assoc, Matrix.mul_assoc P, mul_nonsing_inv _ hV, Matrix.mul_one]
      _ = diagonal q * V⁻¹ := by rw [h.left, ← Matrix.mul_assoc, nonsing_inv_mul _ hW, Matrix.one_mul]
  have hR : V⁻¹ * R = diagonal q * W⁻¹ := by
    calc V⁻¹ * R = V⁻¹ * (R * W) * W⁻¹ := by
          rw [Matrix.mul_assoc, Matrix.mul_assoc R, mul_nonsing_inv _ hW, Matrix.mul_one]
      _ = diagonal q * W⁻¹ := by rw [h.right, ← Matrix.mul_assoc, nonsing_inv_mul _ hV, Matrix.one_mul]
  have dA : ∀ t ∈ Set.uIcc 0 d, ∀ i, HasDerivWithinAt (fun t => (W⁻¹ *ᵥ S t) i) ((k0 : ℂ) * q i * (V⁻¹ *ᵥ U t) i) (Set.uIcc 0 d) t := by
    intro t ht i
    refine (hasDeriv_mulVec (M := W⁻¹) (g := S) (g' := fun t => (k0 : ℂ) • (P *ᵥ U t)) (fun j => hs.dS t ht j) i).congr_deriv ?_
    rw [mulVec_smul, mulVec_mulVec, hP, ← mulVec_mulVec, Pi.smul_apply, mulVec_diagonal, smul_eq_mul, mul_assoc]
  have dB : ∀ t ∈ Set.uIcc 0 d, ∀ i, HasDerivWithinAt (fun t => (V⁻¹ *ᵥ U t) i) ((k0 : ℂ) * q i * (W⁻¹ *ᵥ S t) i) (Set.uIcc 0 d) t := by
    intro t ht i
    refine (hasDeriv_mulVec (M := V⁻¹) (g := U) (g' := fun t => (k0 : ℂ) • (R *ᵥ S t)) (fun j => hs.dU t ht j) i).congr_deriv ?_
    rw [mulVec_smul, mulVec_mulVec, hR, ← mulVec_mulVec, Pi.smul_apply, mulVec_diagonal, smul_eq_mul, mul_assoc]
  -- the two families of waves
  have up : ∀ i, (W⁻¹ *ᵥ S 0) i + (V⁻¹ *ᵥ U 0) i
      = Complex.exp (-(k0 : ℂ) * q i * d) * ((W⁻¹ *ᵥ S d) i + (V⁻¹ *ᵥ U d) i) := by
    intro i
    have := exp_of_deriv (u := fun t => (W⁻¹ *ᵥ S t) i + (V⁻¹ *ᵥ U t) i) (a := (k0 : ℂ) * q i) (d := d)
      (fun t ht => ((dA t ht i).add (dB t ht i)).congr_deriv (by ring))
    rw [this]; congr 2; ring
  have down : ∀ i, (W⁻¹ *ᵥ S d) i - (V⁻¹ *ᵥ U d) i
      = Complex.exp (-(k0 : ℂ) * q i * d) * ((W⁻¹ *ᵥ S 0) i - (V⁻¹ *ᵥ U 0) i) := by
    intro i
    have := exp_of_deriv (u := fun t => (W⁻¹ *ᵥ S t) i - (V⁻¹ *ᵥ U t) i) (a := -((k0 : ℂ) * q i)) (d := d)
      (fun t ht => ((dA t ht i).sub (dB t ht i)).congr_deriv (by ring))
    rw [this, ← mul_assoc, ← Complex.exp_add]
    rw [show -(k0 : ℂ) * q i * d + -(-((k0 : ℂ) * q i) * d) = 0 by ring, Complex.exp_zero, one_mul]
  refine ⟨fun i => (1 / 2) * ((W⁻¹ *ᵥ S 0) i - (V⁻¹ *ᵥ U 0) i), fun i => (1 / 2) * ((W⁻¹ *ᵥ S d) i + (V⁻¹ *ᵥ U d) i), ?_⟩
  have cW : ∀ {u v : n → ℂ}, W⁻¹ *ᵥ u = v → u = W *ᵥ v := by
    rintro u _ rfl; rw [mulVec_mulVec, mul_nonsing_inv _ hW, one_mulVec]
  have cV : ∀ {u v : n → ℂ}, V⁻¹ *ᵥ u = v → u = V *ᵥ v := by
    rintro u _ rfl; rw [mulVec_mulVec, mul_nonsing_inv _ hV, one_mulVec]
  refine ⟨cW ?_, cV ?_, cW ?_, cV ?_⟩ <;> ext i <;>
    simp only [phaseX, mulVec_diagonal, Pi.add_apply, Pi.neg_apply]
  · linear_combination (1 / 2) * up i
  · linear_combination (1 / 2) * up i
  · linear_combination (1 / 2) * down i
  · linear_combination (-1 / 2) * down i

/-! ### Stacks -/

variable {m L : Type} [Fintype m] [DecidableEq m]

/-- What the loop body tells about a layer, for uniqueness: all Maxwell fields of the layer are combinations of the
modes of the step. -/
def Complete (k0 : ℝ) (kx ky : m → ℂ) (eS eU : (m → Spec.Tangential) → n → ℂ) (c : Conv m) (d : ℝ) (l : LView n) : Prop :=
  ∀ f, Spec.Maxwell k0 kx ky c (Set.uIcc 0 d) f → ∃ a b : n → ℂ,
    eS (f.tan 0) = l.W *ᵥ (a + l.X *ᵥ b) ∧ eU (f.tan 0) = l.V *ᵥ (-a + l.X *ᵥ b) ∧
    eS (f.tan d) = l.W *ᵥ (l.X *ᵥ a + b) ∧ eU (f.tan d) = l.V *ᵥ (-(l.X *ᵥ a) + b)

theorem stack_unique {k0 : ℝ} {kx ky : m → ℂ} {eS eU : (m → Spec.Tangential) → n → ℂ} {v : L → LView n}
    {step : Conv m → ℝ → TState n → Res (TState n × L)} {s0 : TState n} :
    ∀ {xs : List (Conv m × ℝ)}
    (_ : ∀ c d s r, (c, d) ∈ xs → step c d s = .ok r → (v r.2).Step s r.1 ∧ Complete k0 kx ky eS eU c d (v r.2))
    {fs : List (Spec.OrderFields m)} {top bot : m → Spec.Tangential} {r : TState n × List L} {t : n → ℂ},
    Spec.SolvesStack k0 kx ky xs fs top bot → runLayers step xs (s0, []) = .ok r →
    eS bot = s0.F *ᵥ t → eU bot = -(s0.G *ᵥ t) →
    ∃ t', eS top = r.1.F *ᵥ t' ∧ eU top = -(r.1.G *ᵥ t') ∧ r.1.T *ᵥ t' = s0.T *ᵥ t
  | [], _, [], top, bot, r, t, h, hr, h1, h2 => by
    obtain rfl := Except.ok.inj hr
    simp only [Spec.SolvesStack] at h
    subst h
    exact ⟨t, h1, h2, rfl⟩
  | [], _, _ :: _, _, _, _, _, h, _, _, _ => by simp [Spec.SolvesStack] at h
  | _ :: _, _, [], _, _, _, _, h, _, _, _ => by simp [Spec.SolvesStack] at h
  | (c, d) :: xs, hs, f :: fs, top, bot, r, t, h, hr, h1, h2 => by
    simp only [Spec.SolvesStack] at h
    obtain ⟨hm, rfl, hrest⟩ := h
    simp only [runLayers, Except.bind_ok] at hr
    obtain ⟨r1, hr1, r2, hr2, e⟩ := hr
    obtain rfl := Except.ok.inj e
    obtain ⟨t1, i1, i2, i3⟩ := stack_unique (fun c d s r hc => hs c d s r (List.mem_cons_of_mem _ hc)) hrest hr1 h1 h2
    obtain ⟨hst, hcomp⟩ := hs c d _ _ List.mem_cons_self hr2
    obtain ⟨a, b, j1, j2, j3, j4⟩ := hcomp f hm
    -- at the bottom: X a = A t1, b = B t1
    have w1 : (v r2.2).X *ᵥ a + b = (v r2.2).W⁻¹ *ᵥ r1.1.F *ᵥ t1 := by
      rw [← i1, j3, mulVec_mulVec, nonsing_inv_mul _ hst.hW, one_mulVec]
    have w2 : (v r2.2).X *ᵥ a - b = (v r2.2).V⁻¹ *ᵥ r1.1.G *ᵥ t1 := by
      have : r1.1.G *ᵥ t1 = (v r2.2).V *ᵥ ((v r2.2).X *ᵥ a - b) := by
        rw [← neg_neg (r1.1.G *ᵥ t1), ← i2, j4, ← mulVec_neg]; congr 1; abel
      rw [this, mulVec_mulVec, nonsing_inv_mul _ hst.hV, one_mulVec]
    have ea : (v r2.2).X *ᵥ a = stepA (v r2.2).W (v r2.2).V r1.1 *ᵥ t1 := by
      rw [stepA, smul_mulVec, add_mulVec, ← mulVec_mulVec, ← mulVec_mulVec, ← w1, ← w2]
      ext i; simp only [Pi.smul_apply, Pi.add_apply, Pi.sub_apply, smul_eq_mul]; ring
    have eb : b = (v r2.2).B *ᵥ t1 := by
      rw [hst.B_eq, smul_mulVec, sub_mulVec, ← mulVec_mulVec, ← mulVec_mulVec, ← w1, ← w2]
      ext i; simp only [Pi.smul_apply, Pi.add_apply, Pi.sub_apply, smul_eq_mul]; ring
    have et : t1 = (v r2.2).next a := by
      unfold LView.next
      rw [ea, mulVec_mulVec, hst.Ai_mul_A, one_mulVec]
    have eb' : b = (v r2.2).c2 a := by rw [eb, et]; rfl
    refine ⟨a, ?_, ?_, ?_⟩
    · rw [j1, eb']; exact hst.topE a
    · rw [j2, eb']; exact hst.topH a
    · rw [← i3, et]; exact hst.T_eq a

/-- What the loop body tells about a layer, for existence. -/
structure Carries (k0 : ℝ) (kx ky : m → ℂ) (mk : (n → ℂ) → (n → ℂ) → m → Spec.Tangential) (c : Conv m) (d : ℝ)
    (l : LView n) (F : (n → ℂ) → Spec.OrderFields m) : Prop where
  maxwell : ∀ T, Spec.Maxwell k0 kx ky c (Set.uIcc 0 d) (F T)
  top : ∀ T, (F T).tan 0 = mk (l.topE T) (l.topH T)
  bottom : ∀ T, (F T).tan d = mk (l.botE T) (l.botH T)

theorem stack_exists {k0 : ℝ} {kx ky : m → ℂ} {mk : (n → ℂ) → (n → ℂ) → m → Spec.Tangential} {v : L → LView n}
    {F : L → (n → ℂ) → Spec.OrderFields m} {step : Conv m → ℝ → TState n → Res (TState n × L)} {s0 : TState n} :
    ∀ {xs : List (Conv m × ℝ)}
    (_ : ∀ c d s r, (c, d) ∈ xs → step c d s = .ok r → (v r.2).Step s r.1 ∧ Carries k0 kx ky mk c d (v r.2) (F r.2))
    {r : TState n × List L}, runLayers step xs (s0, []) = .ok r → ∀ T, ∃ t, r.1.T *ᵥ T = s0.T *ᵥ t ∧
      Spec.SolvesStack k0 kx ky xs ((trace v r.2.reverse T).map fun x => F x.1 x.2)
        (mk (r.1.F *ᵥ T) (-(r.1.G *ᵥ T))) (mk (s0.F *ᵥ t) (-(s0.G *ᵥ t)))
  | [], _, r, hr, T => by
    obtain rfl := Except.ok.inj hr
    exact ⟨T, rfl, rfl⟩
  | (c, d) :: xs, hs, r, hr, T => by
    simp only [runLayers, Except.bind_ok] at hr
    obtain ⟨r1, hr1, r2, hr2, e⟩ := hr
    obtain rfl := Except.ok.inj e
    obtain ⟨hst, hc⟩ := hs c d _ _ List.mem_cons_self hr2
    obtain ⟨t, e1, e2⟩ := stack_exists (fun c d s r hc => hs c d s r (List.mem_cons_of_mem _ hc)) hr1 ((v r2.2).next T)
    refine ⟨t, ?_, ?_⟩
    · rw [hst.T_eq, e1]
    · simp only [List.reverse_append, List.reverse_cons, List.reverse_nil, List.nil_append, List.singleton_append, trace,
        List.map_cons, Spec.SolvesStack]
      refine ⟨hc.maxwell T, ?_, ?_⟩
      · rw [hc.top, hst.topE, hst.topH]
      · rw [hc.bottom, hst.botE, hst.botH]; exact e2

end Meent
