import Verif.Lemmas.Canon
import Verif.Lemmas.Dispatch

/-!
# Layer steps with fixed modes, and solver results up to state equivalence (helper lemmas)
-/

open Matrix

namespace Meent

set_option linter.unusedSectionVars false
set_option linter.unusedSimpArgs false

variable {n : Type} [Fintype n] [DecidableEq n]

/-- A layer step is given by modes that depend on the layer only. -/
def HasModes {C L : Type} (k0 : ℝ) (step : C → ℝ → TState n → Res (TState n × L)) : Prop :=
  ∀ c d s r, step c d s = .ok r → ∃ (W V : Matrix n n ℂ) (q : n → ℂ), ∀ d' s' t,
    (∃ l, step c d' s' = .ok (t, l)) ↔ ∃ Ai B, StepData (phaseX k0 q d') W V s' t Ai B

theorem tmmStep_exists {la : LinAlg} {X W V : Matrix n n ℂ} {s t : TState n} :
    (∃ l, tmmStep la false X W V s = .ok (t, l)) ↔ ∃ Ai B, StepData X W V s t Ai B := by
  constructor
  · rintro ⟨⟨Ai, B⟩, h⟩; exact ⟨Ai, B, tmmStep_ok.mp h⟩
  · rintro ⟨Ai, B, h⟩; exact ⟨(Ai, B), tmmStep_ok.mpr h⟩

theorem hasModes_1d (la : LinAlg) {p : Params} (hp : p.use_pinv = false) (k0 : ℝ) (kx : n → ℂ) :
    HasModes k0 (step1d la p k0 kx) := by
  intro c d s r h
  unfold step1d at h
  simp only [Except.bind_ok] at h
  obtain ⟨m, hm, -⟩ := h
  rw [hp] at hm
  refine ⟨m.W, m.V, m.q, fun d' s' t => ?_⟩
  rw [← tmmStep_exists (la := la)]
  unfold step1d transfer_1d_3
  simp only [Except.bind_ok, hp, hm, Except.ok.injEq, exists_eq_left', Prod.mk.injEq]
  constructor
  · rintro ⟨l, r, h, rfl, -⟩; exact ⟨_, h⟩
  · rintro ⟨l, h⟩; exact ⟨_, _, h, rfl, rfl⟩

section
variable {m : Type} [Fintype m] [DecidableEq m]

theorem bigX_eq (k0 : ℝ) (q1 q2 : m → ℂ) (d : ℝ) :
    bigX k0 q1 q2 d = phaseX k0 (Sum.elim q1 q2) d := by
  unfold bigX phaseX
  rw [fromBlocks_diagonal]
  congr 1
  ext i
  cases i <;> rfl

theorem bigX_eq' (k0 : ℝ) (q : m ⊕ m → ℂ) (d : ℝ) :
    bigX k0 (fun i => q (.inl i)) (fun i => q (.inr i)) d = phaseX k0 q d := by
  rw [bigX_eq]
  congr 1
  ext i
  cases i <;> rfl

/-- `big_W` of the conical solver. -/
noncomputable def conW (varphi : m → ℂ) (M : ConModes m) : Matrix (m ⊕ m) (m ⊕ m) ℂ :=
  let F_c := diagonal (fun i => Complex.cos (varphi i))
  let F_s := diagonal (fun i => Complex.sin (varphi i))
  fromBlocks (F_c * M.V11) (F_c * M.V12 - F_s * M.W2) (F_s * M.V11) (F_c * M.W2 + F_s * M.V12)

/-- `big_V` of the conical solver. -/
noncomputable def conV (varphi : m → ℂ) (M : ConModes m) : Matrix (m ⊕ m) (m ⊕ m) ℂ :=
  let F_c := diagonal (fun i => Complex.cos (varphi i))
  let F_s := diagonal (fun i => Complex.sin (varphi i))
  fromBlocks (F_c * M.W1 + F_s * M.V21) (F_s * M.V22) (F_c * M.V21 - F_s * M.W1) (F_c * M.V22)

theorem transfer_1d_conical_3_eq (la : LinAlg) (k0 : ℝ) (M : ConModes m) (d : ℝ) (varphi : m → ℂ)
    (s : TState (m ⊕ m)) (b : Bool) :
    transfer_1d_conical_3 la k0 M d varphi s b
      = tmmStep la b (phaseX k0 (Sum.elim M.q1 M.q2) d) (conW varphi M) (conV varphi M) s := by
  unfold transfer_1d_conical_3
  rw [bigX_eq]
  rfl

theorem transfer_2d_3_eq (la : LinAlg) (k0 : ℝ) (M : Modes (m ⊕ m)) (d : ℝ) (varphi : m → ℂ)
    (s : TState (m ⊕ m)) (b : Bool) :
    transfer_2d_3 la k0 M d varphi s b
      = tmmStep la b (phaseX k0 M.q d) (bigW2d varphi M.W) (bigV2d varphi M.V) s := by
  unfold transfer_2d_3
  rw [bigX_eq']

theorem hasModes_con (la : LinAlg) (k0 : ℝ) (kx ky varphi : m → ℂ) :
    HasModes k0 (stepCon la false k0 kx ky varphi) := by
  intro c d s r h
  unfold stepCon at h
  simp only [Except.bind_ok] at h
  obtain ⟨M, hm, -⟩ := h
  refine ⟨conW varphi M, conV varphi M, Sum.elim M.q1 M.q2, fun d' s' t => ?_⟩
  rw [← tmmStep_exists (la := la)]
  unfold stepCon
  simp only [Except.bind_ok, hm, Except.ok.injEq, exists_eq_left', transfer_1d_conical_3_eq, Prod.mk.injEq]
  constructor
  · rintro ⟨l, r, h, rfl, -⟩; exact ⟨_, h⟩
  · rintro ⟨l, h⟩; exact ⟨_, _, h, rfl, rfl⟩

theorem hasModes_2d (la : LinAlg) (k0 : ℝ) (kx ky varphi : m → ℂ) :
    HasModes k0 (step2d la false k0 kx ky varphi) := by
  intro c d s r h
  unfold step2d at h
  simp only [Except.bind_ok] at h
  obtain ⟨M, hm, -⟩ := h
  refine ⟨bigW2d varphi M.W, bigV2d varphi M.V, M.q, fun d' s' t => ?_⟩
  rw [← tmmStep_exists (la := la)]
  unfold step2d
  simp only [Except.bind_ok, hm, Except.ok.injEq, exists_eq_left', transfer_2d_3_eq, Prod.mk.injEq]
  constructor
  · rintro ⟨l, r, h, rfl, -⟩; exact ⟨_, h⟩
  · rintro ⟨l, h⟩; exact ⟨_, _, h, rfl, rfl⟩

end

section
variable {C L : Type} {k0 : ℝ} {step : C → ℝ → TState n → Res (TState n × L)}

/-- The same step from an equivalent state succeeds as well, with the same outcome. -/
theorem HasModes.step_equiv (h : HasModes k0 step) {c : C} {d : ℝ} {s t : TState n} {r : TState n × L}
    (he : SEquiv s t) (ht : step c d t = .ok r) : ∃ l, step c d s = .ok (r.1, l) := by
  obtain ⟨W, V, q, hiff⟩ := h c d t r ht
  obtain ⟨Ai, B, hd⟩ := (hiff d t r.1).mp ⟨r.2, ht⟩
  obtain ⟨M, hM, rfl⟩ := he.symm
  exact (hiff d _ r.1).mpr ⟨_, _, hd.rmul hM⟩

theorem HasModes.run_equiv (h : HasModes k0 step) (xs : List (C × ℝ)) :
    ∀ {s t : TState n} {ls lt : List L} {r : TState n × List L}, SEquiv s t →
      runLayers step xs (t, lt) = .ok r → ∃ r', runLayers step xs (s, ls) = .ok r' ∧ SEquiv r'.1 r.1 := by
  induction xs with
  | nil =>
    intro s t ls lt r he hr
    simp only [runLayers, Except.ok.injEq] at hr
    subst hr
    exact ⟨_, rfl, he⟩
  | cons x xs ih =>
    intro s t ls lt r he hr
    simp only [runLayers, Except.bind_ok, Except.ok.injEq] at hr
    obtain ⟨a, ha, b, hb, rfl⟩ := hr
    obtain ⟨a', ha', hea⟩ := ih (ls := ls) he ha
    obtain ⟨l, hl⟩ := h.step_equiv hea hb
    refine ⟨(b.1, a'.2 ++ [l]), ?_, SEquiv.refl _⟩
    simp only [runLayers, Except.bind_ok, Except.ok.injEq]
    exact ⟨a', ha', _, hl, rfl⟩

end

/-! ### Final equations on equivalent states -/

theorem transfer_1d_4_equiv {ff : ℕ} {la : LinAlg} {pol : ℝ} {s t : TState (Fin ff)}
    {kzt kzb : Fin ff → ℂ} {theta nt nb : ℂ} {o : SubRes 1 ff × (Fin ff → ℂ)} (he : SEquiv s t)
    (h : transfer_1d_4 la pol t kzt kzb theta nt nb false = .ok o) :
    ∃ o', transfer_1d_4 la pol s kzt kzb theta nt nb false = .ok o' ∧ o'.1 = o.1 := by
  obtain ⟨M, hM, rfl⟩ := he
  have hinv : ∀ (K : Matrix (Fin ff) (Fin ff) ℂ),
      IsUnit ((s.rmul M).G + K * (s.rmul M).F).det → IsUnit (s.G + K * s.F).det ∧
      ∀ b, (s.G + K * s.F)⁻¹ *ᵥ b = M *ᵥ (((s.rmul M).G + K * (s.rmul M).F)⁻¹ *ᵥ b) := by
    intro K hu
    have e : (s.rmul M).G + K * (s.rmul M).F = (s.G + K * s.F) * M := by
      simp [TState.rmul, Matrix.add_mul, Matrix.mul_assoc]
    rw [e] at hu ⊢
    have hu' : IsUnit (s.G + K * s.F).det := by
      rw [det_mul] at hu; exact isUnit_of_mul_isUnit_left hu
    refine ⟨hu', fun b => ?_⟩
    rw [Matrix.mul_inv_rev, mulVec_mulVec, ← Matrix.mul_assoc, mul_nonsing_inv _ hM, Matrix.one_mul]
  unfold transfer_1d_4 at h ⊢
  by_cases h0 : pol = 0
  · simp only [h0, if_true, Except.bind_ok, meeinv_false_ok] at h ⊢
    obtain ⟨N, ⟨hu, rfl⟩, T1, e1, e2⟩ := h
    simp only [Except.ok.injEq] at e1 e2
    obtain ⟨hu', hb⟩ := hinv _ hu
    refine ⟨_, ⟨_, ⟨hu', rfl⟩, _, rfl, rfl⟩, ?_⟩
    subst e2 e1
    simp only [hb, TState.rmul, mulVec_mulVec, Matrix.mul_assoc]
  · by_cases h1 : pol = 1
    · simp only [h1, one_ne_zero, if_true, if_false, Except.bind_ok, meeinv_false_ok] at h ⊢
      obtain ⟨N, ⟨hu, rfl⟩, T1, e1, e2⟩ := h
      simp only [Except.ok.injEq] at e1 e2
      obtain ⟨hu', hb⟩ := hinv _ hu
      refine ⟨_, ⟨_, ⟨hu', rfl⟩, _, rfl, rfl⟩, ?_⟩
      subst e2 e1
      simp only [hb, TState.rmul, mulVec_mulVec, Matrix.mul_assoc]
    · simp only [h0, h1, if_false] at h
      simp [bind, Except.bind] at h

section
variable {m : Type} [Fintype m] [DecidableEq m]

theorem finalA_rmul (nt : ℂ) (kzt : m → ℂ) (s : TState (m ⊕ m)) (M : Matrix (m ⊕ m) (m ⊕ m) ℂ) :
    finalA nt kzt (s.rmul M) = finalA nt kzt s * fromBlocks 1 0 0 M := by
  unfold finalA TState.rmul
  rw [fromBlocks_multiply]
  simp [Matrix.neg_mul]

theorem finalA_equiv {nt : ℂ} {kzt : m → ℂ} {s : TState (m ⊕ m)} {M : Matrix (m ⊕ m) (m ⊕ m) ℂ}
    (hM : IsUnit M.det) (hu : IsUnit (finalA nt kzt (s.rmul M)).det) :
    IsUnit (finalA nt kzt s).det ∧ ∀ b,
      (∀ i, ((finalA nt kzt s)⁻¹ *ᵥ b) (.inl i) = ((finalA nt kzt (s.rmul M))⁻¹ *ᵥ b) (.inl i)) ∧
      (fun i => ((finalA nt kzt s)⁻¹ *ᵥ b) (.inr i))
        = M *ᵥ (fun i => ((finalA nt kzt (s.rmul M))⁻¹ *ᵥ b) (.inr i)) := by
  rw [finalA_rmul] at hu ⊢
  set D : Matrix ((m ⊕ m) ⊕ (m ⊕ m)) ((m ⊕ m) ⊕ (m ⊕ m)) ℂ := fromBlocks 1 0 0 M with hD
  have hDu : IsUnit D.det := by
    rw [hD, det_fromBlocks_zero₂₁, det_one, one_mul]; exact hM
  have hu' : IsUnit (finalA nt kzt s).det := by
    rw [det_mul] at hu; exact isUnit_of_mul_isUnit_left hu
  refine ⟨hu', fun b => ?_⟩
  set v := (finalA nt kzt s * D)⁻¹ *ᵥ b with hv
  have e : (finalA nt kzt s)⁻¹ *ᵥ b = D *ᵥ v := by
    rw [hv, Matrix.mul_inv_rev, mulVec_mulVec, ← Matrix.mul_assoc, mul_nonsing_inv _ hDu, Matrix.one_mul]
  have e2 : D *ᵥ v = Sum.elim (fun i => v (.inl i)) (M *ᵥ fun i => v (.inr i)) := by
    rw [hD, fromBlocks_mulVec]
    simp [Function.comp_def]
  rw [e, e2]
  exact ⟨fun i => rfl, rfl⟩

end

theorem subResOf_equiv {fx fy : ℕ} {s : TState (FlatIdx fx fy ⊕ FlatIdx fx fy)}
    {M : Matrix (FlatIdx fx fy ⊕ FlatIdx fx fy) (FlatIdx fx fy ⊕ FlatIdx fx fy) ℂ}
    {kzt kzb : FlatIdx fx fy → ℂ} {theta nt nb : ℂ} {r r' : _ → ℂ}
    (h1 : ∀ i, r (.inl i) = r' (.inl i)) (h2 : (fun i => r (.inr i)) = M *ᵥ fun i => r' (.inr i)) :
    subResOf s kzt kzb theta nt nb r = subResOf (s.rmul M) kzt kzb theta nt nb r' := by
  unfold subResOf
  simp only [h1, h2, TState.rmul, mulVec_mulVec]

/-- The results part of `Out4`. -/
def Out4.results {fx fy : ℕ} (o : Out4 fx fy) := (o.res, o.res_te, o.res_tm)

theorem transfer_2d_4_equiv {fx fy : ℕ} {la : LinAlg} {s t : TState (FlatIdx fx fy ⊕ FlatIdx fx fy)}
    {kzt kzb : FlatIdx fx fy → ℂ} {psi theta nt nb : ℂ} {o : Out4 fx fy} (he : SEquiv s t)
    (h : transfer_2d_4 la t kzt kzb psi theta nt nb false = .ok o) :
    ∃ o', transfer_2d_4 la s kzt kzb psi theta nt nb false = .ok o' ∧ o'.results = o.results := by
  obtain ⟨M, hM, rfl⟩ := he
  unfold transfer_2d_4 at h ⊢
  simp only [Except.bind_ok, meeinv_false_ok, Except.ok.injEq] at h ⊢
  obtain ⟨N, ⟨hu, rfl⟩, e⟩ := h
  obtain ⟨hu', hb⟩ := finalA_equiv hM hu
  refine ⟨_, ⟨_, ⟨hu', rfl⟩, rfl⟩, ?_⟩
  subst e
  simp only [Out4.results, Prod.mk.injEq]
  refine ⟨?_, ?_, ?_⟩ <;> exact subResOf_equiv (hb _).1 (hb _).2

/-! ### Whole solves -/

theorem solve_1d_iff {la : LinAlg} {p : Params} {wl : ℝ} {convs : List (Conv (Fin (2 * p.fto.1 + 1)))}
    {o : Out1D (2 * p.fto.1 + 1)} (hp : p.use_pinv = false) :
    solve_1d la p wl convs = .ok o ↔ p.thickness.length ≤ convs.length ∧
      ∃ init r x, transfer_1d_1 p.pol (kxVec p wl) p.n_top p.n_bot = .ok init ∧
        runLayers (step1d la p (2 * Real.pi / wl) (kxVec p wl)) (convs.zip p.thickness) (init.2.2, []) = .ok r ∧
        transfer_1d_4 la p.pol r.1 init.1 init.2.1 p.theta p.n_top p.n_bot false = .ok x ∧
        o = ⟨x.1, x.2, r.2⟩ := by
  unfold solve_1d
  simp only [Except.bind_ok, layerLoop_ok_iff, Except.ok.injEq, hp]
  constructor
  · rintro ⟨init, h1, r, ⟨hl, hr⟩, x, hx, rfl⟩
    exact ⟨hl, init, r, x, h1, hr, hx, rfl⟩
  · rintro ⟨hl, init, r, x, h1, hr, hx, rfl⟩
    exact ⟨init, h1, r, ⟨hl, hr⟩, x, hx, rfl⟩

/-- Flat in-plane wavenumbers. -/
noncomputable abbrev kxF (p : Params) (wl : ℝ) : FlatIdx p.fto.1 p.fto.2 → ℂ := tileX (kxVec p wl)
/-- Flat in-plane wavenumbers. -/
noncomputable abbrev kyF (p : Params) (wl : ℝ) : FlatIdx p.fto.1 p.fto.2 → ℂ := tileY (kyVec p wl)

theorem solve_con_iff {la : LinAlg} {p : Params} {wl : ℝ} {convs : List (Conv (FlatIdx p.fto.1 p.fto.2))}
    {o : OutCon p.fto.1 p.fto.2} (hp : p.use_pinv = false) :
    solve_1d_conical la p wl convs = .ok o ↔ p.thickness.length ≤ convs.length ∧ p.fto.2 = 0 ∧
      ∃ init r x, transfer_2d_1 (kxF p wl) (kyF p wl) p.n_top p.n_bot = .ok init ∧
        runLayers (stepCon la false (2 * Real.pi / wl) (kxF p wl) (kyF p wl) init.2.2.1)
          (convs.zip p.thickness) (init.2.2.2, []) = .ok r ∧
        transfer_2d_4 la r.1 init.1 init.2.1 p.psi p.theta p.n_top p.n_bot false = .ok x ∧
        o = ⟨x, r.2⟩ := by
  unfold solve_1d_conical
  by_cases h0 : p.fto.2 = 0
  · simp only [Except.bind_ok, layerLoop_ok_iff, Except.ok.injEq, hp, h0, ne_eq, not_true_eq_false, if_false,
      true_and]
    constructor
    · rintro ⟨init, h1, r, ⟨hl, hr⟩, x, hx, rfl⟩
      exact ⟨hl, init, r, x, h1, hr, hx, rfl⟩
    · rintro ⟨hl, init, r, x, h1, hr, hx, rfl⟩
      exact ⟨init, h1, r, ⟨hl, hr⟩, x, hx, rfl⟩
  · simp [Except.bind_ok, h0]

theorem solve_2d_iff {la : LinAlg} {p : Params} {wl : ℝ} {convs : List (Conv (FlatIdx p.fto.1 p.fto.2))}
    {o : Out2D p.fto.1 p.fto.2} (hp : p.use_pinv = false) :
    solve_2d la p wl convs = .ok o ↔ p.thickness.length ≤ convs.length ∧
      ∃ init r x, transfer_2d_1 (kxF p wl) (kyF p wl) p.n_top p.n_bot = .ok init ∧
        runLayers (step2d la false (2 * Real.pi / wl) (kxF p wl) (kyF p wl) init.2.2.1)
          (convs.zip p.thickness) (init.2.2.2, []) = .ok r ∧
        transfer_2d_4 la r.1 init.1 init.2.1 p.psi p.theta p.n_top p.n_bot false = .ok x ∧
        o = ⟨x, r.2⟩ := by
  unfold solve_2d
  simp only [Except.bind_ok, layerLoop_ok_iff, Except.ok.injEq, hp]
  constructor
  · rintro ⟨init, h1, r, ⟨hl, hr⟩, x, hx, rfl⟩
    exact ⟨hl, init, r, x, h1, hr, hx, rfl⟩
  · rintro ⟨hl, init, r, x, h1, hr, hx, rfl⟩
    exact ⟨init, h1, r, ⟨hl, hr⟩, x, hx, rfl⟩

end Meent
