import Verif.Model.Field
import Verif.Lemmas.Invariance
import Verif.Lemmas.EigBasis

/-!
# Fields at the interfaces of a stack (helper lemmas)

The layers left behind by the transfer loop form a chain of steps; along it the tangential amplitudes at
the bottom of a layer are those at the top of the next one.
-/

open Matrix

namespace Meent

set_option linter.unusedSectionVars false
set_option linter.unusedSimpArgs false

variable {n L : Type} [Fintype n] [DecidableEq n]

/-- The matrices of one layer. -/
structure LView (n : Type) where
  X : Matrix n n ℂ
  W : Matrix n n ℂ
  V : Matrix n n ℂ
  Ai : Matrix n n ℂ
  B : Matrix n n ℂ

namespace LView
/-- Amplitudes of the wave going up, at the bottom of the layer. -/
def c2 (l : LView n) (T : n → ℂ) : n → ℂ := l.B *ᵥ l.Ai *ᵥ l.X *ᵥ T
def next (l : LView n) (T : n → ℂ) : n → ℂ := l.Ai *ᵥ l.X *ᵥ T
def topE (l : LView n) (T : n → ℂ) : n → ℂ := l.W *ᵥ (T + l.X *ᵥ l.c2 T)
def topH (l : LView n) (T : n → ℂ) : n → ℂ := l.V *ᵥ (-T + l.X *ᵥ l.c2 T)
def botE (l : LView n) (T : n → ℂ) : n → ℂ := l.W *ᵥ (l.X *ᵥ T + l.c2 T)
def botH (l : LView n) (T : n → ℂ) : n → ℂ := l.V *ᵥ (-(l.X *ᵥ T) + l.c2 T)

/-- The step a layer stands for. -/
abbrev Step (l : LView n) (s s' : TState n) : Prop := StepData l.X l.W l.V s s' l.Ai l.B

variable {l : LView n} {s s' : TState n}

theorem Step.topE (h : l.Step s s') (T : n → ℂ) : l.topE T = s'.F *ᵥ T := by
  rw [h.s'_eq]
  unfold LView.topE LView.c2
  simp only [← mulVec_mulVec, add_mulVec, one_mulVec]

theorem Step.topH (h : l.Step s s') (T : n → ℂ) : l.topH T = -(s'.G *ᵥ T) := by
  rw [h.s'_eq]
  unfold LView.topH LView.c2
  simp only [← mulVec_mulVec, sub_mulVec, one_mulVec]
  rw [← mulVec_neg, neg_sub, neg_add_eq_sub]

theorem Step.botE (h : l.Step s s') (T : n → ℂ) : l.botE T = s.F *ᵥ l.next T := by
  unfold LView.botE LView.c2 LView.next
  rw [mulVec_mulVec _ s.F, h.F_Ai]
  simp only [← mulVec_mulVec, add_mulVec, one_mulVec]

theorem Step.botH (h : l.Step s s') (T : n → ℂ) : l.botH T = -(s.G *ᵥ l.next T) := by
  unfold LView.botH LView.c2 LView.next
  rw [mulVec_mulVec _ s.G, h.G_Ai]
  simp only [← mulVec_mulVec, sub_mulVec, one_mulVec]
  rw [← mulVec_neg _ l.V, neg_sub, neg_add_eq_sub]

theorem Step.T_eq (h : l.Step s s') (T : n → ℂ) : s'.T *ᵥ T = s.T *ᵥ l.next T := by
  rw [h.s'_eq]
  unfold LView.next
  simp only [← mulVec_mulVec]

end LView

/-- A list of layers, topmost first, as a chain of steps starting from `s0`. -/
inductive Linked (v : L → LView n) (s0 : TState n) : List L → TState n → Prop
  | nil : Linked v s0 [] s0
  | cons {ls l s s'} : Linked v s0 ls s → (v l).Step s s' → Linked v s0 (l :: ls) s'

theorem linked_of_run {C : Type} {v : L → LView n} {step : C → ℝ → TState n → Res (TState n × L)}
    (hs : ∀ c d s r, step c d s = .ok r → (v r.2).Step s r.1) {s0 : TState n} :
    ∀ {xs : List (C × ℝ)} {r : TState n × List L}, runLayers step xs (s0, []) = .ok r →
      Linked v s0 r.2.reverse r.1 ∧ r.2.length = xs.length
  | [], r, h => by
    obtain rfl := Except.ok.inj h
    exact ⟨.nil, rfl⟩
  | x :: xs, r, h => by
    simp only [runLayers, Except.bind_ok] at h
    obtain ⟨r1, h1, r2, h2, h3⟩ := h
    obtain rfl := Except.ok.inj h3
    obtain ⟨i1, i2⟩ := linked_of_run hs h1
    refine ⟨?_, by simp [i2]⟩
    rw [List.reverse_append]
    exact .cons i1 (hs _ _ _ _ h2)

/-- The layers with the amplitudes entering them from above. -/
def trace (v : L → LView n) : List L → (n → ℂ) → List (L × (n → ℂ))
  | [], _ => []
  | l :: ls, T => (l, T) :: trace v ls ((v l).next T)

theorem trace_length {v : L → LView n} : ∀ (ls : List L) (T : n → ℂ), (trace v ls T).length = ls.length
  | [], _ => rfl
  | l :: ls, T => by simp [trace, trace_length ls]

namespace Linked
variable {v : L → LView n} {s0 : TState n} {ls : List L} {s : TState n}

theorem head (h : Linked v s0 ls s) {T : n → ℂ} {x : L × (n → ℂ)} (hx : (trace v ls T).head? = some x) :
    (v x.1).topE x.2 = s.F *ᵥ T ∧ (v x.1).topH x.2 = -(s.G *ᵥ T) := by
  cases h with
  | nil => simp [trace] at hx
  | cons h1 h2 =>
    simp only [trace, List.head?_cons, Option.some.injEq] at hx
    subst hx
    exact ⟨h2.topE T, h2.topH T⟩

theorem adjacent (h : Linked v s0 ls s) : ∀ {T : n → ℂ} {k : ℕ} {x y : L × (n → ℂ)},
    (trace v ls T)[k]? = some x → (trace v ls T)[k + 1]? = some y →
    ∃ (s' : TState n) (T' : n → ℂ), (v x.1).botE x.2 = s'.F *ᵥ T' ∧ (v x.1).botH x.2 = -(s'.G *ᵥ T') ∧
      (v y.1).topE y.2 = s'.F *ᵥ T' ∧ (v y.1).topH y.2 = -(s'.G *ᵥ T') := by
  induction h with
  | nil => intro T k x y hx; simp [trace] at hx
  | @cons ls l s1 s2 h1 h2 ih =>
    intro T k x y hx hy
    cases k with
    | zero =>
      simp only [trace, List.getElem?_cons_zero, Option.some.injEq] at hx
      subst hx
      simp only [trace, List.getElem?_cons_succ, ← List.head?_eq_getElem?] at hy
      obtain ⟨a, b⟩ := h1.head hy
      exact ⟨s1, (v l).next T, h2.botE T, h2.botH T, a, b⟩
    | succ k =>
      simp only [trace, List.getElem?_cons_succ] at hx hy
      exact ih hx hy

theorem last (h : Linked v s0 ls s) : ∀ {T : n → ℂ} {x : L × (n → ℂ)}, (trace v ls T).getLast? = some x →
    ∃ T' : n → ℂ, (v x.1).botE x.2 = s0.F *ᵥ T' ∧ (v x.1).botH x.2 = -(s0.G *ᵥ T') ∧ s.T *ᵥ T = s0.T *ᵥ T' := by
  induction h with
  | nil => intro T x hx; simp [trace] at hx
  | @cons ls l s1 s2 h1 h2 ih =>
    intro T x hx
    cases h1 with
    | nil =>
      simp only [trace, List.getLast?_singleton, Option.some.injEq] at hx
      subst hx
      exact ⟨(v l).next T, h2.botE T, h2.botH T, h2.T_eq T⟩
    | @cons ls' l' s1' _ h1' h2' =>
      have e : (trace v (l :: l' :: ls') T).getLast? = (trace v (l' :: ls') ((v l).next T)).getLast? := by
        simp [trace, List.getLast?_cons_cons]
      rw [e] at hx
      obtain ⟨T', a, b, c⟩ := ih hx
      exact ⟨T', a, b, by rw [h2.T_eq, c]⟩

end Linked

/-! ### Samples at the two faces of a layer -/

theorem zSample_top {rz : ℕ} {d : ℝ} {i : Fin rz} (h : i.val = 0) : zSample rz d i = 0 := by
  unfold zSample linspace
  split <;> simp [h]

theorem zSample_bottom {rz : ℕ} {d : ℝ} {i : Fin rz} (h : i.val + 1 = rz) (h2 : 2 ≤ rz) : zSample rz d i = d := by
  unfold zSample linspace
  rw [if_neg (by omega)]
  have e : (i.val : ℝ) = (rz : ℝ) - 1 := by
    have : ((i.val + 1 : ℕ) : ℝ) = rz := congrArg _ h
    push_cast at this; linarith
  have h1 : ((rz : ℝ) - 1) ≠ 0 := by
    have : (2 : ℝ) ≤ rz := by exact_mod_cast h2
    linarith
  have h0 : (rz : ℝ) ≠ 0 := by
    have : (2 : ℝ) ≤ rz := by exact_mod_cast h2
    linarith
  rw [e]
  field_simp
  ring

theorem expDown_zero (k0 : ℝ) (q : n → ℂ) : expDown k0 q 0 = 1 := by
  unfold expDown; simp
theorem expDown_d (k0 : ℝ) (q : n → ℂ) (d : ℝ) : expDown k0 q d = phaseX k0 q d := rfl
theorem expUp_zero (k0 : ℝ) (q : n → ℂ) (d : ℝ) : expUp k0 q d 0 = phaseX k0 q d := by
  unfold expUp phaseX; congr 1; ext i; congr 1; push_cast; ring
theorem expUp_d (k0 : ℝ) (q : n → ℂ) (d : ℝ) : expUp k0 q d d = 1 := by
  unfold expUp; simp

/-! ### The three kinds of layers -/

/-- A layer of the TE/TM solver. -/
noncomputable def view1d (k0 : ℝ) (l : LayerInfo n n) : LView n :=
  ⟨phaseX k0 l.modes.q l.d, l.modes.W, l.modes.V, l.A_i, l.B⟩

theorem view1d_step (la : LinAlg) {p : Params} (hp : p.use_pinv = false) (k0 : ℝ) (kx : n → ℂ)
    (c : Conv n) (d : ℝ) (s : TState n) (r : TState n × LayerInfo n n)
    (h : step1d la p k0 kx c d s = .ok r) : (view1d k0 r.2).Step s r.1 := by
  unfold step1d at h
  simp only [Except.bind_ok, hp] at h
  obtain ⟨m, -, x, hx, e⟩ := h
  obtain rfl := Except.ok.inj e
  exact tmmStep_ok.mp hx

theorem amps1d_top (k0 pol : ℝ) (kx : n → ℂ) (l : LayerInfo n n) (T : n → ℂ) :
    (amps1d k0 pol kx l T 0).1 = (view1d k0 l).topE T ∧ (amps1d k0 pol kx l T 0).2.1 = (view1d k0 l).topH T := by
  unfold amps1d
  simp only [expDown_zero, expUp_zero, one_mulVec, neg_mulVec]
  exact ⟨rfl, rfl⟩

theorem amps1d_bottom (k0 pol : ℝ) (kx : n → ℂ) (l : LayerInfo n n) (T : n → ℂ) :
    (amps1d k0 pol kx l T l.d).1 = (view1d k0 l).botE T ∧
      (amps1d k0 pol kx l T l.d).2.1 = (view1d k0 l).botH T := by
  unfold amps1d
  simp only [expDown_d, expUp_d, one_mulVec, neg_mulVec]
  exact ⟨rfl, rfl⟩

theorem fieldLoop1d_eq (k0 pol px : ℝ) (kx : n → ℂ) (rx rz : ℕ) : ∀ (ls : List (LayerInfo n n)) (T : n → ℂ),
    fieldLoop1d k0 pol px kx rx rz ls T
      = (trace (view1d k0) ls T).map (fun x => block1d k0 pol px kx rx rz x.1 x.2)
  | [], _ => rfl
  | l :: ls, T => by
    simp only [fieldLoop1d, trace, List.map_cons, fieldLoop1d_eq k0 pol px kx rx rz ls]
    rfl

variable {m : Type} [Fintype m] [DecidableEq m]

/-- A layer of the conical solver. -/
noncomputable def viewCon (k0 : ℝ) (varphi : m → ℂ) (l : LayerInfoCon m) : LView (m ⊕ m) :=
  ⟨phaseX k0 (Sum.elim l.modes.q1 l.modes.q2) l.d, conW varphi l.modes, conV varphi l.modes, l.A_i, l.B⟩

/-- A layer of the 2D solver. -/
noncomputable def view2d (k0 : ℝ) (varphi : m → ℂ) (l : LayerInfo m (m ⊕ m)) : LView (m ⊕ m) :=
  ⟨phaseX k0 l.modes.q l.d, bigW2d varphi l.modes.W, bigV2d varphi l.modes.V, l.A_i, l.B⟩

theorem viewCon_step (la : LinAlg) (k0 : ℝ) (kx ky varphi : m → ℂ)
    (c : Conv m) (d : ℝ) (s : TState (m ⊕ m)) (r : TState (m ⊕ m) × LayerInfoCon m)
    (h : stepCon la false k0 kx ky varphi c d s = .ok r) : (viewCon k0 varphi r.2).Step s r.1 := by
  unfold stepCon at h
  simp only [Except.bind_ok, transfer_1d_conical_3_eq] at h
  obtain ⟨M, -, x, hx, e⟩ := h
  obtain rfl := Except.ok.inj e
  exact tmmStep_ok.mp hx

theorem view2d_step (la : LinAlg) (k0 : ℝ) (kx ky varphi : m → ℂ)
    (c : Conv m) (d : ℝ) (s : TState (m ⊕ m)) (r : TState (m ⊕ m) × LayerInfo m (m ⊕ m))
    (h : step2d la false k0 kx ky varphi c d s = .ok r) : (view2d k0 varphi r.2).Step s r.1 := by
  unfold step2d at h
  simp only [Except.bind_ok, transfer_2d_3_eq] at h
  obtain ⟨M, -, x, hx, e⟩ := h
  obtain rfl := Except.ok.inj e
  exact tmmStep_ok.mp hx

theorem fieldLoopCon_eq (k0 : ℝ) (per : ℝ × ℝ) (kx ky varphi : m → ℂ) (rx ry rz : ℕ) :
    ∀ (ls : List (LayerInfoCon m)) (T : m ⊕ m → ℂ),
    fieldLoopCon k0 per kx ky rx ry rz ls T
      = (trace (viewCon k0 varphi) ls T).map
          (fun x => block6 k0 per kx ky rx ry rz x.1.d (ampsCon k0 kx ky x.1 x.2))
  | [], _ => rfl
  | l :: ls, T => by
    simp only [fieldLoopCon, trace, List.map_cons, fieldLoopCon_eq k0 per kx ky varphi rx ry rz ls, bigX_eq]
    rfl

theorem fieldLoop2d_eq (k0 : ℝ) (per : ℝ × ℝ) (kx ky varphi : m → ℂ) (rx ry rz : ℕ) :
    ∀ (ls : List (LayerInfo m (m ⊕ m))) (T : m ⊕ m → ℂ),
    fieldLoop2d k0 per kx ky rx ry rz ls T
      = (trace (view2d k0 varphi) ls T).map
          (fun x => block6 k0 per kx ky rx ry rz x.1.d (amps2d k0 kx ky x.1 x.2))
  | [], _ => rfl
  | l :: ls, T => by
    simp only [fieldLoop2d, trace, List.map_cons, fieldLoop2d_eq k0 per kx ky varphi rx ry rz ls]
    rfl

/-! ### Back from the s/p frame -/

theorem rotE_sq (varphi : m → ℂ) : rotE varphi * rotE varphi = 1 := by
  unfold rotE
  rw [fromBlocks_multiply]
  simp only [Matrix.neg_mul, Matrix.mul_neg, neg_neg, diagonal_mul_diagonal, diagonal_add, diagonal_neg]
  rw [← fromBlocks_one]
  congr 1 <;> ext i j <;> rcases eq_or_ne i j with rfl | hij
  all_goals first
    | (simp [*]; done)
    | (simp; linear_combination Complex.sin_sq_add_cos_sq (varphi i))
    | (simp; ring)

/-- Inverse of the magnetic rotation. -/
noncomputable def rotH' (varphi : m → ℂ) : Matrix (m ⊕ m) (m ⊕ m) ℂ :=
  fromBlocks (diagonal (fun i => Complex.cos (varphi i))) (-diagonal (fun i => Complex.sin (varphi i)))
    (diagonal (fun i => Complex.sin (varphi i))) (diagonal (fun i => Complex.cos (varphi i)))

theorem rotH'_mul (varphi : m → ℂ) : rotH' varphi * rotH varphi = 1 := by
  unfold rotH rotH'
  rw [fromBlocks_multiply]
  simp only [Matrix.neg_mul, Matrix.mul_neg, neg_neg, diagonal_mul_diagonal, diagonal_add, diagonal_neg]
  rw [← fromBlocks_one]
  congr 1 <;> ext i j <;> rcases eq_or_ne i j with rfl | hij
  all_goals first
    | (simp [*]; done)
    | (simp; linear_combination Complex.sin_sq_add_cos_sq (varphi i))
    | (simp; ring)

end Meent
