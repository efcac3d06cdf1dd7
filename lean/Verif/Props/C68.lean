import Mathlib.Data.Complex.Basic
import Mathlib.Tactic.NormNum
import Mathlib.Tactic.LinearCombination
import Mathlib.Tactic.FinCases
import Verif.Lemmas.Optimizer

/-!
# C68: gradients and training with the optimizers

* `C68_torch_fit`, `C68_jax_fit`: `fit` with `n` iterations is `n` updates of a fresh optimizer. Each update sees the derivative at the
  present values. Nothing left over from before matters.
* `C68_backends`: with conjugate derivative conventions both backends train to the same values.
* `C68_fit_add`: two runs in a row are one longer run if the optimizer keeps no state. `C68_fit_add_negation`: not in general.
* `C68_torch_grad_partial`: PyTorch's `grad` returns the derivative plus what was left in the gradient. It is exact on an object whose
  gradients were never computed. Negations: the second call returns the double and changes what the first returned; after `fit`, `grad` is wrong.
* `C68_torch_untouched`: `grad` and `fit` do not touch other attributes.
* `C68_jax_grad`: JAX's `grad` returns the derivative and leaves the object as it was.
  `C68_jax_failure_negation`: unless the solver raises; then tracers are left in the object.
-/

namespace Meent

open Optim

variable {ι V S : Type} [DecidableEq ι]

/-- PyTorch `fit` = `n` updates of a fresh optimizer, whatever gradients and flags the leaves had. -/
theorem C68_torch_fit [AddZeroClass V] {P : Problem ι V} {opt : Opt S V} (hk : Spec.KeepsLength opt) {o : TAttrs ι V} {pois : List ι}
    (hc : Spec.Choice o.values pois) (ht : Spec.Trainable P pois o.values) (n : ℕ) :
    ∃ o', fit P opt o pois n = (o', .ok (Spec.paramsOf (Spec.trained opt P.deriv pois n o.values) pois)) ∧
      o'.values = Spec.trained opt P.deriv pois n o.values := by
  obtain ⟨hne, -, hs⟩ := hc
  obtain ⟨o1, h1, h2, h3, -⟩ := requires_facts hs
  obtain ⟨o', e1, e2, e3⟩ := fitLoop_eq hk n (opt.init (Spec.paramsOf o.values pois)) o1 h2 (by rw [h3]; exact ht)
  rw [h3] at e3
  refine ⟨o', ?_, e3⟩
  have hs' : ∀ i ∈ pois, (o i).isSome := by
    intro i hi
    have := hs i hi
    unfold TAttrs.values at this
    rwa [Option.isSome_map] at this
  have hl : (pois.filterMap o).map Leaf.value = Spec.paramsOf o.values pois := by
    unfold Spec.paramsOf TAttrs.values
    rw [List.map_filterMap]
  unfold fit
  rw [mapM_some hs']
  simp only
  rw [if_neg hne, h1]
  simp only
  rw [hl, e1]
  simp only
  rw [e3]
  rfl

/-- JAX `fit` = `n` updates of a fresh optimizer with the conjugate of the derivative; no tracer is left. -/
theorem C68_jax_fit [Zero V] [Star V] {P : Problem ι V} {opt : Opt S V} (hk : Spec.KeepsLength opt) {o : JAttrs ι V} {pois : List ι}
    (hc : Spec.Choice o.values pois)
    (ht : ∀ v, (∀ i, (v i).isSome = (o.values i).isSome) → ∃ l, P.forward v = .ok l) (n : ℕ) :
    ∃ o' r, jfit P opt o pois n = (o', .ok r) ∧
      o'.values = Spec.trained opt (fun v i => some (star ((P.deriv v i).getD 0))) pois n o.values ∧
      r.map Prod.fst = pois ∧ (∀ p ∈ r, o'.values p.1 = some p.2) ∧
      (∀ i ∈ pois, ∃ x, o' i = some ⟨x, false⟩) ∧ ∀ i, i ∉ pois → o' i = o i := by
  obtain ⟨-, hn, hs⟩ := hc
  obtain ⟨ps, h1, h2, h3, h4⟩ := jparams_eq hs
  obtain ⟨o1, ps', e1, e2, e3, e4⟩ := jfitLoop_eq hk hn n (opt.init (Spec.paramsOf o.values pois)) ps o h2 hs ht
  rw [setParams_self h3] at e3
  refine ⟨jset o1 (ps'.map fun p => (p.1, ⟨p.2, false⟩)), ps', ?_, ?_, e2, ?_, ?_, ?_⟩
  · unfold jfit
    rw [h1]
    simp only
    rw [h4, e1]
  · rw [jset_values, e3]
    rfl
  · intro p hp
    rw [jset_values]
    exact setParams_mem (by rw [e2]; exact hn) hp
  · intro i hi
    exact jset_mem (by rw [e2]; exact hi)
  · intro i hi
    rw [jset_other, e4 i hi]
    rw [List.map_map]
    have : (Prod.fst ∘ fun p : ι × V => (p.1, (⟨p.2, false⟩ : JVal V))) = Prod.fst := rfl
    rw [this, e2]
    exact hi

/-- Both backends reach the same values if PyTorch's derivative is the conjugate of JAX's. -/
theorem C68_backends [AddZeroClass V] [Star V] {PT PJ : Problem ι V} {opt : Opt S V} (hk : Spec.KeepsLength opt)
    {o : TAttrs ι V} {o₂ : JAttrs ι V} {pois : List ι} (hv : o₂.values = o.values) (hc : Spec.Choice o.values pois)
    (hT : Spec.Trainable PT pois o.values) (hJ : Spec.Trainable PJ pois o.values)
    (hd : ∀ v i, PT.deriv v i = some (star ((PJ.deriv v i).getD 0))) (n : ℕ) :
    (fit PT opt o pois n).1.values = (jfit PJ opt o₂ pois n).1.values := by
  obtain ⟨a, ha, hva⟩ := C68_torch_fit hk hc hT n
  obtain ⟨b, r, hb, hvb, -⟩ := C68_jax_fit (P := PJ) hk (o := o₂) (by rw [hv]; exact hc) (by rw [hv]; exact fun v h => (hJ v h).1) n
  have hD : PT.deriv = fun v i => some (star ((PJ.deriv v i).getD 0)) := by funext v i; exact hd v i
  rw [ha, hb, hva, hvb, hv, hD]

/-- An optimizer without state: the step depends on values and gradients only. -/
def Spec.Stateless (opt : Opt S V) : Prop := ∀ s s' l, (opt.step s l).2 = (opt.step s' l).2

theorem stateless_iterate {opt : Opt S V} (h : Spec.Stateless opt) (D : (ι → Option V) → ι → Option V) (pois : List ι) :
    ∀ (n : ℕ) (s s' : S) (v : ι → Option V),
      ((Spec.update opt D pois)^[n] (s, v)).2 = ((Spec.update opt D pois)^[n] (s', v)).2
  | 0, _, _, _ => rfl
  | n + 1, s, s', v => by
    rw [Function.iterate_succ_apply, Function.iterate_succ_apply]
    have e : (Spec.update opt D pois (s, v)).2 = (Spec.update opt D pois (s', v)).2 := by
      unfold Spec.update
      simp only
      rw [h s s']
    rw [← Prod.mk.eta (p := Spec.update opt D pois (s, v)), ← Prod.mk.eta (p := Spec.update opt D pois (s', v)), e]
    exact stateless_iterate h D pois n _ _ _

/-- Two runs of `fit` in a row are one longer run, if the optimizer keeps no state (PyTorch). -/
theorem C68_fit_add [AddZeroClass V] {P : Problem ι V} {opt : Opt S V} (hk : Spec.KeepsLength opt) (hst : Spec.Stateless opt)
    {o : TAttrs ι V} {pois : List ι} (hc : Spec.Choice o.values pois) (ht : Spec.Trainable P pois o.values) (m n : ℕ) :
    (fit P opt (fit P opt o pois m).1 pois n).1.values = (fit P opt o pois (m + n)).1.values := by
  obtain ⟨a, ha, hva⟩ := C68_torch_fit hk hc ht m
  obtain ⟨b, hb, hvb⟩ := C68_torch_fit hk hc ht (m + n)
  have hsup : ∀ (k : ℕ) (x : S × (ι → Option V)), (∀ i, (x.2 i).isSome = (o.values i).isSome) →
      ∀ i, (((Spec.update opt P.deriv pois)^[k] x).2 i).isSome = (o.values i).isSome := by
    intro k
    induction k with
    | zero => exact fun x h => h
    | succ k ih =>
      intro x h i
      rw [Function.iterate_succ_apply]
      refine ih _ (fun j => ?_) i
      rw [← h j]
      exact setParams_isSome (zip_mem_isSome fun i hi => by rw [h]; exact hc.2.2 i hi)
  have hsa : ∀ i, (a.values i).isSome = (o.values i).isSome := by
    intro i; rw [hva]; exact hsup m _ (fun _ => rfl) i
  obtain ⟨c, hc', hvc⟩ := C68_torch_fit (P := P) hk (o := a) (pois := pois)
    ⟨hc.1, hc.2.1, fun i hi => by rw [hsa]; exact hc.2.2 i hi⟩ (fun v hv => ht v fun i => by rw [hv, hsa]) n
  rw [ha, hb, hc', hvb, hvc, hva]
  unfold Spec.trained
  rw [Nat.add_comm m n, Function.iterate_add_apply]
  exact stateless_iterate hst _ _ _ _ _ _

/-- PyTorch `grad`: the values do not change, and each returned tensor is the derivative plus what the gradient held before. -/
theorem C68_torch_grad_partial [AddZeroClass V] {P : Problem ι V} {o : TAttrs ι V} {pois : List ι} (hs : ∀ i ∈ pois, (o.values i).isSome)
    (hf : ∃ l, P.forward o.values = .ok l) (hd : ∀ i ∈ pois, (P.deriv o.values i).isSome) (hne : pois ≠ []) :
    ∃ o' r, grad P o pois = (o', .ok r) ∧ o'.values = o.values ∧ r.map Prod.fst = pois ∧
      ∀ p ∈ r, ∃ k d, p.2 = some k ∧ P.deriv o.values p.1 = some d ∧
        readGrad o' p.1 k = some (((o p.1).bind Leaf.gradient).getD 0 + d) := by
  obtain ⟨o1, h1, h2, h3, h4⟩ := requires_facts hs
  obtain ⟨i₀, hi₀⟩ := List.exists_mem_of_ne_nil _ hne
  have hp : pass P o1 = (backward P o1, .ok ()) := pass_ok h2 (by rw [h3]; exact ⟨hf, i₀, hi₀, hd i₀ hi₀⟩)
  refine ⟨backward P o1, pois.map fun i => (i, ((backward P o1) i).bind Leaf.grad), ?_, ?_, ?_, ?_⟩
  · unfold grad
    rw [h1]
    simp only
    rw [hp]
  · rw [backward_values, h3]
  · rw [List.map_map]
    exact List.map_id _
  · intro p hp'
    obtain ⟨i, hi, rfl⟩ := List.mem_map.mp hp'
    obtain ⟨l, hl, hr⟩ := h2 i hi
    obtain ⟨d, hdd⟩ := Option.isSome_iff_exists.mp (hd i hi)
    have hb : (backward P o1) i = some (l.accumulate d) := by
      unfold backward
      rw [hl, h3]
      simp [hr, hdd]
    have hg := accumulate_gradient l d
    have hold : (o i).bind Leaf.gradient = l.gradient := by rw [← h4 i, hl]; rfl
    unfold Leaf.gradient at hg
    obtain ⟨k, hk, hk2⟩ := Option.map_eq_some_iff.mp hg
    refine ⟨k, d, ?_, hdd, ?_⟩
    · rw [hb]; exact hk
    · unfold readGrad
      simp only
      rw [hb, hold]
      simp only [Option.map_some]
      rw [hk2]
      rfl

/-- JAX `grad`: the derivative, and the object as before (if it held no tracers). It can be repeated. -/
theorem C68_jax_grad [Zero V] {P : Problem ι V} {o : JAttrs ι V} {pois : List ι} (hn : pois.Nodup)
    (hs : ∀ i ∈ pois, ∃ x, o i = some ⟨x, false⟩) (hf : ∃ l, P.forward o.values = .ok l) :
    jgrad P o pois = (o, .ok (pois.map fun i => (i, (P.deriv o.values i).getD 0))) := by
  have hs' : ∀ i ∈ pois, (o.values i).isSome := by
    intro i hi
    obtain ⟨x, hx⟩ := hs i hi
    unfold JAttrs.values
    rw [hx]; rfl
  obtain ⟨ps, h1, h2, h3, -⟩ := jparams_eq hs'
  have hp := jpass_ok (P := P) (o := o) (ps := ps) (by rw [setParams_self h3]; exact hf)
  rw [setParams_self h3] at hp
  unfold jgrad
  rw [h1]
  simp only
  rw [hp]
  simp only
  refine Prod.ext ?_ ?_
  · funext i
    by_cases hi : i ∈ pois
    · obtain ⟨y, hy⟩ := jset_mem (i := i) (b := false) (l := ps)
        (o := jset o (ps.map fun p => (p.1, (⟨p.2, true⟩ : JVal V)))) (by rw [h2]; exact hi)
      have hv : (jset (jset o (ps.map fun p => (p.1, (⟨p.2, true⟩ : JVal V)))) (ps.map fun p => (p.1, (⟨p.2, false⟩ : JVal V)))).values i =
          o.values i := by rw [jset_values, jset_values, setParams_self h3, setParams_self h3]
      obtain ⟨x, hx⟩ := hs i hi
      unfold JAttrs.values at hv
      rw [hy, hx] at hv
      have : y = x := Option.some.inj hv
      show jset _ _ i = o i
      rw [hy, hx, this]
    · have h5 : ∀ b, i ∉ (ps.map fun p => (p.1, (⟨p.2, b⟩ : JVal V))).map Prod.fst := by
        intro b
        rw [List.map_map]
        have : (Prod.fst ∘ fun p : ι × V => (p.1, (⟨p.2, b⟩ : JVal V))) = Prod.fst := rfl
        rw [this, h2]
        exact hi
      show jset _ _ i = _
      rw [jset_other (h5 false), jset_other (h5 true)]
  · show Except.ok _ = Except.ok _
    congr 1
    rw [← h2, List.map_map]
    rfl

/-! ### Requests that fail -/

/-- An attribute that does not exist: `AttributeError` (PyTorch `fit`, JAX `grad` and `fit`), nothing changed. -/
theorem C68_unknown [AddZeroClass V] [Star V] {P : Problem ι V} {opt : Opt S V} {pois : List ι} {i : ι} (hi : i ∈ pois) (n : ℕ) :
    (∀ o : TAttrs ι V, o i = none → fit P opt o pois n = (o, .error .attributeError)) ∧
    (∀ o : JAttrs ι V, o i = none → jgrad P o pois = (o, .error .attributeError) ∧ jfit P opt o pois n = (o, .error .attributeError)) ∧
    ∀ o : TAttrs ι V, o i = none → (grad P o pois).2 = .error .attributeError := by
  have hm : ∀ {α : Type} (f : ι → Option α), f i = none → ∀ {l : List ι}, i ∈ l → l.mapM f = none := by
    intro α f hf l
    induction l with
    | nil => intro h; cases h
    | cons j l ih =>
      intro h
      rw [List.mapM_cons]
      rcases List.mem_cons.mp h with e | h
      · subst e; rw [hf]; rfl
      · rw [ih h]; cases f j <;> rfl
  refine ⟨fun o h => ?_, fun o h => ?_, fun o h => ?_⟩
  · unfold fit; rw [hm o h hi]
  · have : jparams o pois = none := hm _ (by unfold JAttrs.values; rw [h]; rfl) hi
    unfold jgrad jfit
    rw [this]
    exact ⟨rfl, rfl⟩
  · have : ∀ {l : List ι} {o : TAttrs ι V}, o i = none → i ∈ l → ∃ o', setRequires o l = (o', .error .attributeError) := by
      intro l
      induction l with
      | nil => intro o _ h; cases h
      | cons j l ih =>
        intro o ho hj
        rw [setRequires]
        cases hoj : o j with
        | none => exact ⟨o, rfl⟩
        | some x =>
          have hij : i ≠ j := by intro e; rw [e, hoj] at ho; cases ho
          exact ih (by rw [Function.update_of_ne hij, ho]) ((List.mem_cons.mp hj).resolve_left hij)
    obtain ⟨o', e⟩ := this h hi
    unfold grad
    rw [e]

/-- PyTorch: no parameters, or a loss that does not depend on any tensor that requires gradients, is an error. -/
theorem C68_torch_empty [AddZeroClass V] {P : Problem ι V} {opt : Opt S V} (o : TAttrs ι V) (n : ℕ) :
    fit P opt o [] n = (o, .error .valueError) := rfl

private theorem setRequires_other {i : ι} : ∀ {pois : List ι} {o : TAttrs ι V}, i ∉ pois → (setRequires o pois).1 i = o i
  | [], _, _ => rfl
  | j :: js, o, h => by
    have hj : i ≠ j ∧ i ∉ js := ⟨fun e => h (by rw [e]; exact List.mem_cons_self), fun e => h (List.mem_cons_of_mem _ e)⟩
    unfold setRequires
    cases o j with
    | none => rfl
    | some l =>
      simp only
      rw [setRequires_other hj.2, Function.update_of_ne hj.1]

omit [DecidableEq ι] in
private theorem backward_other [Add V] {P : Problem ι V} {o : TAttrs ι V} {i : ι} (h : ∀ l, o i = some l → l.requires = false) :
    backward P o i = o i := by
  unfold backward
  cases hi : o i with
  | none => rfl
  | some l => simp [h l hi]

omit [DecidableEq ι] in
private theorem pass_other [Add V] {P : Problem ι V} {o : TAttrs ι V} {i : ι} (h : ∀ l, o i = some l → l.requires = false) :
    (pass P o).1 i = o i := by
  unfold pass
  cases P.forward o.values with
  | error e => rfl
  | ok x =>
    simp only
    split_ifs
    · exact backward_other h
    · rfl

private theorem assign_other {i : ι} : ∀ {l : List (ι × V)} {o : TAttrs ι V}, (∀ p ∈ l, p.1 ≠ i) → assign o l i = o i
  | [], _, _ => rfl
  | p :: ps, o, h => by
    unfold assign
    rw [assign_other fun q hq => h q (List.mem_cons_of_mem _ hq), Function.update_of_ne (h p List.mem_cons_self).symm]

private theorem fitLoop_other [Add V] {P : Problem ι V} {opt : Opt S V} {pois : List ι} {i : ι} (hi : i ∉ pois) :
    ∀ (n : ℕ) (s : S) (o : TAttrs ι V), (∀ l, o i = some l → l.requires = false) → (fitLoop P opt pois n s o).1 i = o i
  | 0, _, _, _ => rfl
  | n + 1, s, o, h => by
    have hz : zeroGrad pois o i = o i := if_neg hi
    have hp := pass_other (P := P) (o := zeroGrad pois o) (i := i) (by rw [hz]; exact h)
    unfold fitLoop
    rcases hq : pass P (zeroGrad pois o) with ⟨o2, e | u⟩ <;> rw [hq, hz] at hp
    · exact hp
    · have ho : (optStep opt pois s o2).2 i = o i := by
        refine (assign_other fun p hp' e => hi ?_).trans hp
        rw [← e]
        exact (List.of_mem_zip hp').1
      simp only
      rw [fitLoop_other hi n _ _ (by rw [ho]; exact h), ho]

/-- PyTorch: `grad` and `fit` leave every attribute that was not chosen and does not require gradients exactly as it was, its gradient
included, also when they raise. -/
theorem C68_torch_untouched [Add V] {P : Problem ι V} {opt : Opt S V} {o : TAttrs ι V} {pois : List ι} {i : ι} (hi : i ∉ pois)
    (h : ∀ l, o i = some l → l.requires = false) (n : ℕ) :
    (grad P o pois).1 i = o i ∧ (fit P opt o pois n).1 i = o i := by
  have h1 := setRequires_other (o := o) hi
  constructor
  · unfold grad
    rcases hq : setRequires o pois with ⟨o1, e | u⟩ <;> rw [hq] at h1
    · exact h1
    · have hp := pass_other (P := P) (o := o1) (i := i) (fun l hl => h l (h1.symm.trans hl))
      simp only
      rcases hq' : pass P o1 with ⟨o2, e | u⟩ <;> rw [hq'] at hp <;> exact hp.trans h1
  · unfold fit
    cases pois.mapM o with
    | none => rfl
    | some ls =>
      simp only
      split_ifs
      · rfl
      · rcases hq : setRequires o pois with ⟨o1, e | u⟩ <;> rw [hq] at h1
        · exact h1
        · have hp := fitLoop_other (P := P) (opt := opt) hi n (opt.init (ls.map Leaf.value)) o1 (fun l hl => h l (h1.symm.trans hl))
          simp only
          rcases hq' : fitLoop P opt pois n (opt.init (ls.map Leaf.value)) o1 with ⟨o2, e | u⟩ <;> rw [hq'] at hp <;> exact hp.trans h1

/-- A loss of two tensors of which one is trained. -/
example : (fit (⟨fun _ => .ok 0, fun v i => v i⟩ : Problem Bool ℂ) ⟨fun _ => (), fun _ l => ((), l.map fun p => p.1 - p.2.getD 0)⟩
    (fun _ => some ⟨1, false, none, fun _ => 0, 0⟩) [true] 3).1 false = some ⟨1, false, none, fun _ => 0, 0⟩ :=
  (C68_torch_untouched (by simp) (fun l hl => by cases hl; rfl) 3).2

/-! ### Concrete cases -/

namespace C68

/-- Loss `|z|² / 2` of the only attribute; its derivative in PyTorch's convention is `z`. -/
noncomputable def prob : Problem Unit ℂ := ⟨fun v => .ok (Complex.normSq ((v ()).getD 0) / 2), fun v i => v i⟩

/-- The same loss; the solver raises when the attribute is zero. -/
noncomputable def failing : Problem Unit ℂ :=
  ⟨fun v => if (v ()) = some 0 then .error .linAlgError else .ok (Complex.normSq ((v ()).getD 0) / 2), fun v i => v i⟩

/-- Gradient descent with rate 1/2. -/
noncomputable def sgd : Opt Unit ℂ := ⟨fun _ => (), fun _ l => ((), l.map fun p => p.1 - 1 / 2 * p.2.getD 0)⟩

/-- Heavy ball with rate 1/2 and momentum 1; the state is the velocity of each parameter. -/
noncomputable def momentum : Opt (ℕ → ℂ) ℂ :=
  ⟨fun _ _ => 0, fun s l => (fun k => s k + ((l[k]?).bind Prod.snd).getD 0, l.mapIdx fun k p => p.1 - 1 / 2 * (s k + p.2.getD 0))⟩

/-- A fresh tensor holding 1. -/
def fresh : TAttrs Unit ℂ := fun _ => some ⟨1, false, none, fun _ => 0, 0⟩

theorem choice : Spec.Choice fresh.values [()] := ⟨by simp, by simp, fun _ _ => rfl⟩

theorem trainable : Spec.Trainable prob [()] fresh.values := fun v hv =>
  ⟨⟨_, rfl⟩, (), by simp, by show (v ()).isSome = true; rw [hv]; rfl⟩

theorem sgd_keeps : Spec.KeepsLength sgd := fun _ _ => List.length_map _

theorem sgd_stateless : Spec.Stateless sgd := fun _ _ _ => rfl

theorem tracked (x : ℂ) (g : Option ℕ) (b : ℕ → ℂ) (u : ℕ) : pass prob (fun _ => some ⟨x, true, g, b, u⟩) =
    (backward prob (fun _ => some ⟨x, true, g, b, u⟩), .ok ()) := by
  unfold pass
  rw [if_pos ⟨(), ⟨x, true, g, b, u⟩, rfl, rfl, rfl⟩]
  rfl

theorem upd (o : TAttrs Unit ℂ) (x : Option (Leaf ℂ)) : Function.update o () x = fun _ => x := by
  funext i; cases i; simp

theorem back (x : ℂ) (g : Option ℕ) (b : ℕ → ℂ) (u : ℕ) : backward prob (fun _ => some ⟨x, true, g, b, u⟩) =
    fun _ => some (Leaf.accumulate ⟨x, true, g, b, u⟩ x) := by
  funext i; cases i; rfl

theorem grad_eq (x : ℂ) (q : Bool) (g : Option ℕ) (b : ℕ → ℂ) (u : ℕ) : grad prob (fun _ => some ⟨x, q, g, b, u⟩) [()] =
    (fun _ => some (Leaf.accumulate ⟨x, true, g, b, u⟩ x), .ok [((), (Leaf.accumulate ⟨x, true, g, b, u⟩ x).grad)]) := by
  unfold grad setRequires
  simp only [setRequires, upd, tracked, back]
  rfl

/-- First call on the fresh tensor. -/
noncomputable def once : TAttrs Unit ℂ := fun _ => some ⟨1, true, some 0, Function.update (fun _ => 0) 0 1, 1⟩

theorem first : grad prob fresh [()] = (once, .ok [((), some 0)]) := grad_eq 1 false none (fun _ => 0) 0

/-- Second call. -/
noncomputable def twice : TAttrs Unit ℂ :=
  fun _ => some ⟨1, true, some 0, Function.update (Function.update (fun _ => 0) 0 1) 0 (1 + 1), 1⟩

theorem second : grad prob once [()] = (twice, .ok [((), some 0)]) := by
  unfold once
  rw [grad_eq]
  unfold Leaf.accumulate twice
  simp

end C68

/-- PyTorch `grad` called twice with nothing in between: the first result reads 1, the derivative. The second reads 2. It is the same tensor, so
the first result now reads 2 as well. -/
theorem C68_torch_grad_again_negation :
    ∃ (P : Problem Unit ℂ) (o o₁ o₂ : TAttrs Unit ℂ) (k : ℕ), P.deriv o.values () = some 1 ∧ o₁.values = o.values ∧ o₂.values = o.values ∧
      grad P o [()] = (o₁, .ok [((), some k)]) ∧ readGrad o₁ () k = some 1 ∧
      grad P o₁ [()] = (o₂, .ok [((), some k)]) ∧ readGrad o₂ () k = some 2 := by
  refine ⟨C68.prob, C68.fresh, C68.once, C68.twice, 0, rfl, rfl, rfl, C68.first, ?_, C68.second, ?_⟩
  · simp [readGrad, C68.once]
  · simp only [readGrad, C68.twice, Option.map_some, Function.update_self]
    norm_num

/-- PyTorch `grad` after `fit`: one step of gradient descent takes 1 to 1/2, where the derivative is 1/2. `grad` returns 3/2. -/
theorem C68_torch_grad_after_fit_negation :
    ∃ (P : Problem Unit ℂ) (opt : Opt Unit ℂ) (o o₁ o₂ : TAttrs Unit ℂ) (k : ℕ), fit P opt o [()] 1 = (o₁, .ok [1 / 2]) ∧
      P.deriv o₁.values () = some (1 / 2) ∧ grad P o₁ [()] = (o₂, .ok [((), some k)]) ∧ readGrad o₂ () k = some (3 / 2) := by
  have hfit : fit C68.prob C68.sgd C68.fresh [()] 1 =
      ((fun _ => some ⟨1 / 2, true, some 0, Function.update (fun _ => 0) 0 1, 1⟩ : TAttrs Unit ℂ), .ok [1 / 2]) := by
    unfold fit
    have e : [()].mapM C68.fresh = some [⟨1, false, none, fun _ => 0, 0⟩] := rfl
    rw [e]
    have z : zeroGrad [()] (fun _ => some ⟨1, true, none, fun _ => 0, 0⟩ : TAttrs Unit ℂ) = fun _ => some ⟨1, true, none, fun _ => 0, 0⟩ := by
      funext i; cases i; rfl
    have sr : setRequires C68.fresh [()] = ((fun _ => some ⟨1, true, none, fun _ => 0, 0⟩ : TAttrs Unit ℂ), .ok ()) := by
      unfold setRequires C68.fresh
      simp only [setRequires, C68.upd]
    have os : optStep C68.sgd [()] () (fun _ => some (Leaf.accumulate ⟨1, true, none, fun _ => 0, 0⟩ 1) : TAttrs Unit ℂ) =
        ((), fun _ => some ⟨1 / 2, true, some 0, Function.update (fun _ => 0) 0 1, 1⟩) := by
      unfold optStep C68.sgd Leaf.accumulate
      simp [assign, C68.upd, Leaf.gradient]
      norm_num
    simp only [sr, fitLoop, z, C68.tracked, C68.back, os]
    simp [TAttrs.values]
  refine ⟨C68.prob, C68.sgd, C68.fresh, _, fun _ => some (Leaf.accumulate ⟨1 / 2, true, some 0, Function.update (fun _ => 0) 0 1, 1⟩ (1 / 2)),
    0, hfit, rfl, ?_, ?_⟩
  · rw [C68.grad_eq]
    rfl
  · simp only [readGrad, Leaf.accumulate, Option.map_some, Function.update_self]
    norm_num

/-- One run of two iterations is not two runs of one: the momentum is forgotten in between. -/
theorem C68_fit_add_negation :
    ∃ (P : Problem Unit ℂ) (opt : Opt (ℕ → ℂ) ℂ) (o : TAttrs Unit ℂ), Spec.KeepsLength opt ∧ Spec.Choice o.values [()] ∧
      Spec.Trainable P [()] o.values ∧
      (fit P opt (fit P opt o [()] 1).1 [()] 1).1.values ≠ (fit P opt o [()] 2).1.values := by
  have hk : Spec.KeepsLength C68.momentum := fun _ _ => List.length_mapIdx
  have hu : ∀ (s : ℕ → ℂ) (x : ℂ), Spec.update C68.momentum C68.prob.deriv [()] (s, fun _ => some x) =
      (fun k => s k + (([(x, some x)][k]?).bind Prod.snd).getD 0, fun _ => some (x - 1 / 2 * (s 0 + x))) := by
    intro s x
    unfold Spec.update C68.momentum C68.prob
    refine Prod.ext rfl ?_
    funext i
    cases i
    simp [Spec.setParams]
  have hv : ∀ (o : TAttrs Unit ℂ) (x : ℂ), o.values = (fun _ => some x) → ∀ n,
      (fit C68.prob C68.momentum o [()] n).1.values =
        ((Spec.update C68.momentum C68.prob.deriv [()])^[n] (fun _ => 0, fun _ => some x)).2 := by
    intro o x ho n
    obtain ⟨o', h1, h2⟩ := C68_torch_fit (P := C68.prob) hk (o := o) (pois := [()])
      ⟨by simp, by simp, fun _ _ => by rw [ho]; rfl⟩
      (fun v hv => ⟨⟨_, rfl⟩, (), by simp, by show (v ()).isSome = true; rw [hv, ho]; rfl⟩) n
    rw [h1, h2, ho]
    rfl
  refine ⟨C68.prob, C68.momentum, C68.fresh, hk, C68.choice, C68.trainable, ?_⟩
  have h1 := hv C68.fresh 1 rfl 1
  rw [Function.iterate_one, hu] at h1
  rw [hv _ _ h1 1, hv C68.fresh 1 rfl 2, Function.iterate_one, hu]
  simp only [Function.iterate_succ_apply, Function.iterate_zero, id, hu]
  intro h
  have := Option.some.inj (congrFun h ())
  simp at this

/-- Hypotheses of `C68_torch_fit`, `C68_fit_add` and `C68_torch_grad_partial` hold, and a step of training does something. -/
example : Spec.KeepsLength C68.sgd ∧ Spec.Stateless C68.sgd ∧ Spec.Choice C68.fresh.values [()] ∧ Spec.Trainable C68.prob [()] C68.fresh.values ∧
    Spec.trained C68.sgd C68.prob.deriv [()] 1 C68.fresh.values = fun _ => some (1 / 2) := by
  refine ⟨C68.sgd_keeps, C68.sgd_stateless, C68.choice, C68.trainable, ?_⟩
  funext i
  cases i
  simp [Spec.trained, Spec.update, Spec.setParams, C68.sgd, C68.prob, C68.fresh, TAttrs.values]
  norm_num

/-- Hypotheses of `C68_backends`: the loss `|z|² / 2` has derivative `conj z` in JAX's convention. -/
example : ∃ (PJ : Problem Unit ℂ) (o₂ : JAttrs Unit ℂ), o₂.values = C68.fresh.values ∧ Spec.Trainable PJ [()] C68.fresh.values ∧
    ∃ PT : Problem Unit ℂ, Spec.Trainable PT [()] C68.fresh.values ∧ ∀ v i, PT.deriv v i = some (star ((PJ.deriv v i).getD 0)) := by
  refine ⟨⟨C68.prob.forward, fun v i => some (star ((v i).getD 0))⟩, fun _ => some ⟨1, false⟩, rfl, fun v _ => ⟨⟨_, rfl⟩, (), by simp, rfl⟩,
    ⟨C68.prob.forward, fun v i => some ((v i).getD 0)⟩, fun v _ => ⟨⟨_, rfl⟩, (), by simp, rfl⟩, fun v i => ?_⟩
  simp

/-- Hypotheses of `C68_jax_grad`. -/
example : jgrad C68.prob (fun _ => some ⟨2, false⟩) [()] = (fun _ => some ⟨2, false⟩, .ok [((), 2)]) :=
  C68_jax_grad (by simp) (fun _ _ => ⟨2, rfl⟩) ⟨_, rfl⟩

/-- JAX `grad` when the solver raises: the attribute is left holding a tracer. -/
theorem C68_jax_failure_negation :
    ∃ (P : Problem Unit ℂ) (o o' : JAttrs Unit ℂ) (e : OErr), (∀ x, o () = some x → x.traced = false) ∧
      jgrad P o [()] = (o', .error e) ∧ o' () = some ⟨0, true⟩ := by
  refine ⟨C68.failing, fun _ => some ⟨0, false⟩, fun _ => some ⟨0, true⟩, .solver .linAlgError, ?_, ?_, rfl⟩
  · intro x h
    rw [← Option.some.inj h]
  · have hs : jset (fun _ => some ⟨0, false⟩ : JAttrs Unit ℂ) [((), ⟨0, true⟩)] = fun _ => some ⟨0, true⟩ := by
      funext i; cases i; simp [jset]
    have hp : jparams (fun _ => some ⟨0, false⟩ : JAttrs Unit ℂ) [()] = some [((), 0)] := rfl
    unfold jgrad
    rw [hp]
    simp only [jpass, List.map_cons, List.map_nil, hs]
    have hf : C68.failing.forward (JAttrs.values (fun _ => some ⟨0, true⟩ : JAttrs Unit ℂ)) = .error .linAlgError := by
      simp [C68.failing, JAttrs.values]
    rw [hf]

#print axioms C68_torch_fit
#print axioms C68_jax_fit
#print axioms C68_backends
#print axioms C68_fit_add
#print axioms C68_torch_grad_partial
#print axioms C68_jax_grad
#print axioms C68_unknown
#print axioms C68_torch_empty
#print axioms C68_torch_grad_again_negation
#print axioms C68_torch_grad_after_fit_negation
#print axioms C68_fit_add_negation
#print axioms C68_jax_failure_negation

end Meent
#print axioms Meent.C68_torch_untouched
