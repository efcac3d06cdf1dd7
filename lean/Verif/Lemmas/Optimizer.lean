import Verif.Spec.Optimizer

/-!
# Training loops (helper lemmas)
-/

namespace Meent.Optim

set_option linter.unusedSectionVars false
set_option linter.unusedSimpArgs false

variable {ι V S : Type} [DecidableEq ι]

/-! ### Assigning values -/

theorem setParams_not_mem {v : ι → Option V} {i : ι} : ∀ {l : List (ι × V)}, i ∉ l.map Prod.fst → Spec.setParams v l i = v i
  | [], _ => rfl
  | (j, x) :: l, h => by
    simp only [List.map_cons, List.mem_cons, not_or] at h
    rw [Spec.setParams, setParams_not_mem h.2, Function.update_of_ne h.1]

theorem setParams_mem {i : ι} {x : V} : ∀ {v : ι → Option V} {l : List (ι × V)}, (l.map Prod.fst).Nodup → (i, x) ∈ l →
    Spec.setParams v l i = some x
  | v, (j, y) :: l, hn, h => by
    simp only [List.map_cons, List.nodup_cons] at hn
    rw [Spec.setParams]
    rcases List.mem_cons.mp h with e | h
    · obtain ⟨rfl, rfl⟩ := Prod.mk.inj e
      rw [setParams_not_mem hn.1, Function.update_self]
    · exact setParams_mem hn.2 h

theorem setParams_isSome {v : ι → Option V} {i : ι} : ∀ {l : List (ι × V)}, (∀ p ∈ l, (v p.1).isSome) →
    (Spec.setParams v l i).isSome = (v i).isSome
  | [], _ => rfl
  | (j, x) :: l, h => by
    have hj : (v j).isSome := h (j, x) List.mem_cons_self
    have key : ∀ k, (Function.update v j (some x) k).isSome = (v k).isSome := by
      intro k
      by_cases hk : k = j
      · subst hk; simp [hj]
      · rw [Function.update_of_ne hk]
    rw [Spec.setParams, setParams_isSome, key]
    intro p hp
    rw [key]
    exact h p (List.mem_cons_of_mem _ hp)

/-- Assigning what is there changes nothing. -/
theorem setParams_self {v : ι → Option V} : ∀ {l : List (ι × V)}, (∀ p ∈ l, v p.1 = some p.2) → Spec.setParams v l = v
  | [], _ => rfl
  | (j, x) :: l, h => by
    have e : Function.update v j (some x) = v := by
      rw [← h (j, x) List.mem_cons_self, Function.update_eq_self]
    rw [Spec.setParams, e]
    exact setParams_self fun p hp => h p (List.mem_cons_of_mem _ hp)

theorem zip_keys {pois : List ι} {xs : List V} (h : xs.length = pois.length) : (pois.zip xs).map Prod.fst = pois := by
  rw [List.map_fst_zip (by omega)]

theorem zip_mem_isSome {v : ι → Option V} {pois : List ι} {xs : List V} (h : ∀ i ∈ pois, (v i).isSome) :
    ∀ p ∈ pois.zip xs, (v p.1).isSome := fun p hp => h _ (List.of_mem_zip (a := p.1) (b := p.2) hp).1

theorem filterMap_length {α : Type} {f : ι → Option α} : ∀ {l : List ι}, (∀ i ∈ l, (f i).isSome) → (l.filterMap f).length = l.length
  | [], _ => rfl
  | i :: l, h => by
    obtain ⟨x, hx⟩ := Option.isSome_iff_exists.mp (h i List.mem_cons_self)
    rw [List.filterMap_cons_some hx, List.length_cons, List.length_cons,
      filterMap_length fun j hj => h j (List.mem_cons_of_mem _ hj)]

theorem update_length {opt : Opt S V} (hk : Spec.KeepsLength opt) {D : (ι → Option V) → ι → Option V} {pois : List ι} {s : S}
    {v : ι → Option V} (h : ∀ i ∈ pois, (v i).isSome) :
    (opt.step s (pois.filterMap fun i => (v i).map fun y => (y, D v i))).2.length = pois.length := by
  rw [hk, filterMap_length]
  intro i hi
  rw [Option.isSome_map]
  exact h i hi

/-! ### PyTorch -/

theorem setRequires_eq : ∀ (pois : List ι) (o : TAttrs ι V), (∀ i ∈ pois, (o i).isSome) →
    setRequires o pois = (fun i => if i ∈ pois then (o i).map fun l => { l with requires := true } else o i, .ok ())
  | [], o, _ => by simp [setRequires]
  | i :: is, o, h => by
    obtain ⟨l, hl⟩ := Option.isSome_iff_exists.mp (h i List.mem_cons_self)
    have h' : ∀ j ∈ is, (Function.update o i (some { l with requires := true }) j).isSome := by
      intro j hj
      by_cases e : j = i
      · subst e; simp
      · rw [Function.update_of_ne e]; exact h j (List.mem_cons_of_mem _ hj)
    rw [setRequires, hl]
    simp only
    rw [setRequires_eq is _ h']
    congr 1
    funext j
    by_cases e : j = i
    · subst e
      simp [hl]
    · simp [e]

/-- Presence, value and flag of the chosen leaves. -/
def Ready (o : TAttrs ι V) (pois : List ι) : Prop := ∀ i ∈ pois, ∃ l, o i = some l ∧ l.requires = true

theorem ready_isSome {o : TAttrs ι V} {pois : List ι} (h : Ready o pois) : ∀ i ∈ pois, (o.values i).isSome := by
  intro i hi
  obtain ⟨l, hl, -⟩ := h i hi
  simp [TAttrs.values, hl]

theorem accumulate_value [Add V] (l : Leaf V) (d : V) : (l.accumulate d).value = l.value ∧ (l.accumulate d).requires = l.requires := by
  unfold Leaf.accumulate
  split <;> exact ⟨rfl, rfl⟩

theorem accumulate_gradient [AddZeroClass V] (l : Leaf V) (d : V) : (l.accumulate d).gradient = some (l.gradient.getD 0 + d) := by
  unfold Leaf.accumulate Leaf.gradient
  split
  · rename_i k hk
    simp [hk]
  · rename_i hk
    simp [hk]

theorem backward_values [Add V] (P : Problem ι V) (o : TAttrs ι V) : (backward P o).values = o.values := by
  funext i
  unfold TAttrs.values backward
  cases h : o i with
  | none => rfl
  | some l =>
    simp only [Option.map_some]
    split
    · split
      · rfl
      · rw [(accumulate_value l _).1]
    · rfl

theorem backward_ready [Add V] {P : Problem ι V} {o : TAttrs ι V} {pois : List ι} (h : Ready o pois) : Ready (backward P o) pois := by
  intro i hi
  obtain ⟨l, hl, hr⟩ := h i hi
  unfold backward
  rw [hl]
  simp only [Option.map_some, hr, if_true]
  split
  · exact ⟨l, rfl, hr⟩
  · exact ⟨_, rfl, by rw [(accumulate_value l _).2, hr]⟩

theorem zeroGrad_values (o : TAttrs ι V) (pois : List ι) : (zeroGrad pois o).values = o.values := by
  funext i
  unfold TAttrs.values zeroGrad
  split
  · rw [Option.map_map]; rfl
  · rfl

theorem zeroGrad_ready {o : TAttrs ι V} {pois : List ι} (h : Ready o pois) : Ready (zeroGrad pois o) pois := by
  intro i hi
  obtain ⟨l, hl, hr⟩ := h i hi
  exact ⟨{ l with grad := none }, by unfold zeroGrad; rw [if_pos hi, hl]; rfl, hr⟩

theorem assign_values : ∀ {l : List (ι × V)} {o : TAttrs ι V}, (∀ p ∈ l, (o p.1).isSome) →
    (assign o l).values = Spec.setParams o.values l
  | [], _, _ => rfl
  | (j, x) :: l, o, h => by
    obtain ⟨lf, hl⟩ := Option.isSome_iff_exists.mp (h (j, x) List.mem_cons_self)
    rw [assign, Spec.setParams, assign_values]
    · congr 1
      funext k
      unfold TAttrs.values
      by_cases hk : k = j
      · subst hk; simp [hl]
      · rw [Function.update_of_ne hk, Function.update_of_ne hk]
    · intro p hp
      by_cases hk : p.1 = j
      · rw [hk, Function.update_self, Option.isSome_map, hl]; rfl
      · rw [Function.update_of_ne hk]; exact h p (List.mem_cons_of_mem _ hp)

theorem assign_ready {pois : List ι} : ∀ {l : List (ι × V)} {o : TAttrs ι V}, Ready o pois → Ready (assign o l) pois
  | [], _, h => h
  | (j, x) :: l, o, h => by
    rw [assign]
    refine assign_ready fun i hi => ?_
    obtain ⟨lf, hl, hr⟩ := h i hi
    by_cases hk : i = j
    · subst hk
      exact ⟨{ lf with value := x }, by rw [Function.update_self, hl]; rfl, hr⟩
    · exact ⟨lf, by rw [Function.update_of_ne hk, hl], hr⟩

theorem pass_ok [Add V] {P : Problem ι V} {o : TAttrs ι V} {pois : List ι} (hr : Ready o pois)
    (h : (∃ l, P.forward o.values = .ok l) ∧ ∃ i ∈ pois, (P.deriv o.values i).isSome) : pass P o = (backward P o, .ok ()) := by
  obtain ⟨⟨l, hl⟩, i, hi, hd⟩ := h
  obtain ⟨lf, h1, h2⟩ := hr i hi
  unfold pass
  rw [hl]
  simp only
  rw [if_pos ⟨i, lf, h1, h2, hd⟩]

/-- The gradient an optimizer sees after `zero_grad` and a pass is the derivative. -/
theorem pass_gradient [AddZeroClass V] {P : Problem ι V} {o : TAttrs ι V} {pois : List ι} (hr : Ready o pois) {i : ι} (hi : i ∈ pois) :
    ((backward P (zeroGrad pois o)) i).map (fun l => (l.value, l.gradient)) =
      (o.values i).map fun y => (y, P.deriv o.values i) := by
  obtain ⟨l, hl, hq⟩ := hr i hi
  have e : (zeroGrad pois o) i = some { l with grad := none } := by
    unfold zeroGrad; rw [if_pos hi, hl]; rfl
  unfold backward
  rw [e, zeroGrad_values]
  simp only [Option.map_some, hq, if_true]
  have ev : o.values i = some l.value := by unfold TAttrs.values; rw [hl]; rfl
  rw [ev]
  simp only [Option.map_some]
  split
  · rename_i hd; rw [hd]; rfl
  · rename_i d hd
    rw [hd, (accumulate_value _ _).1, accumulate_gradient]
    simp [Leaf.gradient]

theorem filterMap_congr' {α : Type} {f g : ι → Option α} : ∀ {l : List ι}, (∀ i ∈ l, f i = g i) → l.filterMap f = l.filterMap g
  | [], _ => rfl
  | i :: l, h => by
    rw [List.filterMap_cons, List.filterMap_cons, h i List.mem_cons_self,
      filterMap_congr' fun j hj => h j (List.mem_cons_of_mem _ hj)]

theorem fitLoop_eq [AddZeroClass V] {P : Problem ι V} {opt : Opt S V} (hk : Spec.KeepsLength opt) {pois : List ι} :
    ∀ (n : ℕ) (s : S) (o : TAttrs ι V), Ready o pois → Spec.Trainable P pois o.values →
      ∃ o', fitLoop P opt pois n s o = (o', .ok ()) ∧ Ready o' pois ∧
        o'.values = ((Spec.update opt P.deriv pois)^[n] (s, o.values)).2
  | 0, s, o, hr, _ => ⟨o, rfl, hr, rfl⟩
  | n + 1, s, o, hr, ht => by
    have hz := zeroGrad_ready hr
    have hp := pass_ok (P := P) hz (by rw [zeroGrad_values]; exact ht _ fun _ => rfl)
    set o2 := backward P (zeroGrad pois o) with ho2
    have hr2 : Ready o2 pois := backward_ready hz
    have hv2 : o2.values = o.values := by rw [ho2, backward_values, zeroGrad_values]
    have hf : (pois.filterMap fun i => (o2 i).map fun l => (l.value, l.gradient)) =
        pois.filterMap fun i => (o.values i).map fun y => (y, P.deriv o.values i) :=
      filterMap_congr' fun i hi => pass_gradient hr hi
    have hs : (optStep opt pois s o2).1 = (Spec.update opt P.deriv pois (s, o.values)).1 := by
      unfold optStep Spec.update
      simp only [hf]
    have hlen := update_length hk (D := P.deriv) (s := s) (ready_isSome hr)
    have hv : (optStep opt pois s o2).2.values = (Spec.update opt P.deriv pois (s, o.values)).2 := by
      unfold optStep Spec.update
      simp only [hf]
      rw [assign_values, hv2]
      intro p hp
      obtain ⟨l, hl, -⟩ := hr2 p.1 (List.of_mem_zip (a := p.1) (b := p.2) hp).1
      rw [hl]; rfl
    have hr3 : Ready (optStep opt pois s o2).2 pois := assign_ready hr2
    have ht3 : Spec.Trainable P pois (optStep opt pois s o2).2.values := by
      intro v hv'
      refine ht v fun i => ?_
      rw [hv', hv]
      exact setParams_isSome (zip_mem_isSome (ready_isSome hr))
    obtain ⟨o', h1, h2, h3⟩ := fitLoop_eq hk n (optStep opt pois s o2).1 (optStep opt pois s o2).2 hr3 ht3
    refine ⟨o', ?_, h2, ?_⟩
    · rw [fitLoop, hp]
      exact h1
    · rw [h3, Function.iterate_succ_apply]
      congr 2
      rw [hs, hv]

theorem mapM_some {α : Type} {f : ι → Option α} : ∀ {l : List ι}, (∀ i ∈ l, (f i).isSome) → l.mapM f = some (l.filterMap f)
  | [], _ => rfl
  | i :: l, h => by
    obtain ⟨x, hx⟩ := Option.isSome_iff_exists.mp (h i List.mem_cons_self)
    rw [List.mapM_cons, hx, mapM_some fun j hj => h j (List.mem_cons_of_mem _ hj), List.filterMap_cons_some hx]
    rfl

theorem requires_facts {o : TAttrs ι V} {pois : List ι} (h : ∀ i ∈ pois, (o.values i).isSome) :
    ∃ o1, setRequires o pois = (o1, .ok ()) ∧ Ready o1 pois ∧ o1.values = o.values ∧
      ∀ i, (o1 i).bind Leaf.gradient = (o i).bind Leaf.gradient := by
  have h' : ∀ i ∈ pois, (o i).isSome := by
    intro i hi
    have := h i hi
    unfold TAttrs.values at this
    rwa [Option.isSome_map] at this
  refine ⟨_, setRequires_eq pois o h', ?_, ?_, ?_⟩
  · intro i hi
    obtain ⟨l, hl⟩ := Option.isSome_iff_exists.mp (h' i hi)
    exact ⟨{ l with requires := true }, by simp [hi, hl], rfl⟩
  · funext i
    unfold TAttrs.values
    simp only
    split
    · rw [Option.map_map]; rfl
    · rfl
  · intro i
    by_cases hi : i ∈ pois
    · rw [if_pos hi]; cases o i <;> rfl
    · rw [if_neg hi]

/-! ### JAX -/

theorem jset_values {b : Bool} : ∀ (l : List (ι × V)) (o : JAttrs ι V),
    (jset o (l.map fun p => (p.1, ⟨p.2, b⟩))).values = Spec.setParams o.values l
  | [], _ => rfl
  | (j, x) :: l, o => by
    rw [List.map_cons, jset, jset_values l, Spec.setParams]
    congr 1
    funext k
    unfold JAttrs.values
    by_cases hk : k = j
    · subst hk; simp
    · rw [Function.update_of_ne hk, Function.update_of_ne hk]

theorem jset_other {i : ι} : ∀ {l : List (ι × JVal V)} {o : JAttrs ι V}, i ∉ l.map Prod.fst → jset o l i = o i
  | [], _, _ => rfl
  | (j, x) :: l, o, h => by
    simp only [List.map_cons, List.mem_cons, not_or] at h
    rw [jset, jset_other h.2, Function.update_of_ne h.1]

theorem jset_mem {i : ι} {b : Bool} : ∀ {l : List (ι × V)} {o : JAttrs ι V}, i ∈ l.map Prod.fst →
    ∃ x, jset o (l.map fun p => (p.1, (⟨p.2, b⟩ : JVal V))) i = some ⟨x, b⟩
  | (j, x) :: l, o, h => by
    rw [List.map_cons, jset]
    by_cases hl : i ∈ l.map Prod.fst
    · exact jset_mem hl
    · simp only [List.map_cons, List.mem_cons] at h
      have hij : i = j := h.resolve_right hl
      subst hij
      refine ⟨x, ?_⟩
      rw [jset_other (by rw [List.map_map]; exact hl), Function.update_self]

theorem jparams_eq {o : JAttrs ι V} {pois : List ι} (h : ∀ i ∈ pois, (o.values i).isSome) :
    ∃ ps, jparams o pois = some ps ∧ ps.map Prod.fst = pois ∧ (∀ p ∈ ps, o.values p.1 = some p.2) ∧
      ps.map Prod.snd = Spec.paramsOf o.values pois := by
  unfold jparams Spec.paramsOf
  induction pois with
  | nil => exact ⟨[], rfl, rfl, by simp, rfl⟩
  | cons i is ih =>
    obtain ⟨ps, h1, h2, h3, h4⟩ := ih fun j hj => h j (List.mem_cons_of_mem _ hj)
    obtain ⟨x, hx⟩ := Option.isSome_iff_exists.mp (h i List.mem_cons_self)
    refine ⟨(i, x) :: ps, ?_, by simp [h2], ?_, by simp [hx, h4]⟩
    · rw [List.mapM_cons, h1, hx]; rfl
    · intro p hp
      rcases List.mem_cons.mp hp with rfl | hp
      · exact hx
      · exact h3 p hp

/-- The values during a JAX run. -/
theorem jpass_ok [Zero V] {P : Problem ι V} {o : JAttrs ι V} {ps : List (ι × V)}
    (h : ∃ l, P.forward (Spec.setParams o.values ps) = .ok l) :
    jpass P o ps = (jset o (ps.map fun p => (p.1, ⟨p.2, true⟩)),
      .ok (ps.map fun p => (p.1, (P.deriv (Spec.setParams o.values ps) p.1).getD 0))) := by
  obtain ⟨l, hl⟩ := h
  unfold jpass
  simp only [jset_values, hl]

theorem params_filterMap {α : Type} {v : ι → Option V} {f : V → ι → α} : ∀ {ps : List (ι × V)}, (∀ p ∈ ps, v p.1 = some p.2) →
    (ps.map fun p => f p.2 p.1) = (ps.map Prod.fst).filterMap fun i => (v i).map fun y => f y i
  | [], _ => rfl
  | p :: ps, h => by
    rw [List.map_cons, List.map_cons, List.filterMap_cons_some (b := f p.2 p.1) (by rw [h p List.mem_cons_self]; rfl),
      params_filterMap fun q hq => h q (List.mem_cons_of_mem _ hq)]

theorem zip_map_self {α : Type} {f : ι × V → α} : ∀ (ps : List (ι × V)), ps.zip (ps.map f) = ps.map fun p => (p, f p)
  | [] => rfl
  | p :: ps => by rw [List.map_cons, List.zip_cons_cons, zip_map_self ps]; rfl

theorem setParams_twice {v : ι → Option V} {ps qs : List (ι × V)} (hn : (qs.map Prod.fst).Nodup)
    (h : ps.map Prod.fst = qs.map Prod.fst) : Spec.setParams (Spec.setParams v ps) qs = Spec.setParams v qs := by
  funext i
  by_cases hi : i ∈ qs.map Prod.fst
  · obtain ⟨p, hp, rfl⟩ := List.mem_map.mp hi
    rw [setParams_mem (x := p.2) hn hp, setParams_mem (x := p.2) hn hp]
  · rw [setParams_not_mem hi, setParams_not_mem hi, setParams_not_mem (by rw [h]; exact hi)]

/-- JAX derivatives as the optimizer sees them. -/
def conjDeriv [Zero V] [Star V] (P : Problem ι V) : (ι → Option V) → ι → Option V :=
  fun v i => some (star ((P.deriv v i).getD 0))

theorem jfitLoop_eq [Zero V] [Star V] {P : Problem ι V} {opt : Opt S V} (hk : Spec.KeepsLength opt) {pois : List ι} (hn : pois.Nodup) :
    ∀ (n : ℕ) (s : S) (ps : List (ι × V)) (o : JAttrs ι V), ps.map Prod.fst = pois → (∀ i ∈ pois, (o.values i).isSome) →
      (∀ v, (∀ i, (v i).isSome = (o.values i).isSome) → ∃ l, P.forward v = .ok l) →
      ∃ o' ps', jfitLoop P opt n s ps o = (o', .ok ps') ∧ ps'.map Prod.fst = pois ∧
        Spec.setParams o'.values ps' = ((Spec.update opt (conjDeriv P) pois)^[n] (s, Spec.setParams o.values ps)).2 ∧
        ∀ i, i ∉ pois → o' i = o i
  | 0, s, ps, o, hps, _, _ => ⟨o, ps, rfl, hps, rfl, fun _ _ => rfl⟩
  | n + 1, s, ps, o, hps, hv, ht => by
    set v := Spec.setParams o.values ps with hvd
    have hsup : ∀ i, (v i).isSome = (o.values i).isSome := fun i => setParams_isSome (v := o.values) fun p hp =>
      hv _ (by rw [← hps]; exact List.mem_map_of_mem hp)
    have hp := jpass_ok (P := P) (o := o) (ps := ps) (ht _ hsup)
    set o1 := jset o (ps.map fun p => (p.1, (⟨p.2, true⟩ : JVal V))) with ho1
    have ho1v : o1.values = v := jset_values ps o
    have hmem : ∀ p ∈ ps, v p.1 = some p.2 := fun p hp => setParams_mem (by rw [hps]; exact hn) hp
    have harg : ((ps.zip (ps.map fun p => (p.1, (P.deriv v p.1).getD 0))).map fun pg => (pg.1.2, some (star pg.2.2))) =
        pois.filterMap fun i => (v i).map fun y => (y, conjDeriv P v i) := by
      rw [zip_map_self, List.map_map, ← hps]
      exact params_filterMap (f := fun y i => (y, conjDeriv P v i)) hmem
    set r := opt.step s (pois.filterMap fun i => (v i).map fun y => (y, conjDeriv P v i)) with hr
    have hlen : r.2.length = pois.length := update_length hk (D := conjDeriv P) (s := s) fun i hi => by rw [hsup]; exact hv i hi
    have hkeys : ((ps.map Prod.fst).zip r.2).map Prod.fst = pois := by rw [hps, zip_keys hlen]
    obtain ⟨o', ps', h1, h2, h3, h4⟩ := jfitLoop_eq hk hn n r.1 ((ps.map Prod.fst).zip r.2) o1 hkeys
      (by intro i hi; rw [ho1v, hsup]; exact hv i hi)
      (by intro w hw; refine ht w fun i => ?_; rw [hw, ho1v, hsup])
    refine ⟨o', ps', ?_, h2, ?_, ?_⟩
    · rw [jfitLoop, hp]
      simp only
      rw [← hvd, harg]
      exact h1
    · rw [h3, Function.iterate_succ_apply]
      congr 2
      rw [ho1v, hps]
      rfl
    · intro i hi
      rw [h4 i hi, ho1]
      refine jset_other ?_
      rw [List.map_map]
      have : (Prod.fst ∘ fun p : ι × V => (p.1, (⟨p.2, true⟩ : JVal V))) = Prod.fst := rfl
      rw [this, hps]
      exact hi

end Meent.Optim
