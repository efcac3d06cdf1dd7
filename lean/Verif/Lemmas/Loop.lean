import Verif.Lemmas.Engine

/-!
# The layer loop as a right fold (helper lemmas)
-/

namespace Meent

/-- The layer loop over a list of layers, the last layer first. -/
def runLayers {S C L : Type} (step : C → ℝ → S → Res (S × L)) :
    List (C × ℝ) → S × List L → Res (S × List L)
  | [], s => .ok s
  | x :: xs, s => do
    let r ← runLayers step xs s
    let r' ← step x.1 x.2 r.1
    .ok (r'.1, r.2 ++ [r'.2])

variable {S C L : Type} {step : C → ℝ → S → Res (S × L)}

theorem getIdx_ok {α : Type} {l : List α} {i : ℕ} {a : α} : getIdx l i = .ok a ↔ l[i]? = some a := by
  unfold getIdx
  split <;> simp_all

theorem runLayers_append (xs ys : List (C × ℝ)) (s : S × List L) :
    runLayers step (xs ++ ys) s = (runLayers step ys s >>= fun r => runLayers step xs r) := by
  induction xs generalizing s with
  | nil =>
    simp only [List.nil_append, runLayers]
    cases runLayers step ys s <;> rfl
  | cons x xs ih =>
    simp only [List.cons_append, runLayers, ih]
    cases runLayers step ys s <;> rfl

theorem layerLoop_eq_run {convs : List C} {th : List ℝ} :
    ∀ (k : ℕ), k ≤ convs.length → k ≤ th.length → ∀ (s : S × List L),
      layerLoop step convs th k s = runLayers step ((convs.zip th).take k) s
  | 0, _, _, s => by simp [layerLoop, runLayers]
  | k + 1, h1, h2, s => by
    have e1 : getIdx convs k = .ok convs[k] := by simp [getIdx_ok]
    have e2 : getIdx th k = .ok th[k] := by simp [getIdx_ok]
    have hk : k < (convs.zip th).length := by simp; omega
    have e3 : (convs.zip th).take (k + 1) = (convs.zip th).take k ++ [(convs[k], th[k])] := by
      rw [List.take_add_one, List.getElem?_eq_getElem hk]
      simp
    rw [e3, runLayers_append]
    simp only [layerLoop, e1, e2, runLayers, bind, Except.bind]
    cases hs : step convs[k] th[k] s.1 with
    | error e => rfl
    | ok r => exact layerLoop_eq_run k (by omega) (by omega) _

theorem layerLoop_ok_len {convs : List C} {th : List ℝ} {r : S × List L} :
    ∀ {k : ℕ} {s : S × List L}, layerLoop step convs th k s = .ok r → k ≤ convs.length ∧ k ≤ th.length
  | 0, s, _ => ⟨by omega, by omega⟩
  | k + 1, s, h => by
    simp only [layerLoop, Except.bind_ok, getIdx_ok] at h
    obtain ⟨c, hc, d, hd, -⟩ := h
    have := (List.getElem?_eq_some_iff.mp hc).1
    have := (List.getElem?_eq_some_iff.mp hd).1
    omega

/-- A successful loop over all thickness entries: there is at least one pattern per thickness, and
exactly the zipped list is processed. -/
theorem layerLoop_ok_iff {convs : List C} {th : List ℝ} {s r : S × List L} :
    layerLoop step convs th th.length s = .ok r ↔
      th.length ≤ convs.length ∧ runLayers step (convs.zip th) s = .ok r := by
  constructor
  · intro h
    have h1 := (layerLoop_ok_len (s := s) h).1
    refine ⟨h1, ?_⟩
    rw [layerLoop_eq_run _ h1 le_rfl, List.take_of_length_le (by simp)] at h
    exact h
  · rintro ⟨h1, h⟩
    rw [layerLoop_eq_run _ h1 le_rfl, List.take_of_length_le (by simp)]
    exact h

theorem layerLoop_too_long {convs : List C} {th : List ℝ} {s : S × List L}
    (h : convs.length < th.length) :
    ∃ k, k + 1 = th.length ∧ layerLoop step convs th th.length s = .error .indexError := by
  obtain ⟨k, hk⟩ : ∃ k, th.length = k + 1 := ⟨th.length - 1, by omega⟩
  refine ⟨k, hk.symm, ?_⟩
  rw [hk]
  have : getIdx convs k = .error .indexError := by
    unfold getIdx
    rw [List.getElem?_eq_none (by omega)]
  simp [layerLoop, this, bind, Except.bind]

/-- Relational induction for two loops over the same number of layers. -/
theorem runLayers_rel {S' C' L' : Type} {step' : C' → ℝ → S' → Res (S' × L')}
    (P : S → S' → Prop) (Q : C × ℝ → C' × ℝ → Prop)
    (hstep : ∀ x x' s s' r r', Q x x' → P s s' → step x.1 x.2 s = .ok r →
      step' x'.1 x'.2 s' = .ok r' → P r.1 r'.1) :
    ∀ {xs : List (C × ℝ)} {xs' : List (C' × ℝ)}, List.Forall₂ Q xs xs' →
      ∀ {s : S × List L} {s' : S' × List L'} {r r'}, P s.1 s'.1 →
      runLayers step xs s = .ok r → runLayers step' xs' s' = .ok r' → P r.1 r'.1 := by
  intro xs xs' h
  induction h with
  | nil =>
    intro s s' r r' hP h1 h2
    simp only [runLayers, Except.ok.injEq] at h1 h2
    subst h1 h2; exact hP
  | cons hq _ ih =>
    intro s s' r r' hP h1 h2
    simp only [runLayers, Except.bind_ok, Except.ok.injEq] at h1 h2
    obtain ⟨a, ha, b, hb, rfl⟩ := h1
    obtain ⟨a', ha', b', hb', rfl⟩ := h2
    exact hstep _ _ _ _ _ _ hq (ih hP ha ha') hb hb'

/-- The states reached do not depend on the accumulated information. -/
theorem runLayers_infos {xs : List (C × ℝ)} {s : S} {l : List L} {r : S × List L} :
    runLayers step xs (s, l) = .ok r →
      ∀ l', ∃ m, r.2 = l ++ m ∧ runLayers step xs (s, l') = .ok (r.1, l' ++ m) := by
  induction xs generalizing r with
  | nil =>
    intro h l'
    simp only [runLayers, Except.ok.injEq] at h
    subst h
    exact ⟨[], by simp, by simp [runLayers]⟩
  | cons x xs ih =>
    intro h l'
    simp only [runLayers, Except.bind_ok, Except.ok.injEq] at h
    obtain ⟨a, ha, b, hb, rfl⟩ := h
    obtain ⟨m, e1, e2⟩ := ih ha l'
    refine ⟨m ++ [b.2], by simp [e1], ?_⟩
    simp only [runLayers, Except.bind_ok, Except.ok.injEq]
    exact ⟨_, e2, b, hb, by simp⟩

end Meent
