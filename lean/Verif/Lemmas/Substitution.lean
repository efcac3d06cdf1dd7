import Verif.Lemmas.MaterialFiles

/-!
# Substituting materials in a ucell (helper lemmas)
-/

set_option linter.unusedSimpArgs false

namespace Meent

open Spec

theorem sellmeier_length {pole : ℝ → ℝ} {cs wl : List ℝ} {r : List (Option ℂ)}
    (h : sellmeier pole cs wl = .ok r) : r.length = wl.length := by
  unfold sellmeier at h
  cases cs with
  | nil => cases h
  | cons c l =>
    simp only at h
    cases hl : sellmeierLoop pole l (fun _ => some (1 + c)) with
    | error e => rw [hl] at h; cases h
    | ok n2 =>
      rw [hl] at h
      change Except.ok _ = _ at h
      cases h
      simp

theorem bbEv_length {sp : SciPy} {cs wl : List ℝ} {r : List (Option ℂ)}
    (h : model_brendel_bormann_ev sp cs wl = .ok r) : r.length = wl.length := by
  unfold model_brendel_bormann_ev at h
  split at h
  · next rest =>
    cases hl : chunks4 rest with
    | error e => rw [hl] at h; cases h
    | ok n2 =>
      rw [hl] at h
      change Except.ok _ = _ at h
      cases h
      simp
  · cases h

theorem bbCm_length {sp : SciPy} {cs wl : List ℝ} {r : List (Option ℂ)}
    (h : model_brendel_bormann_cm sp cs wl = .ok r) : r.length = wl.length := by
  unfold model_brendel_bormann_cm at h
  split at h
  · cases h
  · next rest =>
    cases hl : chunks4 rest with
    | error e => rw [hl] at h; cases h
    | ok n2 =>
      rw [hl] at h
      change Except.ok _ = _ at h
      cases h
      simp

theorem graphene_length {sp : SciPy} {cs wl : List ℝ} {r : List (Option ℂ)}
    (h : model_graphene_falkovsky sp cs wl = .ok r) : r.length = wl.length := by
  unfold model_graphene_falkovsky at h
  split at h
  · split_ifs at h
    cases h
    simp
  · cases h

theorem evaluate_length {sp : SciPy} {s : FSpec} {wl : List ℝ} {r : List (Option ℂ)}
    (h : evaluate sp s wl = .ok r) : r.length = wl.length := by
  unfold evaluate at h
  split at h
  · cases h
  · next key _ =>
    split at h
    · cases h
    · next formula hf =>
      split at h
      · cases h
      · next cs _ =>
        cases key with
        | num n =>
          simp only [FORMULAS] at hf
          split_ifs at hf
          · cases hf; exact sellmeier_length h
          · cases hf; exact sellmeier_length h
        | name s =>
          simp only [FORMULAS] at hf
          split_ifs at hf
          · cases hf; exact bbEv_length h
          · cases hf; exact bbCm_length h
          · cases hf; exact graphene_length h

theorem mapM_length {α β : Type} {f : α → Res β} {l : List α} {r : List β}
    (h : l.mapM f = .ok r) : r.length = l.length := by
  induction l generalizing r with
  | nil => cases h; rfl
  | cons a l ih =>
    rw [List.mapM_cons] at h
    cases ha : f a with
    | error e => rw [ha] at h; cases h
    | ok b =>
      rw [ha] at h
      cases hl : l.mapM f with
      | error e => rw [hl] at h; cases h
      | ok bs =>
        rw [hl] at h
        change Except.ok _ = _ at h
        cases h
        simp [ih hl]

theorem indexOf_length {sp : SciPy} {d : MatData} {b : Bool} {wl : List ℝ} {r : List (Option ℂ)}
    (h : indexOf sp d b wl = .ok r) : r.length = wl.length := by
  cases d with
  | flat => cases h
  | spec s =>
    simp only [indexOf] at h
    cases he : evaluate sp s wl with
    | error e => rw [he] at h; cases h
    | ok n =>
      rw [he] at h
      change Except.ok _ = _ at h
      cases h
      rw [← evaluate_length he]
      split_ifs <;> simp
  | table rows =>
    simp only [indexOf] at h
    cases hn : wl.mapM (npInterp (rows.map fun r => (r.1, r.2.1))) with
    | error e => rw [hn] at h; cases h
    | ok ns =>
      rw [hn] at h
      cases b with
      | true =>
        change Except.ok _ = _ at h
        cases h
        simp [mapM_length hn]
      | false =>
        cases hk : wl.mapM (npInterp (rows.map fun r => (r.1, r.2.2))) with
        | error e => rw [hk] at h; cases h
        | ok ks =>
          rw [hk] at h
          change Except.ok _ = _ at h
          cases h
          simp [mapM_length hn, mapM_length hk]

theorem find_single {sp : SciPy} {m : MatArg} {t : Table} {wl : ℝ} (v : Option ℂ) :
    (do let r ← (find_nk_index sp m t [wl]).value; getIdx r 0) = Except.ok v ↔
      (find_nk_index sp m t [wl]).value = .ok [v] := by
  have hl : ∀ r, (find_nk_index sp m t [wl]).value = .ok r → r.length = 1 := by
    intro r hr
    unfold find_nk_index at hr
    split at hr
    · cases hr
    · next d b hs =>
      cases hw : warn_if_out_of_range d [wl] with
      | error e => simp only [hw] at hr; cases hr
      | ok w => simp only [hw] at hr; exact indexOf_length hr
  cases hv : (find_nk_index sp m t [wl]).value with
  | error e => constructor <;> intro h <;> cases h
  | ok r =>
    have := hl r hv
    match r, this with
    | [x], _ =>
      change Except.ok x = Except.ok v ↔ _
      simp

theorem assignValue_ok (sp : SciPy) (disk : Res Table) (cache : Table) (wl : ℝ) (m : Material)
    (v : Option ℂ) :
    (assignValue sp disk cache wl m).2 = .ok v ↔ IndexOf sp disk cache wl m v := by
  cases m with
  | value z =>
    simp only [assignValue, IndexOf, Except.ok.injEq]
    exact eq_comm
  | lookup a =>
    cases a with
    | spec s =>
      simp only [assignValue, IndexOf]
      exact find_single v
    | name s =>
      simp only [assignValue, IndexOf]
      by_cases hc : cache = []
      · rw [if_pos hc]
        cases disk with
        | error e =>
          constructor
          · intro h; cases h
          · rintro ⟨t, ⟨h, -⟩ | ⟨-, h⟩, -⟩
            · exact absurd hc h
            · cases h
        | ok t =>
          refine (find_single v).trans ?_
          constructor
          · intro h
            exact ⟨t, .inr ⟨hc, rfl⟩, h⟩
          · rintro ⟨t', ⟨h, -⟩ | ⟨-, h⟩, h'⟩
            · exact absurd hc h
            · cases h; exact h'
      · rw [if_neg hc]
        refine (find_single v).trans ?_
        constructor
        · intro h
          exact ⟨cache, .inl ⟨hc, rfl⟩, h⟩
        · rintro ⟨t', ⟨-, rfl⟩ | ⟨h, -⟩, h'⟩
          · exact h'
          · exact absurd h hc

theorem assignValue_cache (sp : SciPy) (disk : Res Table) (cache : Table) (wl : ℝ) (m : Material)
    (t : Table) : InUse disk (assignValue sp disk cache wl m).1 t ↔ InUse disk cache t := by
  cases m with
  | value z => rfl
  | lookup a =>
    cases a with
    | spec s => rfl
    | name s =>
      simp only [assignValue]
      by_cases hc : cache = []
      · rw [if_pos hc]
        cases disk with
        | error e => rfl
        | ok T =>
          simp only [InUse, hc, Except.ok.injEq]
          by_cases hT : T = []
          · simp [hT]
          · simp [hT, eq_comm]
      · rw [if_neg hc]

theorem indexOf_cache (sp : SciPy) (disk : Res Table) (cache : Table) (wl : ℝ) (m m' : Material)
    (v : Option ℂ) :
    IndexOf sp disk (assignValue sp disk cache wl m).1 wl m' v ↔ IndexOf sp disk cache wl m' v := by
  cases m' with
  | value z => rfl
  | lookup a =>
    cases a with
    | spec s => rfl
    | name s => simp only [IndexOf, assignValue_cache]

theorem putLoop_ok {ι : Type} {sp : SciPy} {disk : Res Table} {ucell : ι → ℂ} {wl : ℝ} {i : ℕ}
    {mats : List Material} {cache : Table} {res out : ι → Option ℂ}
    (h : (putLoop sp disk ucell wl i mats cache res).2 = .ok out) (p : ι) :
    (∃ j m, mats[j]? = some m ∧ ucell p = ((i + j : ℕ) : ℂ) ∧
        IndexOf sp disk cache wl m (out p)) ∨
      ((∀ j < mats.length, ucell p ≠ ((i + j : ℕ) : ℂ)) ∧ out p = res p) := by
  induction mats generalizing i cache res with
  | nil =>
    cases h
    exact .inr ⟨by simp, rfl⟩
  | cons m rest ih =>
    rw [putLoop] at h
    have hc : assignValue sp disk cache wl m =
      ((assignValue sp disk cache wl m).1, (assignValue sp disk cache wl m).2) := rfl
    cases hv : (assignValue sp disk cache wl m).2 with
    | error e =>
      rw [hv] at hc
      rw [hc] at h
      cases h
    | ok v =>
      rw [hv] at hc
      rw [hc] at h
      rcases ih h with ⟨j, m', hm, hp, hi⟩ | ⟨hn, ho⟩
      · refine .inl ⟨j + 1, m', by simpa using hm, ?_, (indexOf_cache ..).mp hi⟩
        rw [hp]
        congr 1
        omega
      · by_cases hp : ucell p = (i : ℂ)
        · rw [if_pos hp] at ho
          refine .inl ⟨0, m, rfl, by simpa using hp, ?_⟩
          rw [ho]
          exact (assignValue_ok ..).mp hv
        · rw [if_neg hp] at ho
          refine .inr ⟨fun j hj => ?_, ho⟩
          cases j with
          | zero => simpa using hp
          | succ j =>
            have := hn j (by simpa using hj)
            intro h'
            apply this
            rw [h']
            congr 1
            omega

theorem putLoop_succeeds {ι : Type} {sp : SciPy} {disk : Res Table} {ucell : ι → ℂ} {wl : ℝ}
    {i : ℕ} {mats : List Material} {cache : Table} {res : ι → Option ℂ} :
    (∃ out, (putLoop sp disk ucell wl i mats cache res).2 = .ok out) ↔
      ∀ m ∈ mats, ∃ v, IndexOf sp disk cache wl m v := by
  induction mats generalizing i cache res with
  | nil => simp [putLoop]
  | cons m rest ih =>
    rw [putLoop]
    have hc : assignValue sp disk cache wl m =
      ((assignValue sp disk cache wl m).1, (assignValue sp disk cache wl m).2) := rfl
    cases hv : (assignValue sp disk cache wl m).2 with
    | error e =>
      rw [hv] at hc
      rw [hc]
      constructor
      · rintro ⟨out, h⟩; cases h
      · intro h
        obtain ⟨v, h⟩ := h m (by simp)
        rw [← assignValue_ok, hv] at h
        cases h
    | ok v =>
      rw [hv] at hc
      rw [hc]
      refine (ih (cache := (assignValue sp disk cache wl m).1)).trans ?_
      simp only [indexOf_cache, List.mem_cons, forall_eq_or_imp, iff_and_self]
      intro _
      exact ⟨v, (assignValue_ok ..).mp hv⟩

theorem indexOf_unique {sp : SciPy} {disk : Res Table} {cache : Table} {wl : ℝ} {m : Material}
    {v v' : Option ℂ} (h : IndexOf sp disk cache wl m v) (h' : IndexOf sp disk cache wl m v') :
    v = v' := by
  rw [← assignValue_ok] at h h'
  rw [h] at h'
  cases h'
  rfl

end Meent
