import Verif.Lemmas.Dispersion

/-!
# Header parsing (helper lemmas)
-/

set_option linter.unusedSimpArgs false

namespace Meent

open Spec

theorem readComments_takeWhile (lines : List Str) (d : List (Str × Str)) :
    readComments lines d =
      readComments (lines.takeWhile fun l => l.head? = some '#') d := by
  induction lines generalizing d with
  | nil => rfl
  | cons l lines ih =>
    by_cases h : l.head? = some '#'
    · obtain ⟨body, rfl⟩ : ∃ body, l = '#' :: body := by
        cases l with
        | nil => simp at h
        | cons c b => exact ⟨b, by simpa using h⟩
      rw [List.takeWhile_cons_of_pos (by simp), readComments, readComments, ih]
    · rw [List.takeWhile_cons_of_neg (by simpa using h)]
      unfold readComments
      split
      · simp at h
      · rfl

theorem takeWhile_colon {k : Str} (hk : ':' ∉ k) (v : Str) :
    (k ++ ':' :: v).takeWhile (· ≠ ':') = k ∧ ((k ++ ':' :: v).dropWhile (· ≠ ':')).drop 1 = v := by
  induction k with
  | nil => simp
  | cons c k ih =>
    have hc : c ≠ ':' := fun h => hk (by simp [h])
    have := ih (fun h => hk (by simp [h]))
    simp only [List.cons_append]
    rw [List.takeWhile_cons_of_pos (by simpa using hc), List.dropWhile_cons_of_pos (by simpa using hc)]
    exact ⟨by rw [this.1], this.2⟩

theorem takeWhile_noColon {k : Str} (hk : ':' ∉ k) :
    k.takeWhile (· ≠ ':') = k ∧ (k.dropWhile (· ≠ ':')).drop 1 = [] := by
  induction k with
  | nil => simp
  | cons c k ih =>
    have hc : c ≠ ':' := fun h => hk (by simp [h])
    have := ih (fun h => hk (by simp [h]))
    rw [List.takeWhile_cons_of_pos (by simpa using hc), List.dropWhile_cons_of_pos (by simpa using hc)]
    exact ⟨by rw [this.1], this.2⟩

theorem colon_cases (body : Str) :
    (∃ k v, body = k ++ ':' :: v ∧ ':' ∉ k) ∨ ':' ∉ body := by
  induction body with
  | nil => simp
  | cons c b ih =>
    by_cases hc : c = ':'
    · exact .inl ⟨[], b, by simp [hc], by simp⟩
    · rcases ih with ⟨k, v, rfl, hk⟩ | h
      · exact .inl ⟨c :: k, v, rfl, by simp [hk, Ne.symm hc]⟩
      · exact .inr (by simp [h, Ne.symm hc])

theorem readsAs_iff (body key value : Str) :
    ReadsAs ('#' :: body) key value ↔
      key = strip (body.takeWhile (· ≠ ':')) ∧
        value = strip ((body.dropWhile (· ≠ ':')).drop 1) := by
  constructor
  · rintro ⟨k, v, (⟨h, hk⟩ | ⟨h, hk, rfl⟩), rfl, rfl⟩
    · cases h
      rw [(takeWhile_colon hk v).1, (takeWhile_colon hk v).2]
      exact ⟨rfl, rfl⟩
    · cases h
      rw [(takeWhile_noColon hk).1, (takeWhile_noColon hk).2]
      exact ⟨rfl, rfl⟩
  · rintro ⟨rfl, rfl⟩
    rcases colon_cases body with ⟨k, v, rfl, hk⟩ | hb
    · rw [(takeWhile_colon hk v).1, (takeWhile_colon hk v).2]
      exact ⟨k, v, .inl ⟨rfl, hk⟩, rfl, rfl⟩
    · rw [(takeWhile_noColon hb).1, (takeWhile_noColon hb).2]
      exact ⟨body, [], .inr ⟨rfl, hb, rfl⟩, rfl, rfl⟩

theorem readComments_lookup (ls : List Str) (hls : ∀ l ∈ ls, l.head? = some '#')
    (d : List (Str × Str)) (key value : Str) :
    (readComments ls d).lookup key = some value ↔
      (∃ before line after, ls = before ++ line :: after ∧ ReadsAs line key value ∧
        ∀ l ∈ after, ∀ v, ¬ ReadsAs l key v) ∨
      ((∀ l ∈ ls, ∀ v, ¬ ReadsAs l key v) ∧ d.lookup key = some value) := by
  induction ls generalizing d with
  | nil => simp [readComments]
  | cons l ls ih =>
    obtain ⟨body, rfl⟩ : ∃ body, l = '#' :: body := by
      have h := hls l (by simp)
      cases l with
      | nil => simp at h
      | cons c b => exact ⟨b, by simpa using h⟩
    rw [readComments, ih (fun l hl => hls l (by simp [hl])), List.lookup_cons]
    constructor
    · rintro (⟨b, x, a, rfl, hx, ha⟩ | ⟨hn, hl⟩)
      · exact .inl ⟨_ :: b, x, a, rfl, hx, ha⟩
      · by_cases hk : key = strip (body.takeWhile (· ≠ ':'))
        · rw [hk] at hl
          simp only [beq_self_eq_true, Option.some.injEq] at hl
          refine .inl ⟨[], '#' :: body, ls, rfl, (readsAs_iff ..).mpr ⟨hk, hl.symm⟩, hn⟩
        · have : (key == strip (body.takeWhile (· ≠ ':'))) = false := by simpa using hk
          rw [this] at hl
          refine .inr ⟨?_, hl⟩
          intro l' hl' v
          rcases List.mem_cons.mp hl' with rfl | hl'
          · rw [readsAs_iff]
            exact fun h => hk h.1
          · exact hn l' hl' v
    · rintro (⟨b, x, a, e, hx, ha⟩ | ⟨hn, hl⟩)
      · cases b with
        | nil =>
          simp only [List.nil_append, List.cons.injEq] at e
          obtain ⟨rfl, rfl⟩ := e
          rw [readsAs_iff] at hx
          refine .inr ⟨ha, ?_⟩
          rw [hx.1, hx.2]
          simp
        | cons y b =>
          simp only [List.cons_append, List.cons.injEq] at e
          exact .inl ⟨b, x, a, e.2, hx, ha⟩
      · refine .inr ⟨fun l' hl' => hn l' (by simp [hl']), ?_⟩
        have hk : key ≠ strip (body.takeWhile (· ≠ ':')) := fun hk =>
          hn _ (by simp) _ ((readsAs_iff ..).mpr ⟨hk, rfl⟩)
        have : (key == strip (body.takeWhile (· ≠ ':'))) = false := by simpa using hk
        rw [this]
        exact hl

theorem header_lookup (lines : List Str) (key value : Str) :
    (readComments (lines.drop 1) []).lookup key = some value ↔ HeaderValue lines key value := by
  rw [readComments_takeWhile, readComments_lookup _ (by
    intro l hl
    have := List.all_takeWhile (p := fun l : Str => decide (l.head? = some '#')) (l := lines.drop 1)
    simpa using List.all_eq_true.mp this l hl)]
  simp only [List.lookup_nil, reduceCtorEq, and_false, or_false]
  rfl

theorem header_lookup_none (lines : List Str) (key : Str) :
    (readComments (lines.drop 1) []).lookup key = none ↔ ¬ ∃ v, HeaderValue lines key v := by
  rw [← not_iff_not, not_not, ← Ne, Option.ne_none_iff_exists']
  simp only [header_lookup]

theorem headerValue_unique {lines : List Str} {key v v' : Str} (h : HeaderValue lines key v)
    (h' : HeaderValue lines key v') : v = v' := by
  rw [← header_lookup] at h h'
  rw [h] at h'
  cases h'
  rfl

/-! ### Splitting -/

theorem splitDash_hit (lo : Str) (hlo : ' ' ∉ lo) (r acc : Str) :
    splitDash (lo ++ ' ' :: '-' :: ' ' :: r) acc = (acc.reverse ++ lo) :: splitDash r [] := by
  induction lo generalizing acc with
  | nil => simp [splitDash]
  | cons c lo ih =>
    have hc : c ≠ ' ' := fun h => hlo (by simp [h])
    have : splitDash (c :: (lo ++ ' ' :: '-' :: ' ' :: r)) acc =
        splitDash (lo ++ ' ' :: '-' :: ' ' :: r) (c :: acc) := by
      rw [splitDash]
      rintro r' h
      exact absurd h hc
    rw [List.cons_append, this, ih (fun h => hlo (by simp [h]))]
    simp

theorem splitDash_miss (s : Str) (hs : ∀ a b, s ≠ a ++ ' ' :: '-' :: ' ' :: b) (acc : Str) :
    splitDash s acc = [acc.reverse ++ s] := by
  induction s generalizing acc with
  | nil => simp [splitDash]
  | cons c s ih =>
    have : splitDash (c :: s) acc = splitDash s (c :: acc) := by
      rw [splitDash]
      rintro r' h h2
      exact hs [] r' (by rw [h, h2]; rfl)
    rw [this, ih (fun a b e => hs (c :: a) b (by rw [e]; rfl))]
    simp

theorem splitWs_word {hi rest : Str} (hh : IsWord hi)
    (hr : rest = [] ∨ ∃ c r, rest = c :: r ∧ isSpace c = true) :
    ∃ tl, splitWs (hi ++ rest) = hi :: tl := by
  unfold splitWs
  rcases hr with rfl | ⟨c, r, rfl, hc⟩
  · rw [List.append_nil, List.splitOnP_eq_singleton (by
      intro x hx; simp [hh.2 x hx])]
    exact ⟨[], by simp [hh.1]⟩
  · rw [List.splitOnP_append_cons_of_forall_mem (by intro x hx; simp [hh.2 x hx]) _ (by simp [hc])]
    exact ⟨_, by rw [List.filter_cons_of_pos (by simpa using hh.1)]⟩

theorem notNone {pn : PyNum} {entry : List (Str × Str)} {c kind : Str}
    (h : (do
      let word ← getIdx (splitWs kind) 1
      let n ← orValueError (pn.toInt word)
      let s ← headerSpec pn entry c (.num n)
      Except.ok (some s)) = (Except.ok none : Res (Option FSpec))) : False := by
  cases h1 : getIdx (splitWs kind) 1 with
  | error e => rw [h1] at h; cases h
  | ok word =>
    rw [h1] at h
    cases h2 : orValueError (pn.toInt word) with
    | error e => simp only [bind, Except.bind, h2] at h; cases h
    | ok n =>
      cases h3 : headerSpec pn entry c (.num n) with
      | error e => simp only [bind, Except.bind, h2, h3] at h; cases h
      | ok s => simp only [bind, Except.bind, h2, h3] at h; cases h

theorem notNone' {pn : PyNum} {entry : List (Str × Str)} {c kind : Str}
    (h : (do
      let name ← afterFirstWord kind
      let s ← headerSpec pn entry c (.name name)
      Except.ok (some s)) = (Except.ok none : Res (Option FSpec))) : False := by
  cases h1 : afterFirstWord kind with
  | error e => rw [h1] at h; cases h
  | ok word =>
    cases h3 : headerSpec pn entry c (.name word) with
    | error e => simp only [bind, Except.bind, h1, h3] at h; cases h
    | ok s => simp only [bind, Except.bind, h1, h3] at h; cases h

theorem mapM_forall₂ {pn : PyNum} {l : List Str} {cs : List ℝ}
    (h : List.Forall₂ (fun v x => pn.toFloat v = some x) l cs) :
    (l.mapM fun v => orValueError (pn.toFloat v)) = .ok cs := by
  induction h with
  | nil => rfl
  | cons h _ ih =>
    rw [List.mapM_cons, h, ih]
    rfl

theorem space_isSpace : isSpace ' ' = true := by decide

theorem headerSpec_ok (pn : PyNum) {entry : List (Str × Str)} {coefs low high unit : Str}
    (hr : entry.lookup "range".toList = some (low ++ " - ".toList ++ high ++ unit))
    (hlow : IsWord low) (hhigh : IsWord high)
    (hunit : unit = [] ∨ ∃ c r, unit = c :: r ∧ isSpace c = true) (hdash : '-' ∉ unit)
    {cs : List ℝ} (hcs : List.Forall₂ (fun v x => pn.toFloat v = some x) (splitWs coefs) cs)
    {lo hi : ℝ} (hlo : pn.toFloat low = some lo) (hhi : pn.toFloat high = some hi)
    (name : FormulaKey) :
    headerSpec pn entry coefs name =
      .ok ⟨some name, some cs, some ((lo : EReal), (hi : EReal))⟩ := by
  have hsplit : splitDash (low ++ " - ".toList ++ high ++ unit) [] = [low, high ++ unit] := by
    have e : low ++ " - ".toList ++ high ++ unit = low ++ ' ' :: '-' :: ' ' :: (high ++ unit) := by
      simp
    rw [e, splitDash_hit low (fun h => by
      have := hlow.2 _ h
      rw [space_isSpace] at this
      cases this), splitDash_miss]
    · simp
    · intro a b e
      -- the blank lies in `unit`, and so does the dash after it
      rcases List.append_eq_append_iff.mp e with ⟨c, h1, h2⟩ | ⟨c, h1, h2⟩
      · exact hdash (by rw [h2]; simp)
      · cases c with
        | nil =>
          simp only [List.nil_append] at h2
          exact hdash (by rw [← h2]; simp)
        | cons x c =>
          simp only [List.cons_append, List.cons.injEq] at h2
          have : ' ' ∈ high := by rw [h1, ← h2.1]; simp
          have := hhigh.2 _ this
          rw [space_isSpace] at this
          cases this
  obtain ⟨tl, htl⟩ := splitWs_word hhigh hunit
  unfold headerSpec
  rw [hr]
  simp only
  rw [hsplit]
  rw [mapM_forall₂ hcs]
  simp only
  rw [htl, hlo]
  change (do
    let hi ← orValueError (pn.toFloat high)
    Except.ok (FSpec.mk (some name) (some cs) (some ((lo : EReal), (hi : EReal))))) = _
  rw [hhi]
  rfl

theorem splitWs_formula {word : Str} (hw : IsWord word) :
    splitWs ("formula ".toList ++ word) = ["formula".toList, word] := by
  have e : "formula ".toList ++ word = "formula".toList ++ ' ' :: word := by simp
  unfold splitWs
  rw [e, List.splitOnP_append_cons_of_forall_mem (by decide) _ (by decide),
    List.splitOnP_eq_singleton (by intro x hx; simp [hw.2 x hx])]
  simp [hw.1]

theorem dropWhile_word {word : Str} (hw : IsWord word) : word.dropWhile isSpace = word := by
  cases word with
  | nil => rfl
  | cons c w => rw [List.dropWhile_cons_of_neg (by simp [hw.2 c])]

theorem strip_word {word : Str} (hw : IsWord word) : strip word = word := by
  have hr : IsWord word.reverse := ⟨by simpa using hw.1, fun c hc => hw.2 c (by simpa using hc)⟩
  unfold strip
  rw [dropWhile_word hw, dropWhile_word hr, List.reverse_reverse]

theorem afterFirstWord_model {word : Str} (hw : IsWord word) :
    afterFirstWord ("model ".toList ++ word) = .ok word := by
  have e : ((("model ".toList ++ word).dropWhile isSpace).dropWhile
      (fun c => !isSpace c)).dropWhile isSpace = word.dropWhile isSpace := by
    rfl
  unfold afterFirstWord
  simp only
  rw [e, dropWhile_word hw, if_neg hw.1, strip_word hw]

end Meent
