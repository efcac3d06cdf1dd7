import Verif.Lemmas.Header

/-!
# C34: material file headers

A text file is a closed-form material exactly when its header carries a coefficients line and a
type starting with `formula` or `model`; otherwise it loads as a table.
-/

namespace Meent

open Spec

/-- **C34, which files are closed forms.** `parse_header` reports an ordinary table exactly when the
header does not describe a closed form.  (A closed form with a malformed header raises.) -/
theorem C34_closed_form (pn : PyNum) (lines : List Str) :
    parse_header pn lines = .ok none ↔ ¬ ClosedForm lines := by
  unfold parse_header ClosedForm
  simp only
  cases hc : (readComments (lines.drop 1) []).lookup "coefficients".toList with
  | none =>
    have := (header_lookup_none lines _).mp hc
    simp only [true_iff]
    exact fun h => this h.1
  | some c =>
    have hc' := (header_lookup lines _ _).mp hc
    have key : ((∃ kind, HeaderValue lines "type".toList kind ∧
        ((∃ r, kind = "formula".toList ++ r) ∨ ∃ r, kind = "model".toList ++ r))) ↔
        ("formula".toList.isPrefixOf
            (((readComments (lines.drop 1) []).lookup "type".toList).getD []) = true ∨
          "model".toList.isPrefixOf
            (((readComments (lines.drop 1) []).lookup "type".toList).getD []) = true) := by
      simp only [List.isPrefixOf_iff_prefix, List.IsPrefix]
      cases ht : (readComments (lines.drop 1) []).lookup "type".toList with
      | none =>
        have hn := (header_lookup_none lines _).mp ht
        constructor
        · rintro ⟨k, hk, -⟩
          exact absurd ⟨k, hk⟩ hn
        · rintro (⟨r, h⟩ | ⟨r, h⟩) <;> simp at h
      | some k =>
        have hk := (header_lookup lines _ _).mp ht
        simp only [Option.getD_some]
        constructor
        · rintro ⟨k', hk', h⟩
          rw [headerValue_unique hk hk']
          exact h.imp (fun ⟨r, e⟩ => ⟨r, e.symm⟩) (fun ⟨r, e⟩ => ⟨r, e.symm⟩)
        · intro h
          exact ⟨k, hk, h.imp (fun ⟨r, e⟩ => ⟨r, e.symm⟩) (fun ⟨r, e⟩ => ⟨r, e.symm⟩)⟩
    rw [key]
    simp only [show (∃ c, HeaderValue lines "coefficients".toList c) from ⟨c, hc'⟩, true_and]
    generalize ((readComments (lines.drop 1) []).lookup "type".toList).getD [] = kind
    by_cases h1 : "formula".toList.isPrefixOf kind = true
    · rw [if_pos h1]
      simp only [h1, true_or, not_true_eq_false, iff_false]
      exact fun h => notNone h
    · rw [if_neg h1]
      by_cases h2 : "model".toList.isPrefixOf kind = true
      · rw [if_pos h2]
        simp only [h2, or_true, not_true_eq_false, iff_false]
        exact fun h => notNone' h
      · rw [if_neg h2]
        exact ⟨fun _ => not_or.mpr ⟨h1, h2⟩, fun _ => rfl⟩

/-- **C34, loading.** Reading a text file stores its data rows exactly when the header is not that
of a closed form, and otherwise the parsed spec. -/
theorem C34_loading (pn : PyNum) (t t' : Table) (f : MatFile) (stem : Str)
    (hf : f.name = stem ++ ".txt".toList) (h : readFile pn t f = .ok t') :
    (¬ ClosedForm f.lines ∧ ∃ d, f.data = .ok d ∧ t' = Table.set t (upper stem) d) ∨
      (ClosedForm f.lines ∧ ∃ s, parse_header pn f.lines = .ok (some s) ∧
        t' = Table.set t (upper stem) (.spec s)) := by
  have hname : f.name = (stem ++ ['.']) ++ "txt".toList := by rw [hf]; simp
  have hkey : ∀ key, FileFor key f ↔ key = upper stem := by
    intro key
    rw [fileFor_key (.inl rfl) hname]
    have : f.name.length - 4 = stem.length := by rw [hf]; simp
    rw [this, hf, List.take_left]
  rcases readFile_ok h with ⟨k, d, hk, hd, rfl⟩ | ⟨hk, -⟩
  · have : k = upper stem := (hkey k).mp ((hk k).mpr rfl)
    subst this
    rcases hd with ⟨-, ⟨s, hs, rfl⟩ | ⟨hs, hdata⟩⟩ | ⟨⟨st, hm⟩, -⟩
    · refine .inr ⟨?_, s, hs, rfl⟩
      by_contra hn
      rw [(C34_closed_form pn f.lines).mpr hn] at hs
      cases hs
    · exact .inl ⟨(C34_closed_form pn f.lines).mp hs, d, hdata, rfl⟩
    · exact (txt_ne_mat (hname.symm.trans hm)).elim
  · exact absurd ((hkey _).mpr rfl) (hk _)

/-- **C34, end of the header.** Nothing after the first line that is not a comment matters. -/
theorem C34_stops (pn : PyNum) (first : Str) (comments : List Str) (line : Str)
    (hl : line.head? ≠ some '#') (rest rest' : List Str) :
    parse_header pn (first :: (comments ++ line :: rest)) =
      parse_header pn (first :: (comments ++ line :: rest')) := by
  have : ∀ r : List Str, readComments (comments ++ line :: r) [] =
      readComments ((comments ++ [line]).takeWhile fun l => l.head? = some '#') [] := by
    intro r
    rw [readComments_takeWhile]
    congr 1
    rw [List.takeWhile_append, List.takeWhile_append, List.takeWhile_cons_of_neg (by simpa using hl),
      List.takeWhile_cons_of_neg (by simpa using hl)]
  unfold parse_header
  simp only [List.drop_succ_cons, List.drop_zero, this]

/-- **C34, the values.** If the header gives `type: formula N` (or `type: model <name>`), a
coefficients line of numbers and `range: low - high unit`, where `low` and `high` are numbers that
may contain dashes themselves, the result is the spec with exactly those values. -/
theorem C34_values (pn : PyNum) (lines : List Str) (coefs low high unit : Str)
    (hc : HeaderValue lines "coefficients".toList coefs)
    (hr : HeaderValue lines "range".toList (low ++ " - ".toList ++ high ++ unit))
    (hlow : IsWord low) (hhigh : IsWord high)
    (hunit : unit = [] ∨ ∃ c r, unit = c :: r ∧ isSpace c = true) (hdash : '-' ∉ unit)
    (cs : List ℝ) (hcs : List.Forall₂ (fun v x => pn.toFloat v = some x) (splitWs coefs) cs)
    (lo hi : ℝ) (hlo : pn.toFloat low = some lo) (hhi : pn.toFloat high = some hi) :
    (∀ word n, IsWord word → pn.toInt word = some n →
      HeaderValue lines "type".toList ("formula ".toList ++ word) →
      parse_header pn lines = .ok (some ⟨some (.num n), some cs, some ((lo : EReal), (hi : EReal))⟩)) ∧
    (∀ word, IsWord word →
      HeaderValue lines "type".toList ("model ".toList ++ word) →
      parse_header pn lines =
        .ok (some ⟨some (.name word), some cs, some ((lo : EReal), (hi : EReal))⟩)) := by
  have hspec := fun name => headerSpec_ok pn
    (show (readComments (lines.drop 1) []).lookup "range".toList = some _ from
      (header_lookup ..).mpr hr) hlow hhigh hunit hdash hcs hlo hhi name
  constructor
  · intro word n hw hn ht
    unfold parse_header
    simp only [(header_lookup ..).mpr hc, (header_lookup ..).mpr ht, Option.getD_some]
    rw [if_pos (by rfl)]
    have h1 : getIdx (splitWs ("formula ".toList ++ word)) 1 = .ok word := by
      rw [splitWs_formula hw]
      rfl
    rw [h1]
    simp only [bind, Except.bind, hn, orValueError, hspec]
  · intro word hw ht
    unfold parse_header
    simp only [(header_lookup ..).mpr hc, (header_lookup ..).mpr ht, Option.getD_some]
    rw [if_neg (by simp [List.isPrefixOf]), if_pos (by rfl), afterFirstWord_model hw]
    simp only [bind, Except.bind, hspec]

/-- The header of a Sellmeier table with an exponent sign in its range meets the hypotheses. -/
example (pn : PyNum) (h1 : pn.toInt "1".toList = some 1)
    (h2 : pn.toFloat "0.5".toList = some 0.5) (h3 : pn.toFloat "2.1e-07".toList = some 2.1e-7)
    (h4 : pn.toFloat "6.7e-06".toList = some 6.7e-6) :
    parse_header pn ["Wavelength(m)\tn\tk".toList, "# type: formula 1".toList,
      "# coefficients: 0.5".toList, "# range: 2.1e-07 - 6.7e-06 m".toList] =
      .ok (some ⟨some (.num 1), some [0.5], some (((2.1e-7 : ℝ) : EReal), ((6.7e-6 : ℝ) : EReal))⟩) := by
  have hv : ∀ key value : Str, (readComments (["Wavelength(m)\tn\tk".toList,
      "# type: formula 1".toList, "# coefficients: 0.5".toList,
      "# range: 2.1e-07 - 6.7e-06 m".toList].drop 1) []).lookup key = some value →
      HeaderValue ["Wavelength(m)\tn\tk".toList, "# type: formula 1".toList,
        "# coefficients: 0.5".toList, "# range: 2.1e-07 - 6.7e-06 m".toList] key value :=
    fun key value h => (header_lookup _ _ _).mp h
  refine (C34_values pn _ "0.5".toList "2.1e-07".toList "6.7e-06".toList " m".toList
    (hv _ _ (by decide)) (hv _ _ (by decide)) ⟨by decide, by decide⟩ ⟨by decide, by decide⟩
    (.inr ⟨' ', ['m'], by decide, by decide⟩) (by decide) [0.5] ?_ _ _ h3 h4).1
    "1".toList 1 ⟨by decide, by decide⟩ h1 (hv _ _ (by decide))
  have : splitWs "0.5".toList = ["0.5".toList] := by decide
  rw [this]
  exact .cons h2 .nil

#print axioms C34_closed_form
#print axioms C34_loading
#print axioms C34_stops
#print axioms C34_values

end Meent
