import Verif.Lemmas.Substitution
import Verif.Lemmas.Dispersion
import Verif.Lemmas.MaterialFiles
import Verif.Spec.Pipeline
import Verif.Props.C32

/-!
# Indices of materials
-/

set_option linter.unusedSectionVars false
set_option linter.unusedVariables false

namespace Meent

open Spec

private theorem bind_csqrt {o : Option ℂ} {f : ℂ → ℂ} {z : ℂ} (h : (o.bind fun e => some (csqrt (f e))) = some z) : 0 ≤ z.re := by
  cases o with
  | none => cases h
  | some e =>
    cases h
    exact csqrt_re_nonneg _

private theorem ev_re {sp : SciPy} {p s d : ℝ} {osc : List (ℝ × ℝ × ℝ × ℝ)} {wl : ℝ} {z : ℂ} (h : bbEvAt sp p s d osc wl = some z) :
    0 ≤ z.re := by
  unfold bbEvAt at h
  split_ifs at h
  simp only [Option.bind_eq_bind] at h
  cases hdr : cdiv ((s * p ^ 2 : ℝ) : ℂ) (((1e-2 / wl / wavenumberPerEv : ℝ) : ℂ) * (((1e-2 / wl / wavenumberPerEv : ℝ) : ℂ) + Complex.I * d)) with
  | none => rw [hdr] at h; cases h
  | some dr =>
    rw [hdr] at h
    exact bind_csqrt (f := fun e => e) h

private theorem real_re {x : ℝ} {z : ℂ} (h : (realSqrt x).map (fun n : ℝ => (n : ℂ)) = some z) : 0 ≤ z.re := by
  unfold realSqrt at h
  split_ifs at h
  · cases h
  · simp only [Option.map_some, Option.some.injEq] at h
    rw [← h]
    exact Real.sqrt_nonneg x

private theorem cm_re {sp : SciPy} {e : ℝ} {osc : List (ℝ × ℝ × ℝ × ℝ)} {wl : ℝ} {z : ℂ} (h : bbCmAt sp e osc wl = some z) :
    0 ≤ z.re := by
  unfold bbCmAt at h
  split_ifs at h
  · exact real_re h
  · simp only [Option.bind_eq_bind] at h
    exact bind_csqrt (f := fun e => e) h

private theorem graphene_re {sp : SciPy} {f m t d wl : ℝ} {z : ℂ} (h : grapheneAt sp f m t d wl = some z) : 0 ≤ z.re := by
  unfold grapheneAt at h
  simp only [Option.bind_eq_bind] at h
  exact bind_csqrt (f := fun e => 1 + e) h

private theorem sellmeier_re {pole : ℝ → ℝ} {cs wl : List ℝ} {r : List (Option ℂ)} (h : sellmeier pole cs wl = .ok r) (z : ℂ)
    (hz : some z ∈ r) : 0 ≤ z.re := by
  rcases Nat.mod_two_eq_zero_or_one cs.length with he | ho
  · rw [sellmeier_even pole cs wl he] at h
    cases h
  · obtain ⟨c0, terms, rfl⟩ := coefficients_odd cs ho
    rw [sellmeier_value] at h
    cases h
    obtain ⟨w, -, hw⟩ := List.mem_map.mp hz
    unfold sellmeierIndex at hw
    split_ifs at hw
    cases hw
    simp

/-- No closed form returns a negative real part. -/
theorem evaluate_re {sp : SciPy} {f : FSpec} {wl : List ℝ} {r : List (Option ℂ)} (h : evaluate sp f wl = .ok r) (z : ℂ)
    (hz : some z ∈ r) : 0 ≤ z.re := by
  unfold evaluate at h
  split at h
  · cases h
  split at h
  · cases h
  rename_i key _ formula hf
  split at h
  · cases h
  rename_i cs _
  unfold FORMULAS at hf
  split at hf
  · split_ifs at hf
    · cases hf; exact sellmeier_re h z hz
    · cases hf; exact sellmeier_re h z hz
  · split_ifs at hf
    · cases hf
      unfold model_brendel_bormann_ev at h
      split at h
      · obtain ⟨osc, ho, h⟩ := Except.bind_ok.mp h
        cases h
        obtain ⟨w, -, hw⟩ := List.mem_map.mp hz
        exact ev_re hw
      · cases h
    · cases hf
      unfold model_brendel_bormann_cm at h
      split at h
      · cases h
      · obtain ⟨osc, ho, h⟩ := Except.bind_ok.mp h
        cases h
        obtain ⟨w, -, hw⟩ := List.mem_map.mp hz
        exact cm_re hw
    · cases hf
      unfold model_graphene_falkovsky at h
      split at h
      · split_ifs at h
        cases h
        obtain ⟨w, -, hw⟩ := List.mem_map.mp hz
        exact graphene_re hw
      · cases h

/-- The index of a closed form has a non-negative real part; with `__real` it is real. -/
theorem form_index {sp : SciPy} {m : MatArg} {t : Table} {f : FSpec} {b : Bool} {wl : ℝ} {z : ℂ} (hd : Denotes t m (.spec f) b)
    (h : (find_nk_index sp m t [wl]).value = .ok [some z]) : 0 ≤ z.re ∧ (b = true → z.im = 0) := by
  have h' := find_spec hd h
  simp only [indexOf] at h'
  obtain ⟨n, hn, h'⟩ := Except.bind_ok.mp h'
  cases b with
  | true =>
    simp only [if_true, Except.ok.injEq] at h'
    have hm : some z ∈ n.map (Option.map fun z => ((z.re : ℝ) : ℂ)) := by rw [h']; simp
    obtain ⟨o, ho, e⟩ := List.mem_map.mp hm
    obtain ⟨y, rfl, rfl⟩ := Option.map_eq_some_iff.mp e
    exact ⟨by simpa using evaluate_re hn y ho, fun _ => by simp⟩
  | false =>
    simp only [Bool.false_eq_true, if_false, Except.ok.injEq] at h'
    have hm : some z ∈ n.map (Option.map fun z => star z) := by rw [h']; simp
    obtain ⟨o, ho, e⟩ := List.mem_map.mp hm
    obtain ⟨y, rfl, rfl⟩ := Option.map_eq_some_iff.mp e
    exact ⟨by simpa using evaluate_re hn y ho, fun h => by cases h⟩

/-- The index of tabulated rows. -/
theorem rows_index {sp : SciPy} {m : MatArg} {t : Table} {rows : List (ℝ × ℝ × ℝ)} {b : Bool} {wl : ℝ} {z : ℂ}
    (hd : Denotes t m (.table rows) b) (hne : rows ≠ []) (ha : Ascending rows) (h : (find_nk_index sp m t [wl]).value = .ok [some z]) :
    ∃ n k : ℝ, Interpolates rows wl n k ∧ z.re = n ∧ z.im = if b then 0 else -k := by
  rw [find_of_denotes sp hd hne] at h
  obtain ⟨zs, h1, h2⟩ := indexOf_table sp hne ha [wl]
  cases h2 with
  | cons hz hr =>
    cases hr
    obtain ⟨n, k, hi, rfl⟩ := hz
    refine ⟨n, k, hi, ?_⟩
    cases b with
    | false =>
      rw [h1] at h
      cases h
      simp
    | true =>
      rw [indexOf_real, h1] at h
      cases h
      simp

theorem interpolates_nonpos {rows : List (ℝ × ℝ × ℝ)} {w n k : ℝ} (hk : ∀ r ∈ rows, r.2.2 ≤ 0) (h : Interpolates rows w n k) : k ≤ 0 := by
  cases h with
  | exact n k before after h hl => exact hk (w, n, k) (by rw [h]; simp)
  | between a b h h₀ h₁ =>
    obtain ⟨l, r, rfl⟩ := h
    exact le_trans (onLine_between h₀ h₁).2 (max_le (hk a (by simp)) (hk b (by simp)))
  | below a rest h h₀ => exact hk a (by simp [h])
  | above a before h h₀ => exact hk a (by simp [h])

theorem inUse_unique {disk : Res Table} {cache t t' : Table} (h : InUse disk cache t) (h' : InUse disk cache t') : t = t' := by
  rcases h with ⟨h1, rfl⟩ | ⟨h1, h2⟩ <;> rcases h' with ⟨h3, rfl⟩ | ⟨h3, h4⟩
  · rfl
  · exact absurd h3 h1
  · exact absurd h1 h3
  · rw [h2] at h4; cases h4; rfl

theorem safe_index {sp : SciPy} (hw : IsFaddeeva sp.wofz) {disk : Res Table} {cache : Table} {wl : ℝ} (hwl : 0 < wl) {m : Material}
    (hm : SafeMaterial disk cache m) {z : ℂ} (h : IndexOf sp disk cache wl m (some z)) : PassiveMedium z := by
  have hpos : ∀ w ∈ [wl], 0 < w := by simpa using hwl
  cases hm with
  | value y hy => cases h; exact hy
  | form f hf =>
    have hd : Denotes [] (.spec f) (.spec f) false := .spec f
    exact ⟨(form_index hd h).1, C32_no_gain_partial sp hw [] _ f false hd hf [wl] hpos _ h z (by simp)⟩
  | fitted s t f b hu hd hf =>
    obtain ⟨t', hu', h⟩ := h
    obtain rfl := inUse_unique hu hu'
    exact ⟨(form_index hd h).1, C32_no_gain_partial sp hw t _ f b hd hf [wl] hpos _ h z (by simp)⟩
  | tabulated s t rows b hu hd hr =>
    obtain ⟨t', hu', h⟩ := h
    obtain rfl := inUse_unique hu hu'
    obtain ⟨n, k, hi, e1, e2⟩ := rows_index hd hr.some_row hr.ascending h
    refine ⟨by rw [e1]; exact interpolates_nonneg_n hr.n_nonneg hi, ?_⟩
    have := interpolates_nonneg hr.k_nonneg hi
    rw [e2]; split_ifs <;> linarith

private theorem sellmeier_im {sp : SciPy} {m : MatArg} {t : Table} {n : ℤ} {cs : Option (List ℝ)} {range : Option (EReal × EReal)} {b : Bool}
    {wl : ℝ} {z : ℂ} (hn : n = 1 ∨ n = 2) (hd : Denotes t m (.spec ⟨some (.num n), cs, range⟩) b)
    (h : (find_nk_index sp m t [wl]).value = .ok [some z]) : z.im = 0 := by
  cases b with
  | true => exact (form_index hd h).2 rfl
  | false =>
    have h' := find_spec hd h
    simp only [indexOf] at h'
    obtain ⟨r, hr, h'⟩ := Except.bind_ok.mp h'
    simp only [Bool.false_eq_true, if_false, Except.ok.injEq] at h'
    have hm : some z ∈ r.map (Option.map fun z => star z) := by rw [h']; simp
    obtain ⟨o, ho, e⟩ := List.mem_map.mp hm
    obtain ⟨y, rfl, rfl⟩ := Option.map_eq_some_iff.mp e
    have : y.im = 0 := by
      rcases hn with rfl | rfl <;> cases cs with
      | none => cases hr
      | some cs => exact sellmeier_real hr y ho
    simp [this]

theorem clear_index {sp : SciPy} {disk : Res Table} {cache : Table} {wl : ℝ} {m : Material} (hm : ClearMaterial disk cache m) {z : ℂ}
    (h : IndexOf sp disk cache wl m (some z)) : 0 ≤ z.re ∧ z.im = 0 := by
  cases hm with
  | value y hy hy' => cases h; exact ⟨hy, hy'⟩
  | sellmeier n cs range hn =>
    have hd : Denotes [] (.spec ⟨some (.num n), cs, range⟩) (.spec ⟨some (.num n), cs, range⟩) false := .spec _
    exact ⟨(form_index hd h).1, sellmeier_im hn hd h⟩
  | fitted s t n cs range b hn hu hd =>
    obtain ⟨t', hu', h⟩ := h
    obtain rfl := inUse_unique hu hu'
    exact ⟨(form_index hd h).1, sellmeier_im hn hd h⟩
  | realForm s t f hu hd =>
    obtain ⟨t', hu', h⟩ := h
    obtain rfl := inUse_unique hu hu'
    exact ⟨(form_index hd h).1, (form_index hd h).2 rfl⟩
  | realRows s t rows hu hd hne ha hn =>
    obtain ⟨t', hu', h⟩ := h
    obtain rfl := inUse_unique hu hu'
    obtain ⟨n, k, hi, e1, e2⟩ := rows_index hd hne ha h
    exact ⟨by rw [e1]; exact interpolates_nonneg_n hn hi, by simpa using e2⟩

theorem flipped_index {sp : SciPy} {disk : Res Table} {cache : Table} {wl : ℝ} {m : Material} (hm : FlippedMaterial disk cache m) {z : ℂ}
    (h : IndexOf sp disk cache wl m (some z)) : GainMedium z := by
  cases hm with
  | clear m hm => exact ⟨(clear_index hm h).1, (clear_index hm h).2.ge⟩
  | tabulated s t rows b hu hd hr =>
    obtain ⟨t', hu', h⟩ := h
    obtain rfl := inUse_unique hu hu'
    obtain ⟨n, k, hi, e1, e2⟩ := rows_index hd hr.some_row hr.ascending h
    refine ⟨by rw [e1]; exact interpolates_nonneg_n hr.n_nonneg hi, ?_⟩
    have := interpolates_nonpos hr.k_nonpos hi
    rw [e2]; split_ifs <;> linarith

/-! ### Structures -/

section
variable {L ny nx : ℕ} {sp : SciPy} {disk : Res Table} {cache : Table} {wl : ℝ} {mats : List Material}
  {labels : Fin L × Fin ny × Fin nx → ℂ} {out : Fin L × Fin ny × Fin nx → Option ℂ} {s : Settings}

/-- A structure filled with materials is made of their indices, and of zeros. -/
theorem filled_made {P : ℂ → Prop} (h0 : P 0) (hP : ∀ m ∈ mats, ∀ z, IndexOf sp disk cache wl m (some z) → P z)
    (ho : (put_refractive_index_in_ucell sp disk cache labels mats wl).2 = .ok out) (hh : Holding s out) (hs : PlainStack s.p) :
    MadeOf P s := by
  obtain ⟨ls, hu, he⟩ := hh
  refine { hs.toRealIllumination with
    media := ?_
    geometry := fun l h => by rw [hu] at h; cases h
    thickness_nonneg := hs.thickness_nonneg
    n_bot_real := hs.n_bot_real
    n_bot_pos := hs.n_bot_pos }
  intro n hn
  unfold Occurs at hn
  rw [hu] at hn
  obtain ⟨l, hl, i, j, rfl⟩ := hn
  obtain ⟨k, rfl⟩ := (List.mem_ofFn' ls l).mp hl
  have e := he k i j
  rcases putLoop_ok ho (k, i, j) with ⟨q, m, hm, -, hi⟩ | ⟨-, h⟩
  · rw [e] at hi
    exact hP m (List.mem_of_getElem? hm) _ hi
  · rw [e] at h
    rw [Option.some.inj h]
    exact h0

theorem filled_shows {P : ℂ → Prop} (ho : (put_refractive_index_in_ucell sp disk cache labels mats wl).2 = .ok out) (hh : Holding s out)
    (hl : Labelled s labels mats sp disk cache wl P) : Shows s P := by
  obtain ⟨ls, hu, he⟩ := hh
  obtain ⟨hf, l, i, j, d, k, m, z, hd, hd0, hk, hm, hi, hz⟩ := hl
  refine ⟨l, d, hd, hd0, ?_⟩
  unfold LayerShows
  rw [hu]
  refine ⟨hf, ls l, ?_, i, j, ?_⟩
  · simp
  · rcases putLoop_ok ho (l, i, j) with ⟨q, m', hm', hp', hi'⟩ | ⟨hn, -⟩
    · rw [hk, zero_add, Nat.cast_inj] at hp'
      subst hp'
      rw [hm] at hm'
      cases hm'
      rw [he] at hi'
      have := indexOf_unique hi hi'
      cases this
      exact hz
    · obtain ⟨hlt, -⟩ := List.getElem?_eq_some_iff.mp hm
      exact absurd (by rw [hk, zero_add]) (hn k hlt)

end

end Meent
