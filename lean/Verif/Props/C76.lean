import Verif.Model.BackendMaterials
import Verif.Lemmas.MaterialFiles
import Verif.Props.C28

/-!
# C76: material lookups on the three backends

"Each backend carries its own copy of these two functions; they return the same values" (nk_data/README.md).
-/

namespace Meent

/-- Rows that `jnp.interp` can tell apart: they ascend; neighbours have the same wavelength or wavelengths more than `eps` apart; and if
the last two wavelengths are equal, so are the rows. -/
structure Spec.Resolved (eps : ℝ) (rows : List (ℝ × ℝ × ℝ)) : Prop where
  ascending : Spec.Ascending rows
  apart : ∀ a b, Spec.Neighbours rows a b → a.1 = b.1 ∨ eps < b.1 - a.1
  last : ∀ before a b, rows = before ++ [a, b] → a.1 = b.1 → a = b

/-! ### Interpolation -/

private theorem interpFrom_nil (a : ℝ × ℝ) (x : ℝ) : interpFrom a [] x = a.2 := rfl

private theorem interpFrom_split {x : ℝ} {a : ℝ × ℝ} {after : List (ℝ × ℝ)} (ha : a.1 ≤ x) : ∀ (p : ℝ × ℝ) (before : List (ℝ × ℝ)),
    (∀ q ∈ before, q.1 ≤ x) → interpFrom p (before ++ a :: after) x = interpFrom a after x
  | p, [], _ => by rw [List.nil_append, interpFrom, if_pos ha]
  | p, q :: before, h => by
      rw [List.cons_append, interpFrom, if_pos (h q (by simp))]
      exact interpFrom_split ha q before fun r hr => h r (by simp [hr])

private theorem countP_split {x : ℝ} {a : ℝ × ℝ} {before after : List (ℝ × ℝ)} (ha : a.1 ≤ x) (hb : ∀ q ∈ before, q.1 ≤ x)
    (hafter : ∀ q ∈ after, ¬ q.1 ≤ x) : (before ++ a :: after).countP (fun q => decide (q.1 ≤ x)) = before.length + 1 := by
  classical
  rw [List.countP_append, List.countP_cons, List.countP_eq_length.mpr (by simpa using hb), List.countP_eq_zero.mpr (by simpa using hafter)]
  simp [ha]

/-- Ascending points split at `x`. -/
private theorem split_at {pts : List (ℝ × ℝ)} (hs : pts.Pairwise fun a b => a.1 ≤ b.1) {x : ℝ} (hx : ∃ q ∈ pts, q.1 ≤ x) :
    ∃ before a after, pts = before ++ a :: after ∧ a.1 ≤ x ∧ (∀ q ∈ before, q.1 ≤ x) ∧ ∀ q ∈ after, ¬ q.1 ≤ x := by
  induction pts with
  | nil => simp at hx
  | cons p rest ih =>
    have hp : p.1 ≤ x := by
      obtain ⟨q, hq, h⟩ := hx
      rcases List.mem_cons.mp hq with rfl | hq
      · exact h
      · exact le_trans ((List.pairwise_cons.mp hs).1 q hq) h
    by_cases hr : ∃ q ∈ rest, q.1 ≤ x
    · obtain ⟨before, a, after, e, h1, h2, h3⟩ := ih (List.pairwise_cons.mp hs).2 hr
      refine ⟨p :: before, a, after, by rw [e]; rfl, h1, fun q hq => ?_, h3⟩
      rcases List.mem_cons.mp hq with rfl | hq
      · exact hp
      · exact h2 q hq
    · push Not at hr
      exact ⟨[], p, rest, rfl, hp, by simp, fun q hq => not_le.mpr (hr q hq)⟩

/-- The two interpolations agree on points that JAX can tell apart. -/
private theorem interp_eq {eps : ℝ} (he : 0 ≤ eps) {pts : List (ℝ × ℝ)} (hne : pts ≠ []) (hs : pts.Pairwise fun a b => a.1 ≤ b.1)
    (hap : ∀ before a b after, pts = before ++ a :: b :: after → a.1 = b.1 ∨ eps < b.1 - a.1)
    (hl : ∀ before a b, pts = before ++ [a, b] → a.1 = b.1 → a.2 = b.2) (x : ℝ) : Jax.interp eps pts x = npInterp pts x := by
  obtain ⟨p, rest, rfl⟩ := List.exists_cons_of_ne_nil hne
  unfold npInterp
  by_cases hx : x < p.1
  · simp only [Jax.interp, if_pos hx]
    have : ¬ (rest.getLastD p).1 < x := by
      rw [not_lt]
      refine le_trans hx.le ?_
      rcases List.eq_nil_or_concat rest with rfl | ⟨r, q, rfl⟩
      · simp
      · simpa using (List.pairwise_cons.mp hs).1 q (by simp)
    rw [if_neg this]
  · have hpx : p.1 ≤ x := not_lt.mp hx
    obtain ⟨before, a, after, e, h1, h2, h3⟩ := split_at hs ⟨p, by simp, hpx⟩
    have hnp : interpFrom p rest x = interpFrom a after x := by
      cases before with
      | nil => rw [List.nil_append, List.cons.injEq] at e; rw [e.1, e.2]
      | cons q before =>
        rw [List.cons_append, List.cons.injEq] at e
        rw [e.2]
        exact interpFrom_split h1 _ before fun r hr => h2 r (by simp [hr])
    have hc : (p :: rest).countP (fun q => decide (q.1 ≤ x)) = before.length + 1 := by
      rw [e]; exact countP_split h1 h2 h3
    have hlen : (p :: rest).length = before.length + 1 + after.length := by rw [e]; simp; omega
    simp only [Jax.interp, if_neg hx]
    rw [hnp, hc]
    cases after with
    | nil =>
      rw [interpFrom_nil]
      have hlast : rest.getLastD p = a := by
        have : (p :: rest).getLast? = some a := by rw [e]; simp
        rw [List.getLast?_cons] at this
        simpa [List.getLastD_eq_getLast?] using this
      rw [hlast]
      by_cases hax : a.1 < x
      · rw [if_pos hax]
      · rw [if_neg hax]
        have hax : a.1 = x := le_antisymm h1 (not_lt.mp hax)
        have hi : min (max (before.length + 1) 1) ((p :: rest).length - 1) = before.length := by
          rw [hlen]; simp
        rw [hi]
        congr 1
        rcases List.eq_nil_or_concat before with rfl | ⟨b', q, rfl⟩
        · obtain rfl : p = a := by simpa using congrArg (·.head?) e
          simp [he]
        · rw [List.concat_eq_append] at e h2 ⊢
          have g1 : (p :: rest).getD ((b' ++ [q]).length) p = a := by rw [e]; simp [List.getD]
          have g2 : (p :: rest).getD ((b' ++ [q]).length - 1) p = q := by rw [e]; simp [List.getD]
          rw [g1, g2]
          have e' : p :: rest = b' ++ [q, a] := by rw [e]; simp
          rcases hap b' q a [] e' with h | h
          · rw [hl b' q a e' h]
            split_ifs
            · rfl
            · simp
          · rw [if_neg (by rw [abs_of_pos (by linarith)]; linarith), ← hax, div_self (by linarith)]
            ring
    | cons b r =>
      rw [interpFrom, if_neg (h3 b (by simp))]
      have hb : x < b.1 := not_le.mp (h3 b (by simp))
      have hlast : ¬ (rest.getLastD p).1 < x := by
        have : ∃ q ∈ b :: r, (p :: rest).getLast? = some q := by
          rw [e]
          rcases List.eq_nil_or_concat r with rfl | ⟨r', q, rfl⟩
          · exact ⟨b, by simp, by simp⟩
          · exact ⟨q, by simp, by rw [List.concat_eq_append, ← List.cons_append, ← List.cons_append, ← List.append_assoc]; exact List.getLast?_concat⟩
        obtain ⟨q, hq, hq'⟩ := this
        have hlq : rest.getLastD p = q := by
          rw [List.getLast?_cons] at hq'
          simpa [List.getLastD_eq_getLast?] using hq'
        rw [hlq]
        exact not_lt.mpr (not_le.mp (h3 q hq)).le
      rw [if_neg hlast]
      have hi : min (max (before.length + 1) 1) ((p :: rest).length - 1) = before.length + 1 := by
        rw [hlen]; simp
      rw [hi]
      have g1 : (p :: rest).getD (before.length + 1) p = b := by rw [e]; simp [List.getD]
      have g2 : (p :: rest).getD (before.length + 1 - 1) p = a := by rw [e]; simp [List.getD]
      rw [g1, g2]
      congr 1
      rcases hap before a b r e with h | h
      · linarith
      · rw [if_neg (by rw [abs_of_pos (by linarith)]; linarith)]
        ring

/-! ### Lookups -/

/-- **C76, JAX.**  For closed forms, and for tables whose rows JAX can tell apart, the JAX lookup warns, fails and succeeds as NumPy's
does and returns the same numbers. -/
theorem C76_jax_partial (eps : ℝ) (he : 0 ≤ eps) (sp : SciPy) (m : MatArg) (t : Table) (wl : List ℝ)
    (hr : ∀ rows b, Spec.Denotes t m (.table rows) b → Spec.Resolved eps rows) :
    Jax.find_nk_index eps sp m t wl = find_nk_index sp m t wl := by
  unfold Jax.find_nk_index find_nk_index
  cases hs : selectMaterial m t with
  | error e => rfl
  | ok v =>
    obtain ⟨d, b⟩ := v
    simp only
    cases hw : warn_if_out_of_range d wl with
    | error e => rfl
    | ok w =>
      simp only [Lookup.mk.injEq, true_and]
      cases d with
      | flat => rfl
      | spec f => rfl
      | table rows =>
        have h := hr rows b ((selectMaterial_ok _ _ _ _).mp hs)
        cases hwl : wl with
        | nil =>
          simp only [Jax.indexOf, indexOf, List.mapM_nil]
        | cons w0 ws =>
          have hne : rows ≠ [] := by
            rintro rfl
            rw [hwl] at hw
            unfold warn_if_out_of_range at hw
            split at hw
            · cases hw
            · rename_i hn
              obtain ⟨lo, hlo⟩ : ∃ lo, (w0 :: ws).min? = some lo := ⟨_, List.min?_cons⟩
              obtain ⟨hi, hhi⟩ : ∃ hi, (w0 :: ws).max? = some hi := ⟨_, List.max?_cons⟩
              exact hn _ _ hlo hhi
          have key : ∀ g : ℝ × ℝ → ℝ, Jax.interp eps (rows.map fun r => (r.1, g r.2)) = npInterp (rows.map fun r => (r.1, g r.2)) := by
            intro g
            funext x
            have hpw : (rows.map fun r => (r.1, g r.2)).Pairwise fun a b => a.1 ≤ b.1 := by
              rw [List.pairwise_map]
              exact h.ascending
            refine interp_eq he (by simpa using hne) hpw ?_ ?_ x
            · intro before a b after e
              obtain ⟨l1, l2, e1, rfl, h2⟩ := List.map_eq_append_iff.mp e
              obtain ⟨a', l3, rfl, rfl, h3⟩ := List.map_eq_cons_iff.mp h2
              obtain ⟨b', l4, rfl, rfl, rfl⟩ := List.map_eq_cons_iff.mp h3
              exact h.apart a' b' ⟨l1, l4, e1⟩
            · intro before a b e hab
              obtain ⟨l1, l2, e1, rfl, h2⟩ := List.map_eq_append_iff.mp e
              obtain ⟨a', l3, rfl, rfl, h3⟩ := List.map_eq_cons_iff.mp h2
              obtain ⟨b', l4, rfl, rfl, h4⟩ := List.map_eq_cons_iff.mp h3
              obtain rfl := List.map_eq_nil_iff.mp h4
              rw [h.last l1 a' b' e1 hab]
          simp only [Jax.indexOf, indexOf, key (fun r => r.1), key (fun r => r.2)]

/-- **C76, PyTorch.**  The PyTorch lookup is NumPy's. -/
theorem C76_torch (sp : SciPy) (m : MatArg) (t : Table) (wl : List ℝ) : tFind_nk_index sp m t wl = find_nk_index sp m t wl := rfl

private theorem tAssign_eq (sp : SciPy) (disk : Res Table) (cache : Table) (wl : ℝ) (m : Material) :
    tAssignValue sp disk cache wl m = assignValue sp disk cache wl m := by
  cases m with
  | value z => rfl
  | lookup a => cases a <;> rfl

/-- **C76, substitution.**  PyTorch fills a ucell as NumPy does, with the same exceptions and the same table kept for later. -/
theorem C76_put_torch {ι : Type} (sp : SciPy) (disk : Res Table) (cache : Table) (labels : ι → ℂ) (mats : List Material) (wl : ℝ) :
    tPut_refractive_index_in_ucell sp disk cache labels mats wl = put_refractive_index_in_ucell sp disk cache labels mats wl := by
  unfold tPut_refractive_index_in_ucell put_refractive_index_in_ucell
  generalize (0 : ℕ) = i
  generalize (fun _ : ι => (some 0 : Option ℂ)) = res
  induction mats generalizing i cache res with
  | nil => rfl
  | cons m rest ih =>
    unfold tPutLoop putLoop
    rw [tAssign_eq]
    rcases assignValue sp disk cache wl m with ⟨c, e | v⟩
    · rfl
    · exact ih _ _ _

/-- **C76, substitution on JAX.**  The documented call fails on a JAX object, for any labels and materials. -/
theorem C76_put_jax_negation {ι : Type} (sp : SciPy) (disk : Res Table) (cache : Table) (labels : ι → ℂ) (mats : List Material) (wl : ℝ)
    (out : ι → Option ℂ) (_h : (put_refractive_index_in_ucell sp disk cache labels mats wl).2 = .ok out) :
    Jax.put_refractive_index_in_ucell labels mats wl ≠ .ok out := by
  intro h; cases h

/-- **C76, equal last wavelengths.**  Without the condition on the last two rows the claim fails: NumPy returns the last row, JAX the
one before. -/
theorem C76_last_negation : ¬ ∀ (eps : ℝ) (sp : SciPy) (m : MatArg) (t : Table) (wl : List ℝ), 0 ≤ eps →
    (∀ rows b, Spec.Denotes t m (.table rows) b → Spec.Ascending rows) → Jax.find_nk_index eps sp m t wl = find_nk_index sp m t wl := by
  intro h
  have hu : upper "x".toList = "X".toList := by decide
  have hd : Spec.Denotes [("X".toList, .table [(1, 2, 0), (1, 3, 0)])] (.name ("x".toList ++ "__real".toList)) (.table [(1, 2, 0), (1, 3, 0)]) true :=
    .real _ _ (by rw [hu]; exact List.lookup_cons_self)
  have hs := (selectMaterial_ok _ _ _ _).mpr hd
  have := h 0 ⟨fun z => z, fun _ _ => 0⟩ (.name ("x".toList ++ "__real".toList)) [("X".toList, .table [(1, 2, 0), (1, 3, 0)])] [1] le_rfl (by
    intro rows b hd'
    have := (selectMaterial_ok _ _ _ _).mpr hd'
    rw [hs] at this
    cases this
    simp [Spec.Ascending])
  obtain ⟨w, hw, -⟩ := warn_ok (d := .table [(1, 2, 0), (1, 3, 0)]) (by simp [Spec.HasRange]) [1]
  have e := congrArg Lookup.value this
  unfold Jax.find_nk_index find_nk_index at e
  rw [hs] at e
  simp only [hw] at e
  simp [Jax.indexOf, indexOf, Jax.interp, npInterp, interpFrom, List.getD, pure, Except.pure, bind, Except.bind] at e

/-- Non-vacuity: a table that lists a wavelength twice in the middle and has steps of a nanometre, with the `eps` of double precision. -/
example : Spec.Resolved 5e-32 [(1e-6, 2, 0), (1.001e-6, 2.5, 0), (1.001e-6, 3, 1), (1.002e-6, 3, 2)] where
  ascending := by
    simp only [Spec.Ascending, List.pairwise_cons, List.mem_cons, List.not_mem_nil, or_false, forall_eq_or_imp, forall_eq,
      IsEmpty.forall_iff, implies_true, List.Pairwise.nil, and_true]
    norm_num
  apart := by
    rintro a b ⟨before, after, e⟩
    rcases before with _ | ⟨x, _ | ⟨y, _ | ⟨z, _ | ⟨u, before⟩⟩⟩⟩ <;> simp at e
    · obtain ⟨rfl, rfl, -⟩ := e; right; norm_num
    · obtain ⟨-, rfl, rfl, -⟩ := e; left; rfl
    · obtain ⟨-, -, rfl, rfl, -⟩ := e; right; norm_num
  last := by
    intro before a b e
    rcases before with _ | ⟨x, _ | ⟨y, _ | ⟨z, _ | ⟨u, before⟩⟩⟩⟩ <;> simp at e
    · obtain ⟨-, -, rfl, rfl⟩ := e; norm_num

end Meent

#print axioms Meent.C76_jax_partial
#print axioms Meent.C76_torch
#print axioms Meent.C76_put_torch
#print axioms Meent.C76_put_jax_negation
#print axioms Meent.C76_last_negation
