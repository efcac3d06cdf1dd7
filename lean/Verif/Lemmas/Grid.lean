import Verif.Spec.Grid
import Mathlib.Tactic.Linarith
import Mathlib.Tactic.Positivity
import Mathlib.Tactic.NormNum

/-!
# Vector grids (helper lemmas)
-/

set_option linter.unusedSimpArgs false
set_option linter.unusedVariables false

namespace Meent

open Spec

/-! ### Binary search -/

theorem any_lt {o : Option ℝ} {v : ℝ} {d : ∀ w : ℝ, Decidable (w < v)} :
    o.any (fun w => @decide (w < v) (d w)) = true ↔ ∃ w, o = some w ∧ w < v := by
  cases o <;> simp

theorem bisect_le (a : List ℝ) (v : ℝ) (k : ℕ)
    (h : ∀ i w, k ≤ i → a[i]? = some w → ¬ w < v) (lo hi : ℕ) (hlo : lo ≤ k) :
    bisectLeft a v lo hi ≤ k := by
  induction lo, hi using bisectLeft.induct (a := a) (x := v) with
  | case1 lo hi hlt mid hm ih =>
    rw [bisectLeft, dif_pos hlt]
    simp only [mid] at hm ih
    rw [if_pos hm]
    apply ih
    by_contra hc
    obtain ⟨w, hw, hv⟩ := any_lt.mp hm
    exact h _ w (by omega) hw hv
  | case2 lo hi hlt mid hm ih =>
    rw [bisectLeft, dif_pos hlt]
    simp only [mid] at hm ih
    rw [if_neg hm]
    exact ih hlo
  | case3 lo hi hlt =>
    rw [bisectLeft, dif_neg hlt]
    exact hlo

theorem le_bisect (a : List ℝ) (v : ℝ) (k : ℕ)
    (h : ∀ i, i < k → ∃ w, a[i]? = some w ∧ w < v) (lo hi : ℕ) (hhi : k ≤ hi) :
    k ≤ bisectLeft a v lo hi := by
  induction lo, hi using bisectLeft.induct (a := a) (x := v) with
  | case1 lo hi hlt mid hm ih =>
    rw [bisectLeft, dif_pos hlt]
    simp only [mid] at hm ih
    rw [if_pos hm]
    exact ih hhi
  | case2 lo hi hlt mid hm ih =>
    rw [bisectLeft, dif_pos hlt]
    simp only [mid] at hm ih
    rw [if_neg hm]
    apply ih
    by_contra hc
    exact hm (any_lt.mpr (h _ (by omega)))
  | case3 lo hi hlt =>
    rw [bisectLeft, dif_neg hlt]
    omega

theorem bisect_le_hi (a : List ℝ) (v : ℝ) (lo hi : ℕ) (h : lo ≤ hi) :
    bisectLeft a v lo hi ≤ hi := by
  induction lo, hi using bisectLeft.induct (a := a) (x := v) with
  | case1 lo hi hlt mid hm ih =>
    rw [bisectLeft, dif_pos hlt]
    simp only [mid] at hm ih
    rw [if_pos hm]
    exact ih (by omega)
  | case2 lo hi hlt mid hm ih =>
    rw [bisectLeft, dif_pos hlt]
    simp only [mid] at hm ih
    rw [if_neg hm]
    exact (ih (by omega)).trans (by omega)
  | case3 lo hi hlt =>
    rw [bisectLeft, dif_neg hlt]
    exact h

/-- The position at which a coordinate is inserted. -/
noncomputable def pos (l : List ℝ) (v : ℝ) : ℕ := bisectLeft l v 0 l.length

theorem pos_le (l : List ℝ) (v : ℝ) : pos l v ≤ l.length := bisect_le_hi _ _ _ _ (by omega)

/-- The list is cut at `x`: smaller entries first, then larger ones. -/
def Cut (x : ℝ) (l : List ℝ) : Prop :=
  ∃ A B, l = A ++ B ∧ (∀ a ∈ A, a < x) ∧ ∀ b ∈ B, x < b

theorem pos_le_cut {A B : List ℝ} {v : ℝ} (hB : ∀ b ∈ B, ¬ b < v) :
    pos (A ++ B) v ≤ A.length := by
  apply bisect_le _ _ _ _ _ _ (by omega)
  intro i w hi hw
  rw [List.getElem?_append_right hi] at hw
  exact hB w (List.mem_of_getElem? hw)

theorem cut_le_pos {A B : List ℝ} {v : ℝ} (hA : ∀ a ∈ A, a < v) :
    A.length ≤ pos (A ++ B) v := by
  apply le_bisect _ _ _ _ _ _ (by simp)
  intro i hi
  refine ⟨A[i], ?_, hA _ (List.getElem_mem _)⟩
  rw [List.getElem?_append_left hi]
  simp

theorem insertIdx_left (A B : List ℝ) (k : ℕ) (w : ℝ) (h : k ≤ A.length) :
    (A ++ B).insertIdx k w = A.insertIdx k w ++ B := by
  induction A generalizing k with
  | nil =>
    have : k = 0 := by simpa using h
    subst this
    simp
  | cons a A ih =>
    cases k with
    | zero => simp
    | succ k => simp [ih k (by simpa using h)]

theorem insertIdx_right (A B : List ℝ) (k : ℕ) (w : ℝ) (h : A.length ≤ k) :
    (A ++ B).insertIdx k w = A ++ B.insertIdx (k - A.length) w := by
  induction A generalizing k with
  | nil => simp
  | cons a A ih =>
    cases k with
    | zero => simp at h
    | succ k => simp [ih k (by simpa using h)]

theorem mem_insertIdx' {l : List ℝ} {k : ℕ} {w a : ℝ} (h : a ∈ l.insertIdx k w) :
    a = w ∨ a ∈ l := by
  by_cases hk : k ≤ l.length
  · exact (List.mem_insertIdx hk).mp h
  · rw [List.insertIdx_of_length_lt (by omega)] at h
    exact .inr h

/-- Inserting a coordinate near `v` at the place found for `v` keeps the list cut at `x`, when `v`
and the inserted coordinate are on the same side of `x`. -/
theorem cut_insert {x v w : ℝ} {l : List ℝ} (h : Cut x l) (hs : (v < x ∧ w < x) ∨ (x < v ∧ x < w)) :
    Cut x (l.insertIdx (pos l v) w) := by
  obtain ⟨A, B, rfl, hA, hB⟩ := h
  rcases hs with ⟨hv, hw⟩ | ⟨hv, hw⟩
  · have hp : pos (A ++ B) v ≤ A.length := pos_le_cut fun b hb => by linarith [hB b hb]
    refine ⟨_, B, insertIdx_left A B _ w hp, fun a ha => ?_, hB⟩
    rcases mem_insertIdx' ha with rfl | ha
    · exact hw
    · exact hA a ha
  · have hp : A.length ≤ pos (A ++ B) v := cut_le_pos fun a ha => by linarith [hA a ha]
    refine ⟨A, _, insertIdx_right A B _ w hp, hA, fun a ha => ?_⟩
    rcases mem_insertIdx' ha with rfl | ha
    · exact hw
    · exact hB a ha

/-! ### One insertion -/

theorem pertUnit_pos : 0 < pertUnit := by unfold pertUnit; positivity

/-- What an insertion does. -/
structure Ins (l : List ℝ) (p v : ℝ) (r : List ℝ × ℝ × ℝ) : Prop where
  list : r.1 = l.insertIdx (pos l v) r.2.2
  lo : p ≤ r.2.1
  hi : r.2.1 ≤ p + pertUnit
  near : |r.2.2 - v| ≤ max 1 |v| * r.2.1
  free : v ∉ l → r.2.1 = p ∧ r.2.2 = v
  sign : 0 < v → r.2.1 < 1 → 0 < r.2.2

theorem insertTop_ins (l : List ℝ) (p v : ℝ) (hp : 0 ≤ p) : Ins l p v (insertTop l p v) := by
  have hu := pertUnit_pos
  have h1 : (1 : ℝ) ≤ max 1 |v| := le_max_left _ _
  have h2 : |v| ≤ max 1 |v| := le_max_right _ _
  unfold insertTop
  simp only
  split_ifs with h hv
  · refine ⟨rfl, by simp; linarith, by simp, ?_, fun hn => absurd (List.mem_of_getElem? h) hn, ?_⟩
    · simp only
      rw [add_sub_cancel_left, abs_of_nonneg (by linarith)]
      nlinarith
    · intro h0; linarith
  · refine ⟨rfl, by simp; linarith, by simp, ?_, fun hn => absurd (List.mem_of_getElem? h) hn, ?_⟩
    · simp only
      rw [add_sub_cancel_left, abs_mul, abs_of_nonneg (a := p + pertUnit) (by linarith)]
      exact mul_le_mul_of_nonneg_right h2 (by linarith)
    · intro h0 _
      simp only
      have : 0 ≤ v * (p + pertUnit) := by apply mul_nonneg <;> linarith
      linarith
  · refine ⟨rfl, le_rfl, by simp; linarith, ?_, fun _ => ⟨rfl, rfl⟩, fun h _ => h⟩
    simp only [sub_self, abs_zero]
    apply mul_nonneg <;> linarith

theorem insertBot_ins (l : List ℝ) (p v : ℝ) (hp : 0 ≤ p) : Ins l p v (insertBot l p v) := by
  have hu := pertUnit_pos
  have h1 : (1 : ℝ) ≤ max 1 |v| := le_max_left _ _
  have h2 : |v| ≤ max 1 |v| := le_max_right _ _
  unfold insertBot
  simp only
  split_ifs with h
  · refine ⟨rfl, by simp; linarith, by simp, ?_, fun hn => absurd (List.mem_of_getElem? h) hn, ?_⟩
    · simp only
      rw [sub_sub_cancel_left, abs_neg, abs_mul, abs_of_nonneg (a := p + pertUnit) (by linarith)]
      exact mul_le_mul_of_nonneg_right h2 (by linarith)
    · intro h0 h3
      simp only at h3 ⊢
      nlinarith
  · refine ⟨rfl, le_rfl, by simp; linarith, ?_, fun _ => ⟨rfl, rfl⟩, fun h _ => h⟩
    simp only [sub_self, abs_zero]
    apply mul_nonneg <;> linarith

theorem Ins.mem {l : List ℝ} {p v : ℝ} {r : List ℝ × ℝ × ℝ} (h : Ins l p v r) (a : ℝ) :
    a ∈ r.1 ↔ a = r.2.2 ∨ a ∈ l := by
  rw [h.list, List.mem_insertIdx (pos_le l v)]

/-- `w` is a moved version of the edge `v`. -/
def Near (p v w : ℝ) : Prop := |w - v| ≤ max 1 |v| * p

theorem Near.mono {p q v w : ℝ} (h : Near p v w) (hpq : p ≤ q) : Near q v w := by
  unfold Near at *
  have h1 : (1 : ℝ) ≤ max 1 |v| := le_max_left _ _
  nlinarith

/-- The coordinate is out of reach of the moved versions of `v`. -/
def Far (p v x : ℝ) : Prop := max 1 |v| * p < |v - x|

theorem Far.anti {p q v x : ℝ} (h : Far q v x) (hpq : p ≤ q) : Far p v x := by
  unfold Far at *
  have h1 : (1 : ℝ) ≤ max 1 |v| := le_max_left _ _
  nlinarith

theorem same_side {p v w x : ℝ} (hn : Near p v w) (hf : Far p v x) :
    (v < x ∧ w < x) ∨ (x < v ∧ x < w) := by
  unfold Near at hn
  unfold Far at hf
  have h : |w - v| < |v - x| := lt_of_le_of_lt hn hf
  rcases lt_trichotomy v x with hv | rfl | hv
  · left
    rw [abs_of_neg (by linarith : v - x < 0)] at h
    have := le_abs_self (w - v)
    exact ⟨hv, by linarith⟩
  · rw [sub_self, abs_zero] at h
    exact absurd h (not_lt.mpr (abs_nonneg _))
  · right
    rw [abs_of_pos (by linarith : 0 < v - x)] at h
    have := neg_abs_le (w - v)
    exact ⟨hv, by linarith⟩

theorem Ins.cut {l : List ℝ} {p v x : ℝ} {r : List ℝ × ℝ × ℝ} (h : Ins l p v r)
    (hl : Cut x l) (hf : Far r.2.1 v x) : Cut x r.1 := by
  rw [h.list]
  exact cut_insert hl (same_side h.near hf)

/-! ### The gridding loop -/

/-- An object and the version of it that the loop leaves behind. -/
structure NearObj (p : ℝ) (o o' : VObj) : Prop where
  r0 : Near p o.r0 o'.r0
  r1 : Near p o.r1 o'.r1
  c0 : Near p o.c0 o'.c0
  c1 : Near p o.c1 o'.c1
  n : o'.n = o.n
  sr : 0 < o.r1 → p < 1 → 0 < o'.r1
  sc : 0 < o.c1 → p < 1 → 0 < o'.c1

theorem NearObj.mono {p q : ℝ} {o o' : VObj} (h : NearObj p o o') (hpq : p ≤ q) :
    NearObj q o o' :=
  ⟨h.r0.mono hpq, h.r1.mono hpq, h.c0.mono hpq, h.c1.mono hpq, h.n,
    fun h1 h2 => h.sr h1 (by linarith), fun h1 h2 => h.sc h1 (by linarith)⟩

structure GridInv (os : List VObj) (g : GridAcc) : Prop where
  nonneg : 0 ≤ g.pert
  bound : g.pert ≤ 4 * os.length * pertUnit
  near : List.Forall₂ (NearObj g.pert) os g.objs
  mrows : ∀ o ∈ g.objs, o.r0 ∈ g.rows ∧ o.r1 ∈ g.rows
  mcols : ∀ o ∈ g.objs, o.c0 ∈ g.cols ∧ o.c1 ∈ g.cols
  cutr : ∀ x, (∀ o ∈ os, Far g.pert o.r0 x ∧ Far g.pert o.r1 x) → Cut x g.rows
  cutc : ∀ x, (∀ o ∈ os, Far g.pert o.c0 x ∧ Far g.pert o.c1 x) → Cut x g.cols

theorem gridLayer_snoc (os : List VObj) (o : VObj) :
    gridLayer (os ++ [o]) = gridStep (gridLayer os) o := by
  unfold gridLayer
  rw [List.foldl_append]
  rfl

theorem gridInv (os : List VObj) : GridInv os (gridLayer os) := by
  induction os using List.reverseRecOn with
  | nil =>
    refine ⟨le_rfl, by simp [gridLayer], .nil, by simp [gridLayer], by simp [gridLayer], ?_, ?_⟩
    · intro x _; exact ⟨[], [], rfl, by simp, by simp⟩
    · intro x _; exact ⟨[], [], rfl, by simp, by simp⟩
  | append_singleton os o ih =>
    rw [gridLayer_snoc]
    set s := gridLayer os
    have ha := insertTop_ins s.rows s.pert o.r0 ih.nonneg
    unfold gridStep
    simp only
    set a := insertTop s.rows s.pert o.r0
    have ha0 : 0 ≤ a.2.1 := ih.nonneg.trans ha.lo
    have hb := insertBot_ins a.1 a.2.1 o.r1 ha0
    set b := insertBot a.1 a.2.1 o.r1
    have hb0 : 0 ≤ b.2.1 := ha0.trans hb.lo
    have hc := insertTop_ins s.cols b.2.1 o.c0 hb0
    set c := insertTop s.cols b.2.1 o.c0
    have hc0 : 0 ≤ c.2.1 := hb0.trans hc.lo
    have hd := insertBot_ins c.1 c.2.1 o.c1 hc0
    set d := insertBot c.1 c.2.1 o.c1
    have hd0 : 0 ≤ d.2.1 := hc0.trans hd.lo
    have had : a.2.1 ≤ d.2.1 := (hb.lo.trans hc.lo).trans hd.lo
    have hbd : b.2.1 ≤ d.2.1 := hc.lo.trans hd.lo
    have hsd : s.pert ≤ d.2.1 := ha.lo.trans had
    refine ⟨hd0, ?_, ?_, ?_, ?_, ?_, ?_⟩
    · have := ih.bound
      simp only [List.length_append, List.length_singleton, Nat.cast_add, Nat.cast_one]
      linarith [ha.hi, hb.hi, hc.hi, hd.hi]
    · simp only
      refine List.rel_append ?_ (.cons ?_ .nil)
      · exact ih.near.imp fun _ _ h => h.mono hsd
      · exact ⟨Near.mono ha.near had, Near.mono hb.near hbd, Near.mono hc.near hd.lo, hd.near, rfl,
          fun h1 h2 => hb.sign h1 (lt_of_le_of_lt hbd h2), fun h1 h2 => hd.sign h1 h2⟩
    · intro o' ho'
      simp only [List.mem_append, List.mem_singleton] at ho'
      simp only [hb.mem, ha.mem]
      rcases ho' with ho' | rfl
      · exact ⟨.inr (.inr (ih.mrows o' ho').1), .inr (.inr (ih.mrows o' ho').2)⟩
      · exact ⟨.inr (.inl rfl), .inl rfl⟩
    · intro o' ho'
      simp only [List.mem_append, List.mem_singleton] at ho'
      simp only [hd.mem, hc.mem]
      rcases ho' with ho' | rfl
      · exact ⟨.inr (.inr (ih.mcols o' ho').1), .inr (.inr (ih.mcols o' ho').2)⟩
      · exact ⟨.inr (.inl rfl), .inl rfl⟩
    · intro x hx
      simp only at hx ⊢
      have h0 : Cut x s.rows := ih.cutr x fun o' ho' =>
        ⟨(hx o' (by simp [ho'])).1.anti hsd, (hx o' (by simp [ho'])).2.anti hsd⟩
      have ho := hx o (by simp)
      exact hb.cut (ha.cut h0 (ho.1.anti had)) (ho.2.anti hbd)
    · intro x hx
      simp only at hx ⊢
      have h0 : Cut x s.cols := ih.cutc x fun o' ho' =>
        ⟨(hx o' (by simp [ho'])).1.anti hsd, (hx o' (by simp [ho'])).2.anti hsd⟩
      have ho := hx o (by simp)
      exact hd.cut (hc.cut h0 (ho.1.anti hd.lo)) ho.2

end Meent
