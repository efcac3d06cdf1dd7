import Verif.Lemmas.Cfs

/-!
# Cell compression keeps the represented function (helper lemmas)
-/

open Matrix

namespace Meent

set_option linter.unusedSectionVars false
set_option linter.unusedSimpArgs false

/-- Regrouping pieces does not change the convolution matrix. -/
theorem genConv_group {Nx Ny Nx' Ny' : ℕ} {Lx : (Fin Nx → ℂ) → ℤ → ℂ} {Ly : (Fin Ny → ℂ) → ℤ → ℂ} {Lx' : (Fin Nx' → ℂ) → ℤ → ℂ}
    {Ly' : (Fin Ny' → ℂ) → ℤ → ℂ} {σx : Fin Nx' → Fin Nx} {σy : Fin Ny' → Fin Ny} (hsx : Function.Surjective σx)
    (hsy : Function.Surjective σy) (hLx : ∀ a m, Lx' (fun x => a (σx x)) m = Lx a m) (hLy : ∀ a m, Ly' (fun y => a (σy y)) m = Ly a m)
    {cell : Fin Nx → Fin Ny → ℂ} {cell' : Fin Nx' → Fin Ny' → ℂ} (hc : ∀ x y, cell' x y = cell (σx x) (σy y))
    (cx cy : Bool) (fx fy : ℕ) : genConv Lx' Ly' cx cy fx fy cell' = genConv Lx Ly cx cy fx fy cell := by
  have hcell : cell' = fun x y => cell (σx x) (σy y) := by funext x y; exact hc x y
  subst hcell
  have e1 : invRuleY cy (fun x y => cell (σx x) (σy y))
      = (invRuleY cy cell).map (fun c x y => c (σx x) (σy y)) := by
    unfold invRuleY
    split_ifs with h1 h2 h3 h3
    · rfl
    · rfl
    · exact absurd (fun x y => by
        obtain ⟨x', rfl⟩ := hsx x
        obtain ⟨y', rfl⟩ := hsy y
        exact h2 x' y') h3
    · exact absurd (fun x y => h3 (σx x) (σy y)) h2
    · rfl
  unfold genConv
  rw [e1]
  cases invRuleY cy cell with
  | error e => rfl
  | ok c =>
    simp only [Except.map, bind, Except.bind]
    have e2 : ∀ x, toepL Ly' fy (fun y => c (σx x) (σy y)) = toepL Ly fy (c (σx x)) := by
      intro x
      unfold toepL
      simp only [hLy (c (σx x))]
    have e3 : invIf (cx ^^ cy) (fun x => toepL Ly fy (c (σx x)))
        = (invIf (cx ^^ cy) (fun x => toepL Ly fy (c x))).map (fun a x => a (σx x)) := by
      unfold invIf npInvStack
      split_ifs with h1 h2 h3 h3
      · rfl
      · exact absurd (fun x => by obtain ⟨x', rfl⟩ := hsx x; exact h2 x') h3
      · exact absurd (fun x => h3 (σx x)) h2
      · rfl
      · rfl
    simp only [e2, e3]
    cases invIf (cx ^^ cy) (fun x => toepL Ly fy (c x)) with
    | error e => rfl
    | ok a =>
      simp only [Except.map]
      have e4 : btoepL Lx' fx (fun x => a (σx x)) = btoepL Lx fx a := by
        unfold btoepL
        ext r q
        simp only [of_apply]
        exact hLx (fun x => a x r.1 q.1) _
      rw [e4]

/-! ### Kept entries of a sorted list -/

theorem countP_lt_getElem {N : ℕ} : ∀ (l : List (Fin N)) (_ : l.Pairwise (· < ·)) (i : ℕ) (hi : i < l.length),
    l.countP (fun a => decide (a < l[i])) = i := by
  intro l
  induction l with
  | nil => intro _ i hi; simp at hi
  | cons b l ih =>
    intro hl i hi
    rw [List.pairwise_cons] at hl
    cases i with
    | zero =>
      rw [List.countP_eq_zero]
      intro a ha
      rcases List.mem_cons.mp ha with rfl | ha
      · simp
      · have := hl.1 a ha
        simp only [List.getElem_cons_zero, decide_eq_true_eq, not_lt]
        exact this.le
    | succ i =>
      simp only [List.getElem_cons_succ, List.countP_cons]
      have hi' : i < l.length := by simpa using hi
      rw [ih hl.2 i hi', if_pos]
      simp only [decide_eq_true_eq]
      exact hl.1 _ (List.getElem_mem hi')

section kept
variable {N : ℕ} [NeZero N] (P : Fin N → Prop) [DecidablePred P]

/-- Entries kept by a compression loop. -/
def keptList : List (Fin N) := (List.finRange N).filter fun j => decide (P j)

theorem keptList_sorted : (keptList P).Pairwise (· < ·) := (List.pairwise_lt_finRange N).filter _

theorem mem_keptList {j : Fin N} : j ∈ keptList P ↔ P j := by
  simp [keptList]

/-- Number of kept entries before `n`. -/
def keptBefore (n : ℕ) : ℕ := (keptList P).countP fun a => decide (a.val < n)

theorem keptBefore_le (n : ℕ) : keptBefore P n ≤ (keptList P).length := List.countP_le_length

theorem keptBefore_succ (j : Fin N) : keptBefore P (j.val + 1) = keptBefore P j.val + if P j then 1 else 0 := by
  unfold keptBefore
  have h1 : ∀ (l : List (Fin N)), l.countP (fun a => decide (a.val < j.val + 1))
      = l.countP (fun a => decide (a.val < j.val)) + l.count j := by
    intro l
    induction l with
    | nil => rfl
    | cons b l ih =>
      rw [List.countP_cons, List.countP_cons, List.count_cons, ih]
      have : b.val < j.val + 1 ↔ b.val < j.val ∨ b = j := by rw [Fin.ext_iff]; omega
      by_cases h : b = j
      · subst h; simp; ring
      · simp only [this, h, or_false, beq_iff_eq, if_false]; ring
  rw [h1]
  congr 1
  have hn : (keptList P).Nodup := (keptList_sorted P).imp (fun h => h.ne)
  by_cases hj : P j
  · rw [if_pos hj]; exact List.count_eq_one_of_mem hn ((mem_keptList P).mpr hj)
  · rw [if_neg hj]; exact List.count_eq_zero.mpr fun h => hj ((mem_keptList P).mp h)

theorem keptBefore_get (i : ℕ) (hi : i < (keptList P).length) : keptBefore P ((keptList P)[i]).val = i := by
  have := countP_lt_getElem (keptList P) (keptList_sorted P) i hi
  unfold keptBefore
  simpa only [Fin.lt_def] using this

variable (hlast : P (-1))
include hlast

theorem kept_pos : 0 < (keptList P).length := List.length_pos_of_mem ((mem_keptList P).mpr hlast)

theorem last_val : ((-1 : Fin N)).val = N - 1 := by
  obtain ⟨k, rfl⟩ : ∃ k, N = k + 1 := ⟨N - 1, by have := NeZero.pos N; omega⟩
  rw [Fin.neg_one_eq_last', Fin.val_last]; rfl

theorem keptBefore_N : keptBefore P N = (keptList P).length := by
  unfold keptBefore
  rw [List.countP_eq_length]
  intro a _
  simp

theorem keptBefore_mono {n n' : ℕ} (h : n ≤ n') : keptBefore P n ≤ keptBefore P n' := by
  unfold keptBefore
  refine List.countP_mono_left fun a _ ha => ?_
  simp only [decide_eq_true_eq] at ha ⊢
  omega

theorem keptBefore_lt (j : Fin N) : keptBefore P j.val < (keptList P).length := by
  have h1 := keptBefore_succ P (-1)
  rw [if_pos hlast, last_val P hlast] at h1
  have hN : N - 1 + 1 = N := by have := NeZero.pos N; omega
  rw [hN, keptBefore_N P hlast] at h1
  have h2 := keptBefore_mono P hlast (n := j.val) (n' := N - 1) (by have := j.isLt; omega)
  omega

/-- The piece a pixel belongs to. -/
def pieceOf (j : Fin N) : Fin (keptList P).length := ⟨keptBefore P j.val, keptBefore_lt P hlast j⟩

theorem add_one_val (j : Fin N) : (j + 1).val = if j.val = N - 1 then 0 else j.val + 1 := by
  obtain ⟨k, rfl⟩ : ∃ k, N = k + 1 := ⟨N - 1, by have := NeZero.pos N; omega⟩
  rw [Fin.val_add_one]
  simp only [Fin.ext_iff, Fin.val_last, Nat.add_sub_cancel]

theorem pieceOf_get (i : Fin (keptList P).length) : pieceOf P hlast ((keptList P).get i) = i :=
  Fin.ext (keptBefore_get P i.val i.isLt)

theorem pieceOf_surj : Function.Surjective (pieceOf P hlast) := fun i => ⟨_, pieceOf_get P hlast i⟩

theorem fin_add_one_val {k : ℕ} [NeZero k] (i : Fin k) : (i + 1).val = if i.val = k - 1 then 0 else i.val + 1 := by
  obtain ⟨k', rfl⟩ : ∃ k', k = k' + 1 := ⟨k - 1, by have := NeZero.pos k; omega⟩
  rw [Fin.val_add_one]
  simp only [Fin.ext_iff, Fin.val_last, Nat.add_sub_cancel]

theorem keptBefore_zero : keptBefore P 0 = 0 := by
  unfold keptBefore
  rw [List.countP_eq_zero]
  intro a _
  simp

theorem keptBefore_last : keptBefore P (N - 1) = (keptList P).length - 1 := by
  have h1 := keptBefore_succ P (-1)
  rw [if_pos hlast, last_val P hlast] at h1
  have hN : N - 1 + 1 = N := by have := NeZero.pos N; omega
  rw [hN, keptBefore_N P hlast] at h1
  omega

theorem pieceOf_succ (j : Fin N) (hj : P j) [NeZero (keptList P).length] :
    pieceOf P hlast (j + 1) = pieceOf P hlast j + 1 := by
  apply Fin.ext
  have hv : ∀ j, (pieceOf P hlast j).val = keptBefore P j.val := fun _ => rfl
  rw [fin_add_one_val P hlast, hv (j + 1), add_one_val P hlast]
  by_cases h : j.val = N - 1
  · rw [if_pos h, keptBefore_zero P hlast, if_pos (by rw [hv, h, keptBefore_last P hlast])]
  · rw [if_neg h, keptBefore_succ, if_pos hj, if_neg, hv]
    rw [hv]
    intro h2
    have h3 := keptBefore_lt P hlast (j + 1)
    rw [add_one_val P hlast, if_neg h, keptBefore_succ, if_pos hj] at h3
    omega

theorem pieceOf_skip (j : Fin N) (hj : ¬ P j) : pieceOf P hlast (j + 1) = pieceOf P hlast j := by
  apply Fin.ext
  have h : j.val ≠ N - 1 := by
    intro h
    apply hj
    have : j = -1 := Fin.ext (by rw [last_val P hlast, h])
    rw [this]; exact hlast
  simp only [pieceOf, add_one_val P hlast, if_neg h, keptBefore_succ, if_neg hj, add_zero]

theorem get_last [NeZero (keptList P).length] : (keptList P).get (-1) = -1 := by
  have hm := List.mem_iff_get.mp ((mem_keptList P).mpr hlast)
  obtain ⟨i, hi⟩ := hm
  have h1 := pieceOf_get P hlast i
  rw [hi] at h1
  have h2 : (pieceOf P hlast (-1)).val = (keptList P).length - 1 := by
    simp only [pieceOf, last_val P hlast, keptBefore_last P hlast]
  have h3 : i = -1 := by
    apply Fin.ext
    rw [← h1, h2]
    obtain ⟨k', hk⟩ : ∃ k', (keptList P).length = k' + 1 := ⟨(keptList P).length - 1, by have := kept_pos P hlast; omega⟩
    have : ∀ (k : ℕ) [NeZero k], k - 1 = ((-1 : Fin k)).val := by
      intro k _
      obtain ⟨k', rfl⟩ : ∃ k', k = k' + 1 := ⟨k - 1, by have := NeZero.pos k; omega⟩
      rw [Fin.neg_one_eq_last', Fin.val_last]; rfl
    exact this _
  rw [← h3, hi]

/-- A value that changes only at kept entries is the value at the end of the piece. -/
theorem piece_value {α : Type} (v : Fin N → α) (hv : ∀ j, ¬ P j → v j = v (j + 1)) (j : Fin N) :
    v j = v ((keptList P).get (pieceOf P hlast j)) := by
  have : ∀ (d : ℕ) (j : Fin N), N - 1 - j.val = d → v j = v ((keptList P).get (pieceOf P hlast j)) := by
    intro d
    induction d with
    | zero =>
      intro j hj
      have h : j = -1 := Fin.ext (by rw [last_val P hlast]; have := j.isLt; omega)
      subst h
      obtain ⟨i, hi⟩ := List.mem_iff_get.mp ((mem_keptList P).mpr hlast)
      conv_rhs => rw [← hi, pieceOf_get, hi]
    | succ d ih =>
      intro j hj
      by_cases h : P j
      · obtain ⟨i, hi⟩ := List.mem_iff_get.mp ((mem_keptList P).mpr h)
        conv_rhs => rw [← hi, pieceOf_get, hi]
      · have hne : j.val ≠ N - 1 := by omega
        rw [hv j h, ih (j + 1) (by rw [add_one_val P hlast, if_neg hne]; omega), pieceOf_skip P hlast j h]
  exact this _ j rfl

/-- Compressing pixels keeps the Fourier coefficients. -/
theorem cfsC_kept [NeZero (keptList P).length] (x : Fin N → ℝ) (p : ℝ) (a : Fin (keptList P).length → ℂ) (m : ℤ) :
    cfsC x p (fun j => a (pieceOf P hlast j)) m = cfsC (fun i => x ((keptList P).get i)) p a m := by
  refine cfsC_group (pieceOf P hlast) (fun i => (keptList P).get i) ?_ (fun _ => rfl) (pieceOf_get P hlast) ?_ ?_
    (get_last P hlast) p a m
  · intro i i' h
    have := congrArg (pieceOf P hlast) h
    rwa [pieceOf_get, pieceOf_get] at this
  · intro i
    rw [pieceOf_succ P hlast _ ((mem_keptList P).mp (List.get_mem _ _)), pieceOf_get]
  · intro j hj
    refine pieceOf_skip P hlast j fun h => hj ?_
    obtain ⟨i, hi⟩ := List.mem_iff_get.mp ((mem_keptList P).mpr h)
    exact ⟨i, hi⟩

end kept

/-- Right edges of `N` equal pixels on the unit interval. -/
noncomputable def pixEdge (N : ℕ) (j : Fin N) : ℝ := 1 / (N : ℝ) * (j.val + 1 : ℕ)

/-- Coefficient functional on pixels. -/
noncomputable def pixL (N : ℕ) [NeZero N] : (Fin N → ℂ) → ℤ → ℂ := cfsC (pixEdge N) (pixEdge N (-1))

theorem cycNext_eq {N : ℕ} [NeZero N] (i : Fin N) : cycNext i = i + 1 := by
  apply Fin.ext
  rw [Fin.val_add, Fin.val_one']
  simp [cycNext]

/-- The compressed cell has the convolution matrices of the pixels. -/
theorem assembled_conv (d : Raster) [NeZero d.ny] [NeZero d.nx] :
    ∃ v, assembleCell d (keptRows d (keptCols d)) (keptCols d) = .ok v ∧ ∀ (cx cy : Bool) (fx fy : ℕ),
      cfs2d v.sq cx cy fx fy = genConv (pixL d.nx) (pixL d.ny) cx cy fx fy (fun x y => (d.val y x) ^ 2) := by
  classical
  let Pc : Fin d.nx → Prop := fun j => ¬ (∀ i, d.val i j = d.val i (cycNext j)) ∨ j.val = d.nx - 1
  have hPc : Pc (-1) := Or.inr (by
    obtain ⟨k, hk⟩ : ∃ k, d.nx = k + 1 := ⟨d.nx - 1, by have := NeZero.pos d.nx; omega⟩
    have : ∀ (k : ℕ) [NeZero k], ((-1 : Fin k)).val = k - 1 := by
      intro k _
      obtain ⟨k', rfl⟩ : ∃ k', k = k' + 1 := ⟨k - 1, by have := NeZero.pos k; omega⟩
      rw [Fin.neg_one_eq_last', Fin.val_last]; rfl
    exact this _)
  let Pr : Fin d.ny → Prop := fun i => ¬ (∀ j ∈ keptList Pc, d.val i j = d.val (cycNext i) j) ∨ i.val = d.ny - 1
  have hPr : Pr (-1) := Or.inr (by
    have : ∀ (k : ℕ) [NeZero k], ((-1 : Fin k)).val = k - 1 := by
      intro k _
      obtain ⟨k', rfl⟩ : ∃ k', k = k' + 1 := ⟨k - 1, by have := NeZero.pos k; omega⟩
      rw [Fin.neg_one_eq_last', Fin.val_last]; rfl
    exact this _)
  have hcols : keptCols d = keptList Pc := by
    unfold keptCols keptList
    congr 1
  have hrows : keptRows d (keptList Pc) = keptList Pr := by
    unfold keptRows keptList
    congr 1
  have hx := kept_pos Pc hPc
  have hy := kept_pos Pr hPr
  have : NeZero (keptList Pc).length := ⟨hx.ne'⟩
  have : NeZero (keptList Pr).length := ⟨hy.ne'⟩
  refine ⟨_, by
    rw [hcols, hrows, assembleCell, dif_pos ⟨hy.ne', hx.ne'⟩], ?_⟩
  intro cx cy fx fy
  rw [cfs2d_gen]
  symm
  refine genConv_group (pieceOf_surj Pc hPc) (pieceOf_surj Pr hPr) ?_ ?_ ?_ cx cy fx fy
  · intro a m
    unfold pixL
    rw [cfsC_kept Pc hPc, ← get_last Pc hPc]
    rfl
  · intro a m
    unfold pixL
    rw [cfsC_kept Pr hPr, ← get_last Pr hPr]
    rfl
  · intro x y
    simp only [VCell.sq]
    congr 1
    have h1 : ∀ i, d.val i x = d.val i ((keptList Pc).get (pieceOf Pc hPc x)) := fun i =>
      piece_value Pc hPc (fun j => d.val i j) (fun j hj => by
        have h := not_or.mp hj
        rw [← cycNext_eq]
        exact (not_not.mp h.1) i) x
    have h2 : ∀ i, d.val y ((keptList Pc).get i) = d.val ((keptList Pr).get (pieceOf Pr hPr y)) ((keptList Pc).get i) := fun i =>
      piece_value Pr hPr (fun r => d.val r ((keptList Pc).get i)) (fun r hr => by
        have h := not_or.mp hr
        rw [← cycNext_eq]
        exact (not_not.mp h.1) _ (List.get_mem _ _)) y
    rw [h1 y, h2]

/-- The compressed cell of a raster has the convolution matrices of its pixels, upside down. -/
theorem compressed_conv (c : Raster) [hy : NeZero c.ny] [hx : NeZero c.nx] :
    ∃ v, cell_compression c = .ok v ∧ ∀ (cx cy : Bool) (fx fy : ℕ),
      cfs2d v.sq cx cy fx fy = genConv (pixL c.nx) (pixL c.ny) cx cy fx fy (fun x y => (c.val y.rev x) ^ 2) :=
  @assembled_conv c.flipud hy hx

/-- Convolution matrices of one layer on the continuous raster path, written with pixels. -/
theorem convRaster_pix (la : LinAlg) (c : Raster) [NeZero c.ny] [NeZero c.nx] (fx fy : ℕ) (u : Bool) :
    convRasterContinuous la c fx fy u = (do
      let epz ← genConv (pixL c.nx) (pixL c.ny) true true fx fy (fun x y => (c.val y.rev x) ^ 2)
      let epy ← genConv (pixL c.nx) (pixL c.ny) true false fx fy (fun x y => (c.val y.rev x) ^ 2)
      let epx ← genConv (pixL c.nx) (pixL c.ny) false true fx fy (fun x y => (c.val y.rev x) ^ 2)
      let epzi ← meeinv la epz u
      .ok { epx := epx, epy := epy, epzi := epzi }) := by
  obtain ⟨v, hv, hc⟩ := compressed_conv c
  unfold convRasterContinuous
  rw [hv]
  show convContinuous la v fx fy u = _
  unfold convContinuous
  simp only [hc]

end Meent
