import Verif.Lemmas.PatternDraw

/-!
# Drawn structures moved to any place (helper lemmas)
-/

open Matrix

namespace Meent

set_option linter.unusedSectionVars false
set_option linter.unusedSimpArgs false
set_option linter.unusedVariables false

/-- `L'` is `L` after a move of the pattern, for samples whose first and last agree. -/
structure MoveFun {N : ℕ} [NeZero N] (L L' : (Fin N → ℂ) → ℤ → ℂ) (w : ℂ) : Prop where
  ne : w ≠ 0
  hom : ∀ z a m, L (fun j => z * a j) m = z * L a m
  move : ∀ a, a 0 = a (-1) → ∀ m, L' a m = w ^ (-m) * L a m

theorem cfsC_homog {k : ℕ} [NeZero k] (x : Fin k → ℝ) (P : ℝ) (z : ℂ) (a : Fin k → ℂ) (m : ℤ) :
    cfsC x P (fun j => z * a j) m = z * cfsC x P a m := by
  unfold cfsC
  split_ifs
  · rw [mul_div_assoc', Finset.mul_sum]
    congr 1
    exact Finset.sum_congr rfl fun j _ => by ring
  · rw [mul_div_assoc', Finset.mul_sum]
    congr 1
    exact Finset.sum_congr rfl fun j _ => by ring

theorem cfsC_move {k : ℕ} [NeZero k] {x x' : Fin k → ℝ} {d P : ℝ} (h0 : ∀ j, j ≠ -1 → x' j = x j + d) (h1 : x' (-1) = x (-1)) :
    MoveFun (cfsC x P) (cfsC x' P) (moveW d P) where
  ne := moveW_ne d P
  hom := cfsC_homog x P
  move := by
    intro a ha m
    unfold cfsC
    by_cases hm : m = 0
    · subst hm
      rw [if_pos rfl, if_pos rfl, neg_zero, zpow_zero, one_mul]
      congr 1
      have e : ∀ j : Fin k, x' j = x j + (if j = -1 then 0 else d) := by
        intro j
        by_cases hj : j = -1
        · rw [if_pos hj, hj, h1, add_zero]
        · rw [if_neg hj, h0 j hj]
      have e2 : ∀ j : Fin k, ((if j = 0 then x' 0 else x' j - x' (j - 1) : ℝ) : ℂ)
          = ((if j = 0 then x 0 else x j - x (j - 1) : ℝ) : ℂ) + ((if j = 0 then (d : ℂ) else 0) - (if j = -1 then (d : ℂ) else 0)) := by
        intro j
        by_cases hj : j = 0
        · subst hj
          rw [if_pos rfl, if_pos rfl, if_pos rfl, e 0]
          split_ifs <;> push_cast <;> ring
        · rw [if_neg hj, if_neg hj, if_neg hj, e j, e (j - 1)]
          have : j - 1 ≠ -1 := fun h => hj (by have := congrArg (· + 1) h; simpa using this)
          rw [if_neg this]
          split_ifs <;> push_cast <;> ring
      simp only [e2, mul_add, mul_sub, mul_ite, mul_zero, Finset.sum_add_distrib, Finset.sum_sub_distrib, Finset.sum_ite_eq', Finset.mem_univ, if_true]
      rw [ha]
      ring
    · rw [if_neg hm, if_neg hm, mul_div_assoc', Finset.mul_sum]
      congr 1
      refine Finset.sum_congr rfl fun j _ => ?_
      by_cases hj : j = -1
      · rw [hj, neg_add_cancel, ha]
        ring
      · rw [h0 j hj, mul_left_comm]
        congr 1
        rw [_root_.zpow_neg, ← _root_.inv_zpow]
        unfold moveW
        rw [inv_inv, ← Complex.exp_int_mul, ← Complex.exp_add]
        congr 1
        push_cast
        ring

theorem toepL_move {N f : ℕ} [NeZero N] {L L' : (Fin N → ℂ) → ℤ → ℂ} {w : ℂ} (h : MoveFun L L' w) {a : Fin N → ℂ} (ha : a 0 = a (-1)) :
    toepL L' f a = gConj (fun r : Fin (2 * f + 1) => w ^ ((r.val : ℤ) - f)) (toepL L f a) := by
  ext r c
  rw [gConj_apply]
  show L' _ _ = _ * L _ _ * _
  rw [h.move a ha, ← _root_.zpow_neg, mul_right_comm, ← zpow_add₀ h.ne]
  congr 2
  ring

theorem genConv_move {Nx Ny fx fy : ℕ} [NeZero Nx] [NeZero Ny] {Lx Lx' : (Fin Nx → ℂ) → ℤ → ℂ} {Ly Ly' : (Fin Ny → ℂ) → ℤ → ℂ}
    {wx wy : ℂ} (hx : MoveFun Lx Lx' wx) (hy : MoveFun Ly Ly' wy) (cx cy : Bool) {cell : Fin Nx → Fin Ny → ℂ}
    (hcx : ∀ y, cell 0 y = cell (-1) y) (hcy : ∀ x, cell x 0 = cell x (-1)) :
    genConv Lx' Ly' cx cy fx fy cell = (genConv Lx Ly cx cy fx fy cell).map (gConj (shiftD wx wy)) := by
  have hD : ∀ i : FlatIdx fx fy, shiftD wx wy i ≠ 0 := shiftD_ne hx.ne hy.ne
  have hDy : ∀ r : Fin (2 * fy + 1), wy ^ ((r.val : ℤ) - fy) ≠ 0 := fun r => zpow_ne_zero _ hy.ne
  have h1 : ∀ c, invRuleY cy cell = .ok c → (∀ y, c 0 y = c (-1) y) ∧ ∀ x, c x 0 = c x (-1) := by
    intro c hc
    unfold invRuleY at hc
    split_ifs at hc
    · obtain rfl := Except.ok.inj hc
      exact ⟨hcx, hcy⟩
    · obtain rfl := Except.ok.inj hc
      exact ⟨fun y => by simp only [hcx], fun x => by simp only [hcy]⟩
  have h2 : ∀ (b : Bool) (a : Fin Nx → Matrix (Fin (2 * fy + 1)) (Fin (2 * fy + 1)) ℂ),
      invIf b (fun x => gConj (fun r : Fin (2 * fy + 1) => wy ^ ((r.val : ℤ) - fy)) (a x))
        = (invIf b a).map fun a x => gConj (fun r : Fin (2 * fy + 1) => wy ^ ((r.val : ℤ) - fy)) (a x) := by
    intro b a
    unfold invIf npInvStack
    cases b
    · rfl
    · simp only [if_true]
      have : (∀ x, IsUnit (gConj (fun r : Fin (2 * fy + 1) => wy ^ ((r.val : ℤ) - fy)) (a x)).det) ↔ ∀ x, IsUnit (a x).det := by
        simp only [gConj_det hDy]
      by_cases h : ∀ x, IsUnit (a x).det
      · rw [if_pos h, if_pos (this.mpr h)]
        show _ = Except.ok _
        congr 1
        funext x
        exact gConj_inv hDy (h x)
      · rw [if_neg h, if_neg (fun h' => h (this.mp h'))]; rfl
  have h2' : ∀ (b : Bool) (a a' : Fin Nx → Matrix (Fin (2 * fy + 1)) (Fin (2 * fy + 1)) ℂ), a 0 = a (-1) → invIf b a = .ok a' → a' 0 = a' (-1) := by
    intro b a a' h e
    unfold invIf npInvStack at e
    split_ifs at e
    · obtain rfl := Except.ok.inj e
      simp only [h]
    · obtain rfl := Except.ok.inj e
      exact h
  have h3 : ∀ a : Fin Nx → Matrix (Fin (2 * fy + 1)) (Fin (2 * fy + 1)) ℂ, a 0 = a (-1) →
      flatten4 (btoepL Lx' fx (fun x => gConj (fun r : Fin (2 * fy + 1) => wy ^ ((r.val : ℤ) - fy)) (a x)))
        = gConj (shiftD wx wy) (flatten4 (btoepL Lx fx a)) := by
    intro a h0
    ext r c
    rw [gConj_apply]
    simp only [flatten4, submatrix_apply, btoepL, of_apply, gConj_apply]
    set r' := finProdFinEquiv.symm r with hr
    set c' := finProdFinEquiv.symm c with hc
    have e : (fun x => wy ^ ((r'.1.val : ℤ) - fy) * a x r'.1 c'.1 * (wy ^ ((c'.1.val : ℤ) - fy))⁻¹)
        = fun x => (wy ^ ((r'.1.val : ℤ) - fy) * (wy ^ ((c'.1.val : ℤ) - fy))⁻¹) * (fun x => a x r'.1 c'.1) x := by
      funext x; ring
    rw [hx.move _ (by simp only [h0]), e, hx.hom]
    have ey : ∀ i : FlatIdx fx fy, (((finProdFinEquiv.symm i).1.val : ℤ)) - fy = Spec.orderY i := fun i => rfl
    have ex : ∀ i : FlatIdx fx fy, (((finProdFinEquiv.symm i).2.val : ℤ)) - fx = Spec.orderX i := fun i => rfl
    have ex' : ((c'.2.val : ℤ)) - (r'.2.val : ℤ) = Spec.orderX c - Spec.orderX r := by
      rw [← ex, ← ex]; ring
    rw [hr, hc, ey, ey, ← hr, ← hc, ex']
    unfold shiftD
    rw [neg_sub, zpow_sub₀ hx.ne]
    field_simp
  unfold genConv
  cases hc : invRuleY cy cell with
  | error e => rfl
  | ok c =>
    obtain ⟨k1, k2⟩ := h1 c hc
    show (invIf (cx ^^ cy) (fun x => toepL Ly' fy (c x)) >>= _) = _
    simp only [toepL_move hy (k2 _)]
    rw [h2 (cx ^^ cy) (fun x => toepL Ly fy (c x))]
    show _ = Except.map _ (invIf (cx ^^ cy) (fun x => toepL Ly fy (c x)) >>= _)
    cases ha : invIf (cx ^^ cy) (fun x => toepL Ly fy (c x)) with
    | error e => rfl
    | ok a =>
      have k3 : a 0 = a (-1) := h2' _ _ _ (by simp only [show c 0 = c (-1) from funext k1]) ha
      show (if cx then _ else _) = Except.map _ (if cx then _ else _)
      rw [h3 a k3]
      cases cx
      · simp only [Bool.false_eq_true, if_false]
        unfold npInv
        rw [gConj_det hD]
        by_cases hu : IsUnit (flatten4 (btoepL Lx fx a)).det
        · rw [if_pos hu, if_pos hu, gConj_inv hD hu]; rfl
        · rw [if_neg hu, if_neg hu]; rfl
      · rfl

theorem fromCell_move {Nx Ny fx fy : ℕ} [NeZero Nx] [NeZero Ny] {Lx Lx' : (Fin Nx → ℂ) → ℤ → ℂ} {Ly Ly' : (Fin Ny → ℂ) → ℤ → ℂ}
    {wx wy : ℂ} (hx : MoveFun Lx Lx' wx) (hy : MoveFun Ly Ly' wy) {cell : Fin Nx → Fin Ny → ℂ}
    (hcx : ∀ y, cell 0 y = cell (-1) y) (hcy : ∀ x, cell x 0 = cell x (-1)) {c : Conv (FlatIdx fx fy)} {epz} (h : FromCell Lx Ly cell c epz) :
    FromCell Lx' Ly' cell (c.gauge (shiftD wx wy)) (gConj (shiftD wx wy) epz) where
  hz := by rw [genConv_move hx hy _ _ hcx hcy, h.hz]; rfl
  hy := by rw [genConv_move hx hy _ _ hcx hcy, h.hy]; rfl
  hx := by rw [genConv_move hx hy _ _ hcx hcy, h.hx]; rfl
  hu := by rw [gConj_det (shiftD_ne hx.ne hy.ne)]; exact h.hu
  hi := by
    show gConj _ c.epzi = _
    rw [h.hi, gConj_inv (shiftD_ne hx.ne hy.ne) h.hu]

/-! ### The grid -/

theorem toVCell_get {rows cols : List ℝ} {m : ℕ → ℕ → ℂ} {n k : ℕ} (hn : NeZero n) (hk : NeZero k) (hr : rows.length = n) (hc : cols.length = k) :
    toVCell rows cols m = .ok ⟨n, k, hn, hk, fun i j => m i j, fun j => cols.get (j.cast hc.symm), fun i => rows.get (i.cast hr.symm)⟩ := by
  subst hr
  subst hc
  unfold toVCell
  rw [dif_pos ⟨hn.ne, hk.ne⟩]
  rfl

theorem finish_free {l : List ℝ} {P : ℝ} (h0 : (0 : ℝ) ∉ l) (hP : P ∉ l) (hP0 : P ≠ 0) : finishEdges l P = l ++ [P] := by
  unfold finishEdges
  have h1 : l.getLast? ≠ some P := fun h => hP (List.mem_of_getLast? h)
  simp only [if_neg h1]
  rw [if_neg]
  intro h
  have : (0 : ℝ) ∈ l ++ [P] := List.mem_of_head? h
  rcases List.mem_append.mp this with h | h
  · exact h0 h
  · exact hP0 (List.mem_singleton.mp h).symm

theorem findIdx_free {l : List ℝ} {v P : ℝ} (hv : v ∈ l) (d : ℝ) (P' : ℝ) :
    ∃ i, i < l.length ∧ listIndex (l ++ [P]) v = .ok i ∧ listIndex (l.map (· + d) ++ [P']) (v + d) = .ok i := by
  classical
  have key : ∃ i, i < l.length ∧ l.findIdx? (fun w => decide (w = v)) = some i := by
    cases h : l.findIdx? (fun w => decide (w = v)) with
    | none =>
      rw [List.findIdx?_eq_none_iff] at h
      simpa using h v hv
    | some i =>
      obtain ⟨hi, -⟩ := List.findIdx?_eq_some_iff_getElem.mp h
      exact ⟨i, hi, rfl⟩
  obtain ⟨i, hi, e⟩ := key
  refine ⟨i, hi, ?_, ?_⟩
  · unfold listIndex
    rw [List.findIdx?_append, e]
    rfl
  · unfold listIndex
    rw [List.findIdx?_append, List.findIdx?_map]
    have : ((fun w => decide (w = v + d)) ∘ fun x => x + d) = fun w => decide (w = v) := by
      funext w
      simp
    rw [this, e]
    rfl

theorem paintAll_free {er ec : List ℝ} {P Q P' Q' dx dy : ℝ} (n k : ℕ) (hn : er.length = n) (hk : ec.length = k) :
    ∀ {objs : List VObj} {m : ℕ → ℕ → ℂ},
      (∀ o ∈ objs, o.r0 ∈ er ∧ o.r1 ∈ er ∧ o.c0 ∈ ec ∧ o.c1 ∈ ec ∧ o.r0 ≠ 0 ∧ o.c0 ≠ 0 ∧ o.r0 + dy ≠ 0 ∧ o.c0 + dx ≠ 0) →
      ∃ m', paintAll (er ++ [Q]) (ec ++ [P]) objs m = .ok m' ∧
        paintAll (er.map (· + dy) ++ [Q']) (ec.map (· + dx) ++ [P']) (objs.map (moveObj dx dy)) m = .ok m' ∧
        ∀ i j, i = 0 ∨ n ≤ i ∨ j = 0 ∨ k ≤ j → m' i j = m i j
  | [], m, _ => ⟨m, rfl, rfl, fun _ _ _ => rfl⟩
  | o :: os, m, h => by
    obtain ⟨a1, a2, a3, a4, b1, b2, b3, b4⟩ := h o List.mem_cons_self
    obtain ⟨i0, l0, e0, f0⟩ := findIdx_free (P := Q) a1 dy Q'
    obtain ⟨i1, l1, e1, f1⟩ := findIdx_free (P := Q) a2 dy Q'
    obtain ⟨j0, l2, e2, f2⟩ := findIdx_free (P := P) a3 dx P'
    obtain ⟨j1, l3, e3, f3⟩ := findIdx_free (P := P) a4 dx P'
    obtain ⟨m', p1, p2, p3⟩ := paintAll_free (P := P) (Q := Q) (P' := P') (Q' := Q') n k hn hk (m := paintSlice m (i0 + 1) (i1 + 1) (j0 + 1) (j1 + 1) o.n)
      (fun o ho => h o (List.mem_cons_of_mem _ ho))
    refine ⟨m', ?_, ?_, ?_⟩
    · simp only [paintAll, beginIdx, endIdx, if_neg b1, if_neg b2, e0, e1, e2, e3, bind, Except.bind]
      exact p1
    · simp only [List.map_cons, paintAll, beginIdx, endIdx, moveObj, if_neg b3, if_neg b4, f0, f1, f2, f3, bind, Except.bind]
      exact p2
    · intro i j hij
      rw [p3 i j hij]
      unfold paintSlice
      rw [if_neg]
      rintro ⟨c1, c2, c3, c4⟩
      omega

theorem rowEdges_move (dx dy : ℝ) (objs : List VObj) : Spec.rowEdges (objs.map (moveObj dx dy)) = (Spec.rowEdges objs).map (· + dy) := by
  unfold Spec.rowEdges
  rw [List.map_flatMap, List.flatMap_map]
  rfl

theorem colEdges_move (dx dy : ℝ) (objs : List VObj) : Spec.colEdges (objs.map (moveObj dx dy)) = (Spec.colEdges objs).map (· + dx) := by
  unfold Spec.colEdges
  rw [List.map_flatMap, List.flatMap_map]
  rfl

theorem sorted_move {l l' : List ℝ} {d : ℝ} (h : l.Pairwise (· < ·)) (h' : l'.Pairwise (· < ·)) {e : List ℝ} (hm : ∀ v, v ∈ l ↔ v ∈ e)
    (hm' : ∀ v, v ∈ l' ↔ v ∈ e.map (· + d)) : l' = l.map (· + d) := by
  refine List.Pairwise.eq_of_mem_iff h' ?_ fun v => ?_
  · rw [List.pairwise_map]
    exact h.imp fun hab => by linarith
  · rw [hm', List.mem_map, List.mem_map]
    exact exists_congr fun a => and_congr_left fun _ => (hm a).symm

theorem draw_moved {la la' : LinAlg} {fx fy : ℕ} {period : ℝ × ℝ} (hP : period.1 ≠ 0) (hQ : period.2 ≠ 0) {base : ℂ} {objs : List VObj} {dx dy : ℝ}
    (hr : (Spec.rowEdges objs).Nodup) (hc : (Spec.colEdges objs).Nodup)
    (r0 : (0 : ℝ) ∉ Spec.rowEdges objs) (r1 : period.2 ∉ Spec.rowEdges objs) (c0 : (0 : ℝ) ∉ Spec.colEdges objs) (c1 : period.1 ∉ Spec.colEdges objs)
    (r0' : (0 : ℝ) ∉ Spec.rowEdges (objs.map (moveObj dx dy))) (r1' : period.2 ∉ Spec.rowEdges (objs.map (moveObj dx dy)))
    (c0' : (0 : ℝ) ∉ Spec.colEdges (objs.map (moveObj dx dy))) (c1' : period.1 ∉ Spec.colEdges (objs.map (moveObj dx dy)))
    {c : VCell} (h : drawLayer period base objs = .ok c) {cv : Conv (FlatIdx fx fy)} (hcv : convContinuous la c fx fy false = .ok cv) :
    ∃ c', drawLayer period base (objs.map (moveObj dx dy)) = .ok c' ∧
      convContinuous la' c' fx fy false = .ok (cv.gauge (shiftD (moveW dx period.1) (moveW dy period.2))) := by
  have g := freeInv objs hr hc
  have g' := freeInv (objs.map (moveObj dx dy)) (by rw [rowEdges_move]; exact hr.map (add_left_injective dy))
    (by rw [colEdges_move]; exact hc.map (add_left_injective dx))
  have er := sorted_move g.rows g'.rows g.mrows (by intro v; rw [g'.mrows, rowEdges_move])
  have ec := sorted_move g.cols g'.cols g.mcols (by intro v; rw [g'.mcols, colEdges_move])
  have fr := finish_free (fun h => r0 ((g.mrows _).mp h)) (fun h => r1 ((g.mrows _).mp h)) hQ
  have fc := finish_free (fun h => c0 ((g.mcols _).mp h)) (fun h => c1 ((g.mcols _).mp h)) hP
  have fr' := finish_free (fun h => r0' ((g'.mrows _).mp h)) (fun h => r1' ((g'.mrows _).mp h)) hQ
  have fc' := finish_free (fun h => c0' ((g'.mcols _).mp h)) (fun h => c1' ((g'.mcols _).mp h)) hP
  rw [er] at fr'
  rw [ec] at fc'
  obtain ⟨m, p1, p2, p3⟩ := paintAll_free (er := (gridLayer objs).rows) (ec := (gridLayer objs).cols) (P := period.1) (Q := period.2) (P' := period.1)
    (Q' := period.2) (dx := dx) (dy := dy) _ _ rfl rfl (objs := objs) (m := fun _ _ => base) (by
      intro o ho
      have m1 : o.r0 ∈ Spec.rowEdges objs := List.mem_flatMap.mpr ⟨o, ho, by simp⟩
      have m2 : o.r1 ∈ Spec.rowEdges objs := List.mem_flatMap.mpr ⟨o, ho, by simp⟩
      have m3 : o.c0 ∈ Spec.colEdges objs := List.mem_flatMap.mpr ⟨o, ho, by simp⟩
      have m4 : o.c1 ∈ Spec.colEdges objs := List.mem_flatMap.mpr ⟨o, ho, by simp⟩
      refine ⟨(g.mrows _).mpr m1, (g.mrows _).mpr m2, (g.mcols _).mpr m3, (g.mcols _).mpr m4, fun e => r0 (e ▸ m1), fun e => c0 (e ▸ m3),
        fun e => r0' ?_, fun e => c0' ?_⟩
      · rw [rowEdges_move, ← e]; exact List.mem_map_of_mem m1
      · rw [colEdges_move, ← e]; exact List.mem_map_of_mem m3)
  set R := (gridLayer objs).rows with hR
  set C := (gridLayer objs).cols with hC
  have d1 : drawLayer period base objs = toVCell (R ++ [period.2]) (C ++ [period.1]) m := by
    unfold drawLayer vectorPerLayer
    simp only [← hR, ← hC, fr, fc, g.objs, p1, bind, Except.bind]
  have d2 : drawLayer period base (objs.map (moveObj dx dy)) = toVCell (R.map (· + dy) ++ [period.2]) (C.map (· + dx) ++ [period.1]) m := by
    unfold drawLayer vectorPerLayer
    simp only [er, ec, fr', fc', g'.objs, p2, bind, Except.bind]
  have n1 : (R ++ [period.2]).length = R.length + 1 := by simp
  have n2 : (C ++ [period.1]).length = C.length + 1 := by simp
  have n1' : (R.map (· + dy) ++ [period.2]).length = R.length + 1 := by simp
  have n2' : (C.map (· + dx) ++ [period.1]).length = C.length + 1 := by simp
  rw [d1, toVCell_get ⟨by omega⟩ ⟨by omega⟩ n1 n2] at h
  rw [d2, toVCell_get ⟨by omega⟩ ⟨by omega⟩ n1' n2']
  refine ⟨_, rfl, ?_⟩
  obtain rfl := Except.ok.inj h
  obtain ⟨epz, hF⟩ := convContinuous_fromCell.mp hcv
  refine convContinuous_fromCell.mpr ⟨gConj (shiftD (moveW dx period.1) (moveW dy period.2)) epz, ?_⟩
  have last : ∀ {n : ℕ}, (-1 : Fin (n + 1)) = Fin.last n := Fin.neg_one_eq_last'
  have gx : ∀ (l : List ℝ) (v : ℝ) (k : ℕ) (hk : (l ++ [v]).length = k + 1) (hl : l.length = k), (l ++ [v]).get ((-1 : Fin (k + 1)).cast hk.symm) = v := by
    intro l v k hk hl
    subst hl
    rw [last]
    simp
  have gi : ∀ (l : List ℝ) (v d : ℝ) (k : ℕ) (hk : (l ++ [v]).length = k + 1) (hk' : (l.map (· + d) ++ [v]).length = k + 1) (hl : l.length = k)
      (j : Fin (k + 1)), j ≠ -1 → (l.map (· + d) ++ [v]).get (j.cast hk'.symm) = (l ++ [v]).get (j.cast hk.symm) + d := by
    intro l v d k hk hk' hl j hj
    subst hl
    have : j.val < l.length := by
      rcases Nat.lt_or_ge j.val l.length with h | h
      · exact h
      · refine absurd (Fin.ext ?_) hj
        rw [last, Fin.val_last]
        omega
    simp [List.getElem_append, this]
  have Mx := cfsC_move (k := C.length + 1) (x := fun j => (C ++ [period.1]).get (j.cast n2.symm)) (x' := fun j => (C.map (· + dx) ++ [period.1]).get (j.cast n2'.symm))
    (d := dx) (P := period.1) (fun j hj => gi _ _ _ _ n2 n2' rfl j hj) (by rw [gx _ _ _ n2' (by simp), gx _ _ _ n2 rfl])
  have My := cfsC_move (k := R.length + 1) (x := fun j => (R ++ [period.2]).get (j.cast n1.symm)) (x' := fun j => (R.map (· + dy) ++ [period.2]).get (j.cast n1'.symm))
    (d := dy) (P := period.2) (fun j hj => gi _ _ _ _ n1 n1' rfl j hj) (by rw [gx _ _ _ n1' (by simp), gx _ _ _ n1 rfl])
  simp only at hF ⊢
  rw [gx _ _ _ n2 rfl, gx _ _ _ n1 rfl] at hF
  rw [gx _ _ _ n2' (by simp), gx _ _ _ n1' (by simp)]
  refine fromCell_move Mx My ?_ ?_ hF
  · intro y
    rw [p3 _ _ (by simp), p3 _ _ (by rw [last]; simp)]
  · intro x
    rw [p3 _ _ (by simp), p3 _ _ (by rw [last]; simp)]

theorem list_moved {la la' : LinAlg} {fx fy : ℕ} {period : ℝ × ℝ} (hP : period.1 ≠ 0) (hQ : period.2 ≠ 0) {dx dy : ℝ} {ls : List VLayer}
    (hl : ∀ l ∈ ls, Spec.Parallel l) (h1 : ∀ l ∈ ls, ∃ objs, Spec.FreeEdges period l objs)
    (h2 : ∀ l ∈ ls, ∃ objs, Spec.FreeEdges period (Spec.moveLayer dx dy l) objs) {cs : List (Conv (FlatIdx fx fy))}
    (h : List.Forall₂ (fun (l : VLayer) cv => ∃ objs c, l.objs = .ok objs ∧ drawLayer period l.base objs = .ok c ∧ convContinuous la c fx fy false = .ok cv) ls cs) :
    List.Forall₂ (fun (l : VLayer) cv => ∃ objs c, l.objs = .ok objs ∧ drawLayer period l.base objs = .ok c ∧ convContinuous la' c fx fy false = .ok cv)
      (ls.map (Spec.moveLayer dx dy)) (cs.map (Conv.gauge (shiftD (moveW dx period.1) (moveW dy period.2)))) := by
  induction h with
  | nil => exact .nil
  | @cons l cv ls cs a _ ih =>
    refine .cons ?_ (ih (fun l h => hl l (List.mem_cons_of_mem _ h)) (fun l h => h1 l (List.mem_cons_of_mem _ h)) fun l h => h2 l (List.mem_cons_of_mem _ h))
    obtain ⟨objs, c, e1, e2, e3⟩ := a
    obtain ⟨o, d⟩ := h1 l List.mem_cons_self
    obtain ⟨o', d'⟩ := h2 l List.mem_cons_self
    obtain rfl := Except.ok.inj (e1.symm.trans d.drawn)
    have hm := moved_objs (dx := dx) (dy := dy) (hl l List.mem_cons_self) e1
    obtain rfl := Except.ok.inj (hm.symm.trans d'.drawn)
    obtain ⟨c', k1, k2⟩ := draw_moved (la' := la') hP hQ d.rows d.cols d.rowBorder.1 d.rowBorder.2 d.colBorder.1 d.colBorder.2 d'.rowBorder.1 d'.rowBorder.2
      d'.colBorder.1 d'.colBorder.2 e2 e3
    exact ⟨_, c', hm, k1, k2⟩

end Meent
