import Verif.Lemmas.Scale

/-!
# Scale covariance of vector modeling (helper lemmas)
-/

open Matrix

namespace Meent

set_option linter.unusedSectionVars false
set_option linter.unusedSimpArgs false

noncomputable def VObj.scale (c : ℝ) (o : VObj) : VObj := ⟨c * o.r0, c * o.c0, c * o.r1, c * o.c1, o.n⟩

noncomputable def GridAcc.scale (c : ℝ) (g : GridAcc) : GridAcc :=
  ⟨g.rows.map (c * ·), g.cols.map (c * ·), g.pert, g.objs.map (VObj.scale c)⟩

noncomputable def VCell.scale (c : ℝ) (v : VCell) : VCell :=
  { v with x := fun j => c * v.x j, y := fun j => c * v.y j }

def ptScale (c : ℝ) (p : Pt) : Pt := (c * p.1, c * p.2)

def RotInfo.scale (c : ℝ) (r : RotInfo) : RotInfo :=
  ⟨ptScale c r.top1, ptScale c r.top2, ptScale c r.top3, ptScale c r.top4, c * r.length_top12, r.angle_inside, r.top2_left⟩

def Sample.scale (c : ℝ) (r : Sample) : Sample := ⟨c * r.x, c * r.y, c * r.xcp⟩

/-! ### Continuous Fourier series -/

theorem cfs1_scale {c : ℝ} (hc : c ≠ 0) {ι : Type} {k : ℕ} [NeZero k] (x : Fin k → ℝ) (cell : ι → Fin k → ℂ) (fto : ℕ) (p : ℝ) :
    cfs1 (fun j => c * x j) cell fto (c * p) = cfs1 x cell fto p := by
  have hc' : (c : ℂ) ≠ 0 := Complex.ofReal_ne_zero.mpr hc
  funext r mode
  unfold cfs1
  simp only
  split
  · rw [Complex.ofReal_mul, ← mul_div_mul_left (∑ j : Fin k, cell r j * ((if j = 0 then x 0 else x j - x (j - 1) : ℝ) : ℂ)) (p : ℂ) hc',
      Finset.mul_sum]
    congr 1
    refine Finset.sum_congr rfl fun j _ => ?_
    split
    · push_cast; ring
    · push_cast; ring
  · congr 1
    refine Finset.sum_congr rfl fun j _ => ?_
    congr 3
    push_cast
    rw [← mul_div_mul_left _ (p : ℂ) hc']
    congr 1
    ring

theorem convContinuous_scale {c : ℝ} (hc : c ≠ 0) (la : LinAlg) (v : VCell) (fx fy : ℕ) (u : Bool) :
    convContinuous la (v.scale c) fx fy u = convContinuous la v fx fy u := by
  have key : ∀ (a b : Bool), cfs2d (v.scale c).sq a b fx fy = cfs2d v.sq a b fx fy := by
    intro a b
    obtain ⟨ny, nx, hy, hx, val, x, y⟩ := v
    unfold cfs2d VCell.sq VCell.scale
    simp only [cfs1_scale hc]
  unfold convContinuous
  simp only [key]

theorem to_conv_mat_vector_scale {c : ℝ} (hc : c ≠ 0) (la : LinAlg) (cells : List VCell) (fx fy : ℕ) (u : Bool) :
    to_conv_mat_vector la (cells.map (VCell.scale c)) fx fy u = to_conv_mat_vector la cells fx fy u := by
  unfold to_conv_mat_vector
  induction cells with
  | nil => rfl
  | cons v vs ih => simp only [List.map_cons, List.mapM_cons, convContinuous_scale hc, ih]

/-! ### Rotated rectangles -/

theorem corner_scale (c cx cy a x y : ℝ) : corner (c * cx) (c * cy) a (c * x) (c * y) = ptScale c (corner cx cy a x y) := by
  unfold corner ptScale
  ext <;> simp only <;> ring

theorem rotInfo_scale {c : ℝ} (hc : 0 < c) (cx cy lx ly a : ℝ) :
    rotInfo (c * cx) (c * cy) (c * lx) (c * ly) a = (rotInfo cx cy lx ly a).map (RotInfo.scale c) := by
  unfold rotInfo
  have e1 : c * lx / 2 = c * (lx / 2) := by ring
  have e2 : c * ly / 2 = c * (ly / 2) := by ring
  have e3 : -(c * lx) / 2 = c * (-lx / 2) := by ring
  have e4 : -(c * ly) / 2 = c * (-ly / 2) := by ring
  simp only [e1, e2, e3, e4, corner_scale]
  simp only [ptScale, gt_iff_lt, mul_lt_mul_iff_right₀ hc]
  split_ifs <;> rfl

theorem outline_scale (c : ℝ) (r : RotInfo) (nt np : ℕ) :
    outline (r.scale c) nt np = (outline r nt np).map (Sample.scale c) := by
  unfold outline RotInfo.scale ptScale
  simp only
  split
  · simp only [List.map_append, List.map_map]
    congr 1
    · congr 1
      · refine List.map_congr_left fun k _ => ?_
        simp only [Function.comp, Sample.scale, Sample.mk.injEq]
        refine ⟨?_, ?_, ?_⟩ <;> ring
      · refine List.map_congr_left fun k _ => ?_
        simp only [Function.comp, Sample.scale, Sample.mk.injEq]
        refine ⟨?_, ?_, ?_⟩ <;> ring
    · refine List.map_congr_left fun k _ => ?_
      simp only [Function.comp, Sample.scale, Sample.mk.injEq]
      refine ⟨?_, ?_, ?_⟩ <;> ring
  · simp only [List.map_append, List.map_map]
    congr 1
    · congr 1
      · refine List.map_congr_left fun k _ => ?_
        simp only [Function.comp, Sample.scale, Sample.mk.injEq]
        refine ⟨?_, ?_, ?_⟩ <;> ring
      · refine List.map_congr_left fun k _ => ?_
        simp only [Function.comp, Sample.scale, Sample.mk.injEq]
        refine ⟨?_, ?_, ?_⟩ <;> ring
    · refine List.map_congr_left fun k _ => ?_
      simp only [Function.comp, Sample.scale, Sample.mk.injEq]
      refine ⟨?_, ?_, ?_⟩ <;> ring

theorem slices_scale (c : ℝ) (left : Bool) (n : ℂ) : ∀ l : List Sample,
    slices left n (l.map (Sample.scale c)) = (slices left n l).map (VObj.scale c)
  | [] => rfl
  | [_] => rfl
  | a :: b :: rest => by
    have ih := slices_scale c left n (b :: rest)
    rw [List.map_cons] at ih
    simp only [List.map_cons, slices, ih]
    congr 1
    split <;> simp only [VObj.scale, Sample.scale, VObj.mk.injEq, and_true, true_and] <;> refine ⟨?_, ?_⟩ <;> ring

theorem rectNoApprox_scale (c cx cy lx ly : ℝ) (n : ℂ) :
    rectNoApprox (c * cx) (c * cy) (c * lx) (c * ly) n = (rectNoApprox cx cy lx ly n).map (VObj.scale c) := by
  simp only [rectNoApprox, List.map_cons, List.map_nil, VObj.scale, List.cons.injEq, VObj.mk.injEq, and_true]
  refine ⟨?_, ?_, ?_, ?_⟩ <;> ring

theorem rectangle_scale {c : ℝ} (hc : 0 < c) (cx cy lx ly : ℝ) (n : ℂ) (a : ℝ) (nt np : ℕ) :
    rectangle (c * cx) (c * cy) (c * lx) (c * ly) n a nt np
      = (rectangle cx cy lx ly n a nt np).map (List.map (VObj.scale c)) := by
  unfold rectangle
  simp only [rectNoApprox_scale, rotInfo_scale hc]
  split_ifs
  · rfl
  · rfl
  · rfl
  · rfl
  · cases rotInfo cx cy lx ly (pyMod a (2 * Real.pi)) <;> rfl
  · cases rotInfo cx cy lx ly (pyMod a (2 * Real.pi)) with
    | error e => rfl
    | ok r =>
      simp only [ok_map, ok_bind, outline_scale]
      show Except.ok _ = Except.ok _
      rw [← slices_scale]
      rfl

theorem ellipsePt_scale (c cx cy lx ly a : ℝ) (n k : ℕ) :
    ellipsePt (c * cx) (c * cy) (c * lx) (c * ly) a n k = ptScale c (ellipsePt cx cy lx ly a n k) := by
  simp only [ellipsePt, corner, ptScale, Prod.mk.injEq]
  constructor <;> ring

theorem argmaxY_scale {c : ℝ} (hc : 0 < c) (N : ℕ) (p : ℕ → Pt) : argmaxY N (fun k => ptScale c (p k)) = argmaxY N p := by
  have key : (List.argAux fun b k : ℕ => c * (p k).2 < c * (p b).2) = List.argAux fun b k : ℕ => (p k).2 < (p b).2 := by
    funext a b
    cases a with
    | none => rfl
    | some a => simp only [List.argAux, mul_lt_mul_iff_right₀ hc]
  show List.foldl (List.argAux fun b k : ℕ => c * (p k).2 < c * (p b).2) none (List.range N) = _
  rw [key]
  rfl

theorem ellipseArr_scale {c : ℝ} (hc : 0 < c) (N : ℕ) (q : ℕ → Pt) (h : ℕ) (l : Pt) :
    ellipseArr N (fun k => ptScale c (q k)) h (ptScale c l) = (ellipseArr N q h l).map (ptScale c) := by
  simp only [ellipseArr, ptScale, gt_iff_lt, mul_lt_mul_iff_right₀ hc]
  split_ifs
  · simp [List.map_flatMap, ptScale]
  · simp [List.map_flatMap, ptScale]
  · simp [ptScale]

theorem pairBoxes_scale {c : ℝ} (hc : 0 < c) (n : ℂ) : ∀ l : List Pt,
    pairBoxes n (l.map (ptScale c)) = (pairBoxes n l).map (VObj.scale c)
  | [] => rfl
  | [_] => rfl
  | a :: b :: rest => by
    have ih := pairBoxes_scale hc n (b :: rest)
    rw [List.map_cons] at ih
    simp only [List.map_cons, pairBoxes, ih]
    congr 1
    simp only [VObj.scale, ptScale, VObj.mk.injEq, and_true, mul_min_of_nonneg _ _ hc.le, mul_max_of_nonneg _ _ hc.le]

theorem ellipse_scale {c : ℝ} (hc : 0 < c) (cx cy lx ly : ℝ) (n : ℂ) (a : ℝ) (nw nh : ℕ) :
    ellipse (c * cx) (c * cy) (c * lx) (c * ly) n a nw nh = (ellipse cx cy lx ly n a nw nh).map (List.map (VObj.scale c)) := by
  have h1 : ellipsePt (c * cx) (c * cy) (c * lx) (c * ly) a nw = fun k => ptScale c (ellipsePt cx cy lx ly a nw k) :=
    funext fun k => ellipsePt_scale c cx cy lx ly a nw k
  unfold ellipse
  split
  · rfl
  dsimp only
  rw [h1, argmaxY_scale hc]
  cases argmaxY (nw - 1) (ellipsePt cx cy lx ly a nw) with
  | none => rfl
  | some h0 =>
    dsimp only
    have h2 : rollTo (nw - 1) h0 (fun k => ptScale c (ellipsePt cx cy lx ly a nw k)) =
        fun k => ptScale c (rollTo (nw - 1) h0 (ellipsePt cx cy lx ly a nw) k) := rfl
    rw [h2, argmaxY_scale hc]
    cases argmaxY (nw - 1) (rollTo (nw - 1) h0 (ellipsePt cx cy lx ly a nw)) with
    | none => rfl
    | some h =>
      dsimp only
      split
      · rw [ellipseArr_scale hc, pairBoxes_scale hc]
        rfl
      · rfl

theorem run_scale {c : ℝ} (hc : 0 < c) (i : VInstr) : (Spec.scaleInstr c i).run = i.run.map (List.map (VObj.scale c)) := by
  cases i with
  | rectangle cx cy lx ly n a nt np => exact rectangle_scale hc cx cy lx ly n a nt np
  | ellipse cx cy lx ly n a nw nh => exact ellipse_scale hc cx cy lx ly n a nw nh
  | unknown => rfl

theorem mapM_map {α β α' β' : Type} (f : α → Res β) (f' : α' → Res β') (g : α → α') (k : β → β') (l : List α)
    (h : ∀ a ∈ l, f' (g a) = (f a).map k) : (l.map g).mapM f' = (l.mapM f).map (List.map k) := by
  induction l with
  | nil => rfl
  | cons a l ih =>
    rw [List.map_cons, List.mapM_cons, List.mapM_cons, h a (by simp), ih (fun b hb => h b (by simp [hb]))]
    cases f a with
    | error e => rfl
    | ok b => cases l.mapM f <;> rfl

theorem objs_scale {c : ℝ} (hc : 0 < c) (l : VLayer) :
    (VLayer.objs ⟨l.base, l.instrs.map (Spec.scaleInstr c)⟩) = l.objs.map (List.map (VObj.scale c)) := by
  unfold VLayer.objs
  simp only
  rw [mapM_map VInstr.run VInstr.run (Spec.scaleInstr c) (List.map (VObj.scale c)) l.instrs (fun i _ => run_scale hc i)]
  cases l.instrs.mapM VInstr.run with
  | error e => rfl
  | ok os => simp only [ok_map, ok_bind, List.map_flatten]

/-! ### The grid -/

theorem bisectLeft_scale {c : ℝ} (hc : 0 < c) (l : List ℝ) (v : ℝ) (lo hi : ℕ) :
    bisectLeft (l.map (c * ·)) (c * v) lo hi = bisectLeft l v lo hi := by
  fun_induction bisectLeft l v lo hi with
  | case1 lo hi h mid hm ih =>
    rw [bisectLeft, dif_pos h]
    have : ((l.map (c * ·))[(lo + hi) / 2]?).any (fun w => decide (w < c * v)) = true := by
      rw [List.getElem?_map, Option.any_map]
      rw [← hm]
      congr 1
      funext w
      simp only [Function.comp, mul_lt_mul_iff_right₀ hc]
    simp only [this, if_true]
    exact ih
  | case2 lo hi h mid hm ih =>
    rw [bisectLeft, dif_pos h]
    have : ((l.map (c * ·))[(lo + hi) / 2]?).any (fun w => decide (w < c * v)) = false := by
      rw [List.getElem?_map, Option.any_map]
      rw [← Bool.not_eq_true]
      intro hh
      apply hm
      rw [← hh]
      congr 1
      funext w
      simp only [Function.comp, mul_lt_mul_iff_right₀ hc]
    simp only [this]
    exact ih
  | case3 lo hi h => rw [bisectLeft, dif_neg h]

theorem insertIdx_scale (c : ℝ) (l : List ℝ) (i : ℕ) (v : ℝ) :
    (l.map (c * ·)).insertIdx i (c * v) = (l.insertIdx i v).map (c * ·) := (List.map_insertIdx ..).symm

theorem get_scale {c : ℝ} (hc : c ≠ 0) (l : List ℝ) (i : ℕ) (v : ℝ) :
    (l.map (c * ·))[i]? = some (c * v) ↔ l[i]? = some v := by
  rw [List.getElem?_map]
  cases l[i]? with
  | none => simp
  | some w => simp [mul_right_inj' hc]

theorem insertTop_scale {c : ℝ} (hc : 0 < c) (l : List ℝ) (p v : ℝ) (h0 : v ≠ 0 ∨ l = []) :
    insertTop (l.map (c * ·)) p (c * v) =
      ((insertTop l p v).1.map (c * ·), (insertTop l p v).2.1, c * (insertTop l p v).2.2) := by
  unfold insertTop
  simp only [bisectLeft_scale hc, List.length_map, get_scale hc.ne']
  split_ifs with h1 h2 h3 h3
  · rcases h0 with h0 | h0
    · exact absurd h3 h0
    · subst h0; simp at h1
  · exact absurd ((mul_eq_zero.mp h2).resolve_left hc.ne') h3
  · exact absurd (by rw [h3, mul_zero]) h2
  · have : c * v + c * v * (p + pertUnit) = c * (v + v * (p + pertUnit)) := by ring
    rw [this, insertIdx_scale]
  · rw [insertIdx_scale]

theorem insertBot_scale {c : ℝ} (hc : 0 < c) (l : List ℝ) (p v : ℝ) :
    insertBot (l.map (c * ·)) p (c * v) =
      ((insertBot l p v).1.map (c * ·), (insertBot l p v).2.1, c * (insertBot l p v).2.2) := by
  unfold insertBot
  simp only [bisectLeft_scale hc, List.length_map, get_scale hc.ne']
  split_ifs with h1
  · have : c * v - c * v * (p + pertUnit) = c * (v - v * (p + pertUnit)) := by ring
    rw [this, insertIdx_scale]
  · rw [insertIdx_scale]

theorem gridStep_scale {c : ℝ} (hc : 0 < c) (g : GridAcc) (o : VObj) (hr : o.r0 ≠ 0 ∨ g.rows = []) (hl : o.c0 ≠ 0 ∨ g.cols = []) :
    gridStep (g.scale c) (o.scale c) = (gridStep g o).scale c := by
  unfold gridStep GridAcc.scale VObj.scale
  simp only [insertTop_scale hc _ _ _ hr, insertTop_scale hc _ _ _ hl, insertBot_scale hc, List.map_append, List.map_cons,
    List.map_nil, VObj.scale]

theorem foldl_gridStep_scale {c : ℝ} (hc : 0 < c) (os : List VObj) (h : ∀ o ∈ os, o.r0 ≠ 0 ∧ o.c0 ≠ 0) : ∀ g : GridAcc,
    (os.map (VObj.scale c)).foldl gridStep (g.scale c) = (os.foldl gridStep g).scale c := by
  induction os with
  | nil => intro g; rfl
  | cons o os ih =>
    intro g
    rw [List.map_cons, List.foldl_cons, List.foldl_cons,
      gridStep_scale hc _ _ (.inl (h o (by simp)).1) (.inl (h o (by simp)).2)]
    exact ih (fun o ho => h o (by simp [ho])) _

theorem gridLayer_scale {c : ℝ} (hc : 0 < c) (os : List VObj) (h : ∀ o ∈ os.tail, o.r0 ≠ 0 ∧ o.c0 ≠ 0) :
    gridLayer (os.map (VObj.scale c)) = (gridLayer os).scale c := by
  unfold gridLayer
  cases os with
  | nil => rfl
  | cons o os =>
    rw [List.map_cons, List.foldl_cons, List.foldl_cons]
    have e := gridStep_scale hc (g := ⟨[], [], 0, []⟩) (o := o) (.inr rfl) (.inr rfl)
    rw [← foldl_gridStep_scale hc os h, ← e]
    rfl

theorem finishEdges_scale {c : ℝ} (hc : c ≠ 0) (l : List ℝ) (p : ℝ) :
    finishEdges (l.map (c * ·)) (c * p) = (finishEdges l p).map (c * ·) := by
  unfold finishEdges
  have e1 : (l.map (c * ·)).getLast? = some (c * p) ↔ l.getLast? = some p := by
    rw [List.getLast?_map]
    cases l.getLast? with
    | none => simp
    | some w => simp [mul_right_inj' hc]
  have e2 : ∀ m : List ℝ, (m.map (c * ·)).head? = some 0 ↔ m.head? = some 0 := by
    intro m
    rw [List.head?_map]
    cases m.head? with
    | none => simp
    | some w => simp [hc]
  have e3 : (if (l.map (c * ·)).getLast? = some (c * p) then l.map (c * ·) else l.map (c * ·) ++ [c * p])
      = (if l.getLast? = some p then l else l ++ [p]).map (c * ·) := by
    simp only [e1]
    split_ifs
    · rfl
    · rw [List.map_append]; rfl
  simp only [e3, e2]
  generalize (if l.getLast? = some p then l else l ++ [p]) = m
  split_ifs with h
  · rw [List.map_tail]
  · rfl

theorem listIndex_scale {c : ℝ} (hc : c ≠ 0) (l : List ℝ) (v : ℝ) : listIndex (l.map (c * ·)) (c * v) = listIndex l v := by
  unfold listIndex
  rw [List.findIdx?_map]
  have : ((fun w => decide (w = c * v)) ∘ (c * ·)) = fun w : ℝ => decide (w = v) := by
    funext w
    simp only [Function.comp, mul_right_inj' hc]
  rw [this]

theorem paintAll_scale {c : ℝ} (hc : c ≠ 0) (rows cols : List ℝ) (os : List VObj) : ∀ m : ℕ → ℕ → ℂ,
    paintAll (rows.map (c * ·)) (cols.map (c * ·)) (os.map (VObj.scale c)) m = paintAll rows cols os m := by
  induction os with
  | nil => intro m; rfl
  | cons o os ih =>
    intro m
    have hb : ∀ (l : List ℝ) (v : ℝ), beginIdx (l.map (c * ·)) (c * v) = beginIdx l v := by
      intro l v
      unfold beginIdx
      rw [listIndex_scale hc]
      by_cases h : v = 0
      · rw [if_pos h, if_pos (by rw [h, mul_zero])]
      · rw [if_neg h, if_neg (mul_ne_zero hc h)]
    have he : ∀ (l : List ℝ) (v : ℝ), endIdx (l.map (c * ·)) (c * v) = endIdx l v := by
      intro l v
      unfold endIdx
      rw [listIndex_scale hc]
    simp only [List.map_cons, paintAll, VObj.scale, hb, he]
    simp only [ih]

theorem vcell_ext {ny ny' nx nx' : ℕ} (hy : NeZero ny) (hx : NeZero nx) (hy' : NeZero ny') (hx' : NeZero nx') (e1 : ny = ny')
    (e2 : nx = nx') (m : ℕ → ℕ → ℂ) (x y : ℕ → ℝ) :
    (⟨ny, nx, hy, hx, fun i j => m i j, fun j => x j, fun i => y i⟩ : VCell)
      = ⟨ny', nx', hy', hx', fun i j => m i j, fun j => x j, fun i => y i⟩ := by
  subst e1; subst e2; rfl

theorem toVCell_scale (c : ℝ) (rows cols : List ℝ) (m : ℕ → ℕ → ℂ) :
    toVCell (rows.map (c * ·)) (cols.map (c * ·)) m = (toVCell rows cols m).map (VCell.scale c) := by
  unfold toVCell
  have hg : ∀ (l : List ℝ) (j : Fin l.length), l.get j = l.getD j.val 0 := by
    intro l j
    simp [List.getD_eq_getElem?_getD]
  have hs : ∀ (l : List ℝ) (j : ℕ), (l.map (c * ·)).getD j 0 = c * l.getD j 0 := by
    intro l j
    simp only [List.getD_eq_getElem?_getD, List.getElem?_map]
    cases l[j]? <;> simp
  by_cases h : rows.length ≠ 0 ∧ cols.length ≠ 0
  · have h' : (rows.map (c * ·)).length ≠ 0 ∧ (cols.map (c * ·)).length ≠ 0 := by simpa using h
    rw [dif_pos h, dif_pos h', ok_map]
    congr 1
    simp only [hg, hs, VCell.scale]
    exact vcell_ext _ _ _ _ (by simp) (by simp) m (fun j => c * cols.getD j 0) (fun i => c * rows.getD i 0)
  · have h' : ¬ ((rows.map (c * ·)).length ≠ 0 ∧ (cols.map (c * ·)).length ≠ 0) := by simpa using h
    rw [dif_neg h, dif_neg h', err_map]

theorem drawLayer_scale {c : ℝ} (hc : 0 < c) (period : ℝ × ℝ) (base : ℂ) (os : List VObj)
    (h : ∀ o ∈ os.tail, o.r0 ≠ 0 ∧ o.c0 ≠ 0) :
    drawLayer (c * period.1, c * period.2) base (os.map (VObj.scale c)) = (drawLayer period base os).map (VCell.scale c) := by
  unfold drawLayer vectorPerLayer
  rw [gridLayer_scale hc os h]
  simp only [GridAcc.scale, finishEdges_scale hc.ne', paintAll_scale hc.ne']
  cases paintAll (finishEdges (gridLayer os).rows period.2) (finishEdges (gridLayer os).cols period.1) (gridLayer os).objs
      (fun _ _ => base) with
  | error e => rfl
  | ok m => simp only [ok_bind, toVCell_scale]

theorem modeling_scale {c : ℝ} (hc : 0 < c) (period : ℝ × ℝ) (ls : List VLayer)
    (h : ∀ l ∈ ls, ∀ os, l.objs = .ok os → ∀ o ∈ os.tail, o.r0 ≠ 0 ∧ o.c0 ≠ 0) :
    modeling_vector_instruction (c * period.1, c * period.2) (ls.map fun l => ⟨l.base, l.instrs.map (Spec.scaleInstr c)⟩)
      = (modeling_vector_instruction period ls).map (List.map (VCell.scale c)) := by
  unfold modeling_vector_instruction
  set f : VLayer → Res (ℂ × List VObj) := fun l => l.objs >>= fun o => .ok (l.base, o) with hf
  have e1 : (ls.map fun l => (⟨l.base, l.instrs.map (Spec.scaleInstr c)⟩ : VLayer)).mapM f
      = (ls.mapM f).map (List.map fun bo : ℂ × List VObj => (bo.1, bo.2.map (VObj.scale c))) := by
    apply mapM_map
    intro l hl
    rw [hf]
    simp only
    rw [objs_scale hc]
    cases l.objs <;> rfl
  rw [e1]
  have hmem : ∀ os, ls.mapM f = .ok os → ∀ bo ∈ os, ∀ o ∈ bo.2.tail, o.r0 ≠ 0 ∧ o.c0 ≠ 0 := by
    clear e1
    induction ls with
    | nil =>
      intro os hos bo hbo
      cases hos
      simp at hbo
    | cons l ls ih =>
      intro os hos
      rw [List.mapM_cons] at hos
      cases h1 : f l with
      | error e => rw [h1] at hos; cases hos
      | ok b =>
        cases h2 : ls.mapM f with
        | error e => rw [h1, h2] at hos; cases hos
        | ok bs =>
          rw [h1, h2] at hos
          cases hos
          intro bo hbo
          rcases List.mem_cons.mp hbo with rfl | hbo
          · rw [hf] at h1
            simp only at h1
            cases h3 : l.objs with
            | error e => rw [h3] at h1; cases h1
            | ok o =>
              rw [h3] at h1
              cases h1
              exact h l (by simp) o h3
          · exact ih (fun l hl => h l (by simp [hl])) bs h2 bo hbo
  cases h2 : ls.mapM f with
  | error e => rfl
  | ok os =>
    simp only [ok_map, ok_bind]
    apply mapM_map
    intro bo hbo
    exact drawLayer_scale hc period bo.1 bo.2 (hmem os h2 bo hbo)

theorem convMats_scaled_vector {c : ℝ} (hc : 0 < c) (la : LinAlg) (s : Settings) (ls : List VLayer) (hs : s.ucell = .vector ls)
    (h : ∀ l ∈ ls, ∀ os, l.objs = .ok os → ∀ o ∈ os.tail, o.r0 ≠ 0 ∧ o.c0 ≠ 0) :
    convMats la (Spec.scaled c s) = convMats la s := by
  obtain ⟨p, u, ft, en, al⟩ := s
  simp only at hs
  subst hs
  have e := modeling_scale hc p.period ls h
  have e1 : convMats la (Spec.scaled c ⟨p, .vector ls, ft, en, al⟩) =
      (modeling_vector_instruction (c * p.period.1, c * p.period.2)
        (ls.map fun l => ⟨l.base, l.instrs.map (Spec.scaleInstr c)⟩)) >>= fun cells =>
        to_conv_mat_vector la cells p.fto.1 p.fto.2 p.use_pinv := rfl
  have e2 : convMats la ⟨p, .vector ls, ft, en, al⟩ = modeling_vector_instruction p.period ls >>= fun cells =>
        to_conv_mat_vector la cells p.fto.1 p.fto.2 p.use_pinv := rfl
  rw [e1, e2, e]
  cases modeling_vector_instruction p.period ls with
  | error e => rfl
  | ok cells => exact to_conv_mat_vector_scale hc.ne' la cells _ _ _

theorem convMats_scaled_raster (c : ℝ) (la : LinAlg) (s : Settings) (u : Ucell) (hs : s.ucell = .raster u) :
    convMats la (Spec.scaled c s) = convMats la s := by
  obtain ⟨p, u', ft, en, al⟩ := s
  simp only at hs
  subst hs
  rfl

end Meent
