import Verif.Lemmas.TorchAniso

/-!
# Vector layers with indices of three components (PyTorch, helper lemmas)
-/

set_option linter.unusedSimpArgs false
set_option linter.unusedVariables false

open Matrix

namespace Meent

/-- The box with another index. -/
def VObj.withN (o : VObj) (n : ℂ) : VObj := { o with n := n }

theorem slices_withN (left : Bool) (n : ℂ) : ∀ l : List Sample, slices left n l = (slices left 0 l).map (·.withN n)
  | [] => rfl
  | [_] => rfl
  | a :: b :: rest => by
    unfold slices
    rw [List.map_cons, slices_withN left n (b :: rest)]
    congr 1
    split <;> rfl

theorem pairBoxes_withN (n : ℂ) : ∀ l : List Pt, pairBoxes n l = (pairBoxes 0 l).map (·.withN n)
  | [] => rfl
  | [_] => rfl
  | a :: b :: rest => by
    unfold pairBoxes
    rw [List.map_cons, pairBoxes_withN n (b :: rest)]
    rfl

theorem rectangle_withN (cx cy lx ly : ℝ) (n : ℂ) (a : ℝ) (nt np : ℕ) :
    rectangle cx cy lx ly n a nt np = (rectangle cx cy lx ly 0 a nt np).map (List.map (·.withN n)) := by
  unfold rectangle
  dsimp only
  split_ifs
  · rfl
  · rfl
  · rfl
  · rfl
  · cases rotInfo cx cy lx ly (pyMod a (2 * Real.pi)) <;> rfl
  · cases rotInfo cx cy lx ly (pyMod a (2 * Real.pi)) with
    | error e => rfl
    | ok r => exact congrArg Except.ok (slices_withN _ _ _)

theorem ellipse_withN (cx cy lx ly : ℝ) (n : ℂ) (a : ℝ) (nw nh : ℕ) :
    ellipse cx cy lx ly n a nw nh = (ellipse cx cy lx ly 0 a nw nh).map (List.map (·.withN n)) := by
  unfold ellipse
  split
  · rfl
  dsimp only
  cases argmaxY (nw - 1) (ellipsePt cx cy lx ly a nw) with
  | none => rfl
  | some h0 =>
    dsimp only
    cases argmaxY (nw - 1) (rollTo (nw - 1) h0 (ellipsePt cx cy lx ly a nw)) with
    | none => rfl
    | some h =>
      dsimp only
      split
      · exact congrArg Except.ok (pairBoxes_withN _ _)
      · rfl

theorem toVector_eq (n : AIndex) (k : Fin 3) : n.toVector k = Spec.indexAt k n := by cases n <;> rfl

/-- The boxes of a layer with one component of the indices. -/
def boxesAt (k : Fin 3) (os : List (VObj × AIndex)) : List VObj := os.map fun o => o.1.withN (Spec.indexAt k o.2)

theorem boxesAt_map (k : Fin 3) (n : AIndex) (os : List VObj) :
    boxesAt k (os.map fun o => (o, n)) = os.map (·.withN (Spec.indexAt k n)) := by
  unfold boxesAt
  rw [List.map_map]
  rfl

theorem instrAt_run (k : Fin 3) (i : AInstr) : (Spec.instrAt k i).run = i.run.map (boxesAt k) := by
  cases i with
  | rectangle cx cy lx ly n a nt np =>
    show rectangle cx cy lx ly (Spec.indexAt k n) a nt np = _
    rw [rectangle_withN]
    show _ = Except.map (boxesAt k) (rectangle cx cy lx ly 0 a nt np >>= fun os => Except.ok (os.map fun o => (o, n)))
    cases rectangle cx cy lx ly 0 a nt np with
    | error e => rfl
    | ok os => exact congrArg Except.ok (boxesAt_map k n os).symm
  | ellipse cx cy lx ly n a nw nh =>
    show ellipse cx cy lx ly (Spec.indexAt k n) a nw nh = _
    rw [ellipse_withN]
    show _ = Except.map (boxesAt k) (ellipse cx cy lx ly 0 a nw nh >>= fun os => Except.ok (os.map fun o => (o, n)))
    cases ellipse cx cy lx ly 0 a nw nh with
    | error e => rfl
    | ok os => exact congrArg Except.ok (boxesAt_map k n os).symm
  | unknown => rfl

theorem mapM_mapRes {α β γ : Type} (f : α → Res β) (g : β → γ) : ∀ l : List α,
    (l.mapM fun a => (f a).map g) = (l.mapM f).map (List.map g)
  | [] => rfl
  | a :: l => by
    rw [List.mapM_cons, List.mapM_cons, mapM_mapRes f g l]
    cases f a with
    | error e => rfl
    | ok b => cases l.mapM f <;> rfl

theorem layerAt_objs (k : Fin 3) (l : AVLayer) : (Spec.layerAt k l).objs = l.objs.map (boxesAt k) := by
  have h : (l.instrs.map (Spec.instrAt k)).mapM VInstr.run = (l.instrs.mapM AInstr.run).map (List.map (boxesAt k)) := by
    rw [mapM_map', ← mapM_mapRes]
    exact congrArg (fun f => l.instrs.mapM f) (funext fun i => instrAt_run k i)
  unfold VLayer.objs AVLayer.objs
  show ((l.instrs.map (Spec.instrAt k)).mapM VInstr.run >>= _) = _
  rw [h]
  cases l.instrs.mapM AInstr.run with
  | error e => rfl
  | ok os =>
    refine congrArg Except.ok ?_
    simp only [boxesAt]
    rw [List.map_flatten]
    rfl

/-! ### Grid -/

theorem gridStep_withN (s : GridAcc) (o : VObj) (n : ℂ) (ns : List ℂ) (hl : s.objs.length = ns.length) :
    gridStep { s with objs := List.zipWith VObj.withN s.objs ns } (o.withN n)
      = { gridStep s o with objs := List.zipWith VObj.withN (gridStep s o).objs (ns ++ [n]) } := by
  unfold gridStep
  dsimp only
  rw [List.zipWith_append hl]
  rfl

theorem gridFold_withN : ∀ (os : List (VObj × ℂ)) (s : GridAcc) (ns : List ℂ), s.objs.length = ns.length →
    (os.map fun o => o.1.withN o.2).foldl gridStep { s with objs := List.zipWith VObj.withN s.objs ns }
      = { (os.map Prod.fst).foldl gridStep s with
          objs := List.zipWith VObj.withN ((os.map Prod.fst).foldl gridStep s).objs (ns ++ os.map Prod.snd) } ∧
    ((os.map Prod.fst).foldl gridStep s).objs.length = (ns ++ os.map Prod.snd).length
  | [], s, ns, hl => by simp [hl]
  | o :: os, s, ns, hl => by
    simp only [List.map_cons, List.foldl_cons]
    rw [gridStep_withN s o.1 o.2 ns hl]
    have := gridFold_withN os (gridStep s o.1) (ns ++ [o.2]) (by unfold gridStep; simp [hl])
    rw [List.append_assoc] at this
    exact this

theorem gridLayer_withN (os : List (VObj × ℂ)) :
    gridLayer (os.map fun o => o.1.withN o.2)
      = { gridLayer (os.map Prod.fst) with objs := List.zipWith VObj.withN (gridLayer (os.map Prod.fst)).objs (os.map Prod.snd) } := by
  have := (gridFold_withN os { rows := [], cols := [], pert := 0, objs := [] } [] rfl).1
  simpa [gridLayer] using this

theorem paintAll_with (rows cols : List ℝ) : ∀ (os : List VObj) (ns : List ℂ) (m : ℕ → ℕ → ℂ),
    paintAll rows cols (List.zipWith VObj.withN os ns) m = paintAllWith rows cols (os.zip ns) m
  | [], ns, m => by simp [paintAll, paintAllWith]
  | o :: os, [], m => by simp [paintAll, paintAllWith]
  | o :: os, n :: ns, m => by
    rw [List.zipWith_cons_cons, List.zip_cons_cons]
    unfold paintAll paintAllWith
    simp only [paintAll_with rows cols os ns]
    rfl

theorem paintAllWith_map {α β : Type} (f : α → β) (rows cols : List ℝ) : ∀ (os : List (VObj × α)) (m : ℕ → ℕ → α),
    paintAllWith rows cols (os.map fun o => (o.1, f o.2)) (fun i j => f (m i j))
      = (paintAllWith rows cols os m).map fun m' i j => f (m' i j)
  | [], m => rfl
  | o :: os, m => by
    rw [List.map_cons]
    unfold paintAllWith
    cases beginIdx rows o.1.r0 with
    | error e => rfl
    | ok r0 => cases endIdx rows o.1.r1 with
      | error e => rfl
      | ok r1 => cases beginIdx cols o.1.c0 with
        | error e => rfl
        | ok c0 => cases endIdx cols o.1.c1 with
          | error e => rfl
          | ok c1 =>
            refine Eq.trans ?_ (paintAllWith_map f rows cols os _)
            show paintAllWith rows cols _ _ = _
            congr 1
            funext i j
            split <;> rfl

/-- Drawing commutes with taking a component. -/
theorem aDrawLayer_at (period : ℝ × ℝ) (base : AIndex) (os : List (VObj × AIndex)) (k : Fin 3) :
    (aDrawLayer period base os).map (Spec.cellAt k) = drawLayer period (Spec.indexAt k base) (boxesAt k os) := by
  have hg : gridLayer (boxesAt k os) = { gridLayer (os.map Prod.fst) with
      objs := List.zipWith VObj.withN (gridLayer (os.map Prod.fst)).objs (os.map fun o => Spec.indexAt k o.2) } := by
    have := gridLayer_withN (os.map fun o => (o.1, Spec.indexAt k o.2))
    simp only [List.map_map, Function.comp_def] at this
    exact this
  have hd : drawLayer period (Spec.indexAt k base) (boxesAt k os) =
      (paintAllWith (finishEdges (gridLayer (os.map Prod.fst)).rows period.2) (finishEdges (gridLayer (os.map Prod.fst)).cols period.1)
        ((gridLayer (os.map Prod.fst)).objs.zip (os.map fun o => Spec.indexAt k o.2)) (fun _ _ => Spec.indexAt k base) >>= fun m =>
        toVCell (finishEdges (gridLayer (os.map Prod.fst)).rows period.2) (finishEdges (gridLayer (os.map Prod.fst)).cols period.1) m) := by
    unfold drawLayer vectorPerLayer
    dsimp only
    rw [hg]
    dsimp only
    rw [paintAll_with]
    cases paintAllWith (finishEdges (gridLayer (os.map Prod.fst)).rows period.2) (finishEdges (gridLayer (os.map Prod.fst)).cols period.1)
        ((gridLayer (os.map Prod.fst)).objs.zip (os.map fun o => Spec.indexAt k o.2)) (fun _ _ => Spec.indexAt k base) <;> rfl
  rw [hd]
  unfold aDrawLayer
  dsimp only
  generalize finishEdges (gridLayer (os.map Prod.fst)).rows period.2 = rows
  generalize finishEdges (gridLayer (os.map Prod.fst)).cols period.1 = cols
  generalize (gridLayer (os.map Prod.fst)).objs = gs
  by_cases ha : (base.isVector || os.any fun o => o.2.isVector) = true
  · rw [if_pos ha]
    have hz : (gs.zip (os.map fun o => o.2.toVector)).map (fun o => (o.1, o.2 k)) = gs.zip (os.map fun o => Spec.indexAt k o.2) := by
      rw [← List.map_id gs, List.zip_map, List.map_map]
      conv_rhs => rw [List.zip_map]
      apply List.map_congr_left
      rintro ⟨g, o⟩ -
      simp [toVector_eq]
    have hp := paintAllWith_map (fun v : Fin 3 → ℂ => v k) rows cols (gs.zip (os.map fun o => o.2.toVector)) (fun _ _ => base.toVector)
    rw [hz] at hp
    simp only [toVector_eq] at hp
    rw [hp]
    cases paintAllWith rows cols (gs.zip (os.map fun o => o.2.toVector)) (fun _ _ => base.toVector) with
    | error e => rfl
    | ok m =>
      show Except.map (Spec.cellAt k) (toVCell rows cols (fun i j => m i j 0) >>= fun c0 => toVCell rows cols (fun i j => m i j 1) >>= fun c1 =>
        toVCell rows cols (fun i j => m i j 2) >>= fun c2 => Except.ok (ALayer.aniso ![c0, c1, c2])) = toVCell rows cols (fun i j => m i j k)
      unfold toVCell
      by_cases hn : rows.length ≠ 0 ∧ cols.length ≠ 0
      · simp only [dif_pos hn]
        refine congrArg Except.ok ?_
        fin_cases k <;> rfl
      · simp only [dif_neg hn]
        rfl
  · rw [if_neg ha]
    simp only [Bool.or_eq_true, not_or, Bool.not_eq_true, List.any_eq_false] at ha
    have h1 : ∀ n : AIndex, n.isVector = false → n.toVector 0 = Spec.indexAt k n := by
      intro n hn
      cases n with
      | scalar n => rfl
      | vector v => cases hn
    have h2 : (os.map fun o => o.2.toVector 0) = os.map fun o => Spec.indexAt k o.2 :=
      List.map_congr_left fun o ho => h1 o.2 (by simpa using ha.2 o ho)
    rw [h1 base ha.1, h2]
    cases paintAllWith rows cols (gs.zip (os.map fun o => Spec.indexAt k o.2)) (fun _ _ => Spec.indexAt k base) with
    | error e => rfl
    | ok m =>
      show Except.map _ (toVCell rows cols m >>= fun c => _) = toVCell rows cols m
      cases toVCell rows cols m <;> rfl

theorem aModeling_at (period : ℝ × ℝ) (ls : List AVLayer) (k : Fin 3) :
    (aModeling_vector_instruction period ls).map (List.map (Spec.cellAt k))
      = modeling_vector_instruction period (ls.map (Spec.layerAt k)) := by
  unfold aModeling_vector_instruction modeling_vector_instruction
  have h1 : ((ls.map (Spec.layerAt k)).mapM fun l => do
      let o ← l.objs
      .ok (l.base, o)) = (ls.mapM fun l => do
      let o ← l.objs
      .ok (l.base, o) : Res _).map (List.map fun bo : AIndex × List (VObj × AIndex) => (Spec.indexAt k bo.1, boxesAt k bo.2)) := by
    rw [mapM_map', ← mapM_mapRes]
    refine congrArg (fun f => ls.mapM f) (funext fun l => ?_)
    rw [layerAt_objs]
    cases l.objs <;> rfl
  rw [h1]
  cases (ls.mapM fun l => do
      let o ← l.objs
      .ok (l.base, o) : Res _) with
  | error e => rfl
  | ok os =>
    show (os.mapM fun bo => aDrawLayer period bo.1 bo.2).map _ = (os.map _).mapM _
    rw [mapM_map', ← mapM_mapRes]
    exact congrArg (fun f => os.mapM f) (funext fun bo => aDrawLayer_at period bo.1 bo.2 k)

/-! ### Matrices -/

theorem tConvVector_eq (la : LinAlg) (fx fy : ℕ) (u : Bool) (l : ALayer) :
    tConvVector la fx fy u l = tConvContinuous la (Spec.cellAt 0 l) (Spec.cellAt 1 l) (Spec.cellAt 2 l) fx fy u := by
  cases l <;> rfl

theorem tConvContinuous_of {la : LinAlg} {cx cy cz : VCell} {fx fy : ℕ} {u : Bool} {c0 c1 c2 : Conv (FlatIdx fx fy)}
    (h0 : convContinuous la cx fx fy u = .ok c0) (h1 : convContinuous la cy fx fy u = .ok c1)
    (h2 : convContinuous la cz fx fy u = .ok c2) : tConvContinuous la cx cy cz fx fy u = .ok ⟨c0.epx, c1.epy, c2.epzi⟩ := by
  unfold convContinuous at h0 h1 h2
  simp only [Except.bind_ok, Except.ok.injEq] at h0 h1 h2
  obtain ⟨_, _, _, _, x, hx, _, _, rfl⟩ := h0
  obtain ⟨_, _, y, hy, _, _, _, _, rfl⟩ := h1
  obtain ⟨z, hz, _, _, _, _, zi, hzi, rfl⟩ := h2
  unfold tConvContinuous
  simp only [Except.bind_ok, Except.ok.injEq]
  exact ⟨z, hz, y, hy, x, hx, by rw [tMeeinv_of_ok hzi]⟩

/-- The matrices of three-component vector layers are those of their components. -/
theorem avector_convMats {la : LinAlg} {s : TSettings} {ls : List AVLayer} (hu : s.ucell = .avector ls)
    {cs0 cs1 cs2 : List (Conv (FlatIdx s.p.fto.1 s.p.fto.2))}
    (h0 : convMats la (Spec.vectorAt s ls 0) = .ok cs0) (h1 : convMats la (Spec.vectorAt s ls 1) = .ok cs1)
    (h2 : convMats la (Spec.vectorAt s ls 2) = .ok cs2) :
    ∃ cs, tConvMats la s = .ok cs ∧ cs.length = ls.length ∧ ∀ c ∈ cs, FromComponents cs0 cs1 cs2 c := by
  have hk : ∀ {k : Fin 3} {cs : List (Conv (FlatIdx s.p.fto.1 s.p.fto.2))}, convMats la (Spec.vectorAt s ls k) = .ok cs →
      ∃ L, aModeling_vector_instruction s.p.period ls = .ok L ∧
        (L.mapM fun l => convContinuous la (Spec.cellAt k l) s.p.fto.1 s.p.fto.2 s.p.use_pinv) = .ok cs := by
    intro k cs h
    unfold convMats Spec.vectorAt at h
    dsimp only at h
    obtain ⟨cells, hc, h⟩ := Except.bind_ok.mp h
    rw [← aModeling_at] at hc
    cases hm : aModeling_vector_instruction s.p.period ls with
    | error e => rw [hm] at hc; cases hc
    | ok L =>
      rw [hm] at hc
      cases hc
      refine ⟨L, rfl, ?_⟩
      rw [to_conv_mat_vector, mapM_map'] at h
      exact h
  obtain ⟨L, hL, g0⟩ := hk h0
  obtain ⟨L1, hL1, g1⟩ := hk h1
  obtain ⟨L2, hL2, g2⟩ := hk h2
  obtain rfl : L1 = L := by rw [hL] at hL1; cases hL1; rfl
  obtain rfl : L2 = L1 := by rw [hL] at hL2; cases hL2; rfl
  obtain ⟨es, e1, e2, e3⟩ := mapM_three (g := tConvVector la s.p.fto.1 s.p.fto.2 s.p.use_pinv) (k := fun a b c => ⟨a.epx, b.epy, c.epzi⟩)
    (fun a b c d hb hc hd => by rw [tConvVector_eq]; exact tConvContinuous_of hb hc hd) g0 g1 g2
  refine ⟨es, ?_, ?_, ?_⟩
  · unfold tConvMats
    simp only [hu, TStructure.components]
    exact Except.bind_ok.mpr ⟨_, hL, e1⟩
  · rw [e2]
    have := congrArg (Except.map List.length) (aModeling_at s.p.period ls 0)
    rw [hL] at this
    have h3 := this.symm
    unfold modeling_vector_instruction at h3
    cases ho : ((ls.map (Spec.layerAt 0)).mapM fun l => do
        let o ← l.objs
        .ok (l.base, o) : Res _) with
    | error e => rw [ho] at h3; cases h3
    | ok os =>
      rw [ho] at h3
      cases hq : (os.mapM fun bo => drawLayer s.p.period bo.1 bo.2) with
      | error e =>
        have : (Except.error e : Res (List VCell)).map List.length = Except.ok (L2.map (Spec.cellAt 0)).length := by rw [← hq]; exact h3
        cases this
      | ok qs =>
        have h4 : (Except.ok qs : Res (List VCell)).map List.length = Except.ok (L2.map (Spec.cellAt 0)).length := by rw [← hq]; exact h3
        have h5 : qs.length = L2.length := by
          have := Except.ok.inj h4
          simpa using this
        have h6 := (mapM_ok.mp ho).length_eq
        have h7 := (mapM_ok.mp hq).length_eq
        simp only [List.length_map] at h6
        omega
  · intro c hc
    obtain ⟨c0, m0, c1, m1, c2, m2, rfl⟩ := e3 c hc
    exact ⟨c0, m0, c1, m1, c2, m2, rfl, rfl, rfl⟩

end Meent
