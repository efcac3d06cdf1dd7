import Verif.Lemmas.TorchVector
import Verif.Lemmas.Example2D
import Verif.Props.C35
import Verif.Props.C69

/-!
# C71: vector layers with indices of three components (PyTorch)
-/

set_option linter.unusedSimpArgs false
set_option linter.unusedVariables false

open Matrix

namespace Meent

/-- **C71, components.** Drawing layers whose indices have three components gives, in each component, exactly what drawing the
layers with that component of every index gives, exceptions included. -/
theorem C71_components (period : ℝ × ℝ) (ls : List AVLayer) (k : Fin 3) :
    (aModeling_vector_instruction period ls).map (List.map (Spec.cellAt k))
      = modeling_vector_instruction period (ls.map (Spec.layerAt k)) :=
  aModeling_at period ls k

private theorem painted_unique {base : ℂ} {objs : List VObj} {x y : ℝ} {z z' : ℂ} (h : Spec.PaintedAs base objs x y z)
    (h' : Spec.PaintedAs base objs x y z') : z = z' := by
  induction objs using List.reverseRecOn with
  | nil =>
    rcases h with ⟨b, o, a, e, -⟩ | ⟨-, rfl⟩
    · cases b <;> cases e
    rcases h' with ⟨b, o, a, e, -⟩ | ⟨-, rfl⟩
    · cases b <;> cases e
    rfl
  | append_singleton os w ih =>
    have key : ∀ {z}, Spec.PaintedAs base (os ++ [w]) x y z →
        (Spec.Covers w x y ∧ z = w.n) ∨ (¬ Spec.Covers w x y ∧ Spec.PaintedAs base os x y z) := by
      intro z h
      rcases h with ⟨b, o, a, e, h1, h2, h3⟩ | ⟨h1, h2⟩
      · rcases List.eq_nil_or_concat a with rfl | ⟨a', w', rfl⟩
        · obtain ⟨rfl, e2⟩ := List.append_inj' e rfl
          cases e2
          exact Or.inl ⟨h1, h3⟩
        · rw [List.concat_eq_append, ← List.cons_append, ← List.append_assoc] at e
          obtain ⟨e1, e2⟩ := List.append_inj' e rfl
          cases e2
          exact Or.inr ⟨h2 w (by simp), Or.inl ⟨b, o, a', e1, h1, fun o' ho' => h2 o' (by simp [ho']), h3⟩⟩
      · exact Or.inr ⟨h1 w (by simp), Or.inr ⟨fun o ho => h1 o (by simp [ho]), h2⟩⟩
    rcases key h with ⟨c, rfl⟩ | ⟨c, p⟩ <;> rcases key h' with ⟨c', rfl⟩ | ⟨c', p'⟩
    · rfl
    · exact absurd c c'
    · exact absurd c' c
    · exact ih p p'

private theorem triple_exists (base : AIndex) (os : List (VObj × AIndex)) (x y : ℝ) : ∃ t, Spec.TriplePaintedAs base os x y t := by
  induction os using List.reverseRecOn with
  | nil => exact ⟨fun k => Spec.indexAt k base, Or.inr ⟨by simp, fun _ => rfl⟩⟩
  | append_singleton os w ih =>
    by_cases hw : Spec.Covers w.1 x y
    · exact ⟨fun k => Spec.indexAt k w.2, Or.inl ⟨os, w, [], rfl, hw, by simp, fun _ => rfl⟩⟩
    · obtain ⟨t, ⟨b, o, a, rfl, h1, h2, h3⟩ | ⟨h1, h2⟩⟩ := ih
      · refine ⟨t, Or.inl ⟨b, o, a ++ [w], by simp, h1, ?_, h3⟩⟩
        intro o' ho'
        rcases List.mem_append.mp ho' with h | h
        · exact h2 o' h
        · obtain rfl := List.mem_singleton.mp h
          exact hw
      · refine ⟨t, Or.inr ⟨?_, h2⟩⟩
        intro o' ho'
        rcases List.mem_append.mp ho' with h | h
        · exact h1 o' h
        · obtain rfl := List.mem_singleton.mp h
          exact hw

private theorem triple_at {base : AIndex} {os : List (VObj × AIndex)} {x y : ℝ} {t : Fin 3 → ℂ} (h : Spec.TriplePaintedAs base os x y t)
    (k : Fin 3) : Spec.PaintedAs (Spec.indexAt k base) (boxesAt k os) x y (t k) := by
  rcases h with ⟨b, o, a, rfl, h1, h2, h3⟩ | ⟨h1, h2⟩
  · refine Or.inl ⟨boxesAt k b, o.1.withN (Spec.indexAt k o.2), boxesAt k a, by simp [boxesAt], h1, ?_, h3 k⟩
    intro o' ho'
    obtain ⟨o'', m, rfl⟩ := List.mem_map.mp ho'
    exact h2 o'' m
  · refine Or.inr ⟨?_, h2 k⟩
    intro o' ho'
    obtain ⟨o'', m, rfl⟩ := List.mem_map.mp ho'
    exact h1 o'' m

private theorem rowEdges_at (k : Fin 3) (os : List (VObj × AIndex)) : Spec.rowEdges (boxesAt k os) = Spec.rowEdges (os.map Prod.fst) := by
  simp only [Spec.rowEdges, boxesAt, List.flatMap_map]
  rfl

private theorem colEdges_at (k : Fin 3) (os : List (VObj × AIndex)) : Spec.colEdges (boxesAt k os) = Spec.colEdges (os.map Prod.fst) := by
  simp only [Spec.colEdges, boxesAt, List.flatMap_map]
  rfl

/-- **C71, paint.** Every layer is drawn from its own instructions: a point that is not within rounding distance of an edge lies, in
each component, in exactly one cell, and the three cells hold the index triple of the last listed object covering the point, or the
base triple if no object covers it. -/
theorem C71_paint (period : ℝ × ℝ) (ls : List AVLayer) (ds : List ALayer) (h : aModeling_vector_instruction period ls = .ok ds) :
    ds.length = ls.length ∧
    ∀ (n : ℕ) (d : ALayer), ds[n]? = some d → ∃ l os, ls[n]? = some l ∧ l.objs = .ok os ∧
      ∀ x y, 0 < x ∧ x < period.1 → 0 < y ∧ y < period.2 →
        (∀ v ∈ Spec.rowEdges (os.map Prod.fst), Spec.Clear os.length v y) →
        (∀ v ∈ Spec.colEdges (os.map Prod.fst), Spec.Clear os.length v x) →
        ∃ t, Spec.TriplePaintedAs l.base os x y t ∧ ∀ k, ∃ i j, Spec.InCell (Spec.cellAt k d) x y i j ∧
          (∀ i' j', Spec.InCell (Spec.cellAt k d) x y i' j' → i' = i ∧ j' = j) ∧ (Spec.cellAt k d).val i j = t k := by
  have hk : ∀ k, modeling_vector_instruction period (ls.map (Spec.layerAt k)) = .ok (ds.map (Spec.cellAt k)) := by
    intro k
    rw [← aModeling_at, h]
    rfl
  refine ⟨by simpa using (C35_layers period _ _ (hk 0)).1, fun n d hd => ?_⟩
  have hc : ∀ k, (ds.map (Spec.cellAt k))[n]? = some (Spec.cellAt k d) := fun k => by rw [List.getElem?_map, hd]; rfl
  obtain ⟨l0, objs0, e1, e2, -⟩ := (C35_layers period _ _ (hk 0)).2 n _ (hc 0)
  rw [List.getElem?_map] at e1
  cases hl : ls[n]? with
  | none => rw [hl] at e1; cases e1
  | some l =>
    rw [hl] at e1
    cases e1
    rw [layerAt_objs] at e2
    cases ho : l.objs with
    | error e => rw [ho] at e2; cases e2
    | ok os =>
      refine ⟨l, os, rfl, ho, fun x y hx hy hr hcl => ?_⟩
      obtain ⟨t, ht⟩ := triple_exists l.base os x y
      refine ⟨t, ht, fun k => ?_⟩
      obtain ⟨lk, objs, f1, f2, f3⟩ := (C35_layers period _ _ (hk k)).2 n _ (hc k)
      rw [List.getElem?_map, hl] at f1
      cases f1
      rw [layerAt_objs, ho] at f2
      cases f2
      have hlen : (boxesAt k os).length = os.length := by simp [boxesAt]
      obtain ⟨i, j, g1, g2, g3⟩ := f3 x y hx hy (by rw [rowEdges_at, hlen]; exact hr) (by rw [colEdges_at, hlen]; exact hcl)
      exact ⟨i, j, g1, g2, painted_unique g3 (triple_at ht k)⟩

private theorem tConvMats_avector (la : LinAlg) (s : TSettings) (ls : List AVLayer) :
    tConvMats la (Spec.withCell s (.avector ls)) = (aModeling_vector_instruction s.p.period ls >>= fun ds =>
      ds.mapM (tConvVector la s.p.fto.1 s.p.fto.2 s.p.use_pinv)) := rfl

private theorem mapM_congr_at {la : LinAlg} {fx fy : ℕ} {u : Bool} : ∀ {ds ds' : List ALayer},
    (∀ k, ds.map (Spec.cellAt k) = ds'.map (Spec.cellAt k)) → ds.mapM (tConvVector la fx fy u) = ds'.mapM (tConvVector la fx fy u)
  | [], [], _ => rfl
  | [], d' :: ds', h => by have := h 0; cases this
  | d :: ds, [], h => by have := h 0; cases this
  | d :: ds, d' :: ds', h => by
    have e : ∀ k, Spec.cellAt k d = Spec.cellAt k d' ∧ ds.map (Spec.cellAt k) = ds'.map (Spec.cellAt k) := fun k => List.cons.inj (h k)
    rw [List.mapM_cons, List.mapM_cons, mapM_congr_at fun k => (e k).2, tConvVector_eq, tConvVector_eq, (e 0).1, (e 1).1, (e 2).1]

private theorem solve_congr {la : LinAlg} {s : TSettings} {u u' : TStructure} (hr : u.rows = none) (hr' : u'.rows = none)
    (h : tConvMats la (Spec.withCell s u) = tConvMats la (Spec.withCell s u')) :
    tConv_solve la (Spec.withCell s u) = tConv_solve la (Spec.withCell s u') := by
  have hg : ∀ {u : TStructure}, u.rows = none → tGratingType (Spec.withCell s u) = 2 := by
    intro u hu
    unfold tGratingType
    simp only [Spec.withCell, hu]
  unfold tConv_solve
  rw [h]
  show (tConvMats la (Spec.withCell s u') >>= fun cs => tSolve_for_conv la (Spec.withCell s u) s.p.wavelength cs) =
    (tConvMats la (Spec.withCell s u') >>= fun cs => tSolve_for_conv la (Spec.withCell s u') s.p.wavelength cs)
  congr 1
  funext cs
  unfold tSolve_for_conv
  rw [hg hr, hg hr']

/-- **C71, only the components matter.** Two lists of layers that agree in each component of every index are solved alike: a number
means three equal components, wherever it is written. -/
theorem C71_same_components (la : LinAlg) (s : TSettings) (ls ls' : List AVLayer)
    (h : ∀ k, ls.map (Spec.layerAt k) = ls'.map (Spec.layerAt k)) :
    tConv_solve la (Spec.withCell s (.avector ls)) = tConv_solve la (Spec.withCell s (.avector ls')) := by
  refine solve_congr rfl rfl ?_
  rw [tConvMats_avector, tConvMats_avector]
  have hk : ∀ k, (aModeling_vector_instruction s.p.period ls).map (List.map (Spec.cellAt k)) =
      (aModeling_vector_instruction s.p.period ls').map (List.map (Spec.cellAt k)) := fun k => by
    rw [aModeling_at, aModeling_at, h k]
  cases h1 : aModeling_vector_instruction s.p.period ls with
  | error e =>
    cases h2 : aModeling_vector_instruction s.p.period ls' with
    | error e' =>
      have := hk 0
      rw [h1, h2] at this
      cases this
      rfl
    | ok ds' =>
      have := hk 0
      rw [h1, h2] at this
      cases this
  | ok ds =>
    cases h2 : aModeling_vector_instruction s.p.period ls' with
    | error e' =>
      have := hk 0
      rw [h1, h2] at this
      cases this
    | ok ds' =>
      refine mapM_congr_at fun k => ?_
      have := hk k
      rw [h1, h2] at this
      exact Except.ok.inj this

private theorem plain_at (k : Fin 3) (l : VLayer) : Spec.layerAt k (Spec.plainLayer l) = l := by
  obtain ⟨b, is⟩ := l
  simp only [Spec.layerAt, Spec.plainLayer, Spec.indexAt, List.map_map, VLayer.mk.injEq, true_and]
  conv_rhs => rw [← List.map_id is]
  refine List.map_congr_left fun i _ => ?_
  cases i <;> rfl

/-- **C71, numbers.** Layers whose indices all are numbers are solved exactly as isotropic layers. -/
theorem C71_scalar (la : LinAlg) (s : TSettings) (ls : List VLayer) :
    tConv_solve la (Spec.withCell s (.avector (ls.map Spec.plainLayer))) = tConv_solve la (Spec.withCell s (.iso (.vector ls))) := by
  refine solve_congr rfl rfl ?_
  rw [tConvMats_avector]
  have h : ∀ k, (aModeling_vector_instruction s.p.period (ls.map Spec.plainLayer)).map (List.map (Spec.cellAt k)) =
      modeling_vector_instruction s.p.period ls := fun k => by
    rw [aModeling_at, List.map_map]
    congr 1
    conv_rhs => rw [← List.map_id ls]
    exact List.map_congr_left fun l _ => plain_at k l
  show _ = (modeling_vector_instruction s.p.period ls >>= fun cells =>
    cells.mapM fun c => tConvContinuous la c c c s.p.fto.1 s.p.fto.2 s.p.use_pinv)
  have h0 := h 0
  have h1 := h 1
  have h2 := h 2
  cases hm : aModeling_vector_instruction s.p.period (ls.map Spec.plainLayer) with
  | error e =>
    rw [hm] at h0
    rw [← h0]
    rfl
  | ok ds =>
    rw [hm] at h0 h1 h2
    have e1 : ds.map (Spec.cellAt 1) = ds.map (Spec.cellAt 0) := Except.ok.inj (h1.trans h0.symm)
    have e2 : ds.map (Spec.cellAt 2) = ds.map (Spec.cellAt 0) := Except.ok.inj (h2.trans h0.symm)
    rw [← h0]
    have e : ds.mapM (tConvVector la s.p.fto.1 s.p.fto.2 s.p.use_pinv) =
        (ds.map fun d => ALayer.iso (Spec.cellAt 0 d)).mapM (tConvVector la s.p.fto.1 s.p.fto.2 s.p.use_pinv) := by
      refine mapM_congr_at fun k => ?_
      rw [List.map_map]
      show ds.map (Spec.cellAt k) = ds.map (Spec.cellAt 0)
      match k with
      | 0 => rfl
      | 1 => exact e1
      | 2 => exact e2
    show ds.mapM _ = (ds.map (Spec.cellAt 0)).mapM _
    rw [e, mapM_map', mapM_map']
    rfl

private theorem mapM_get {α β : Type} {f : α → Res β} {l : List α} {r : List β} (h : l.mapM f = .ok r) {n : ℕ} {a : α} (ha : l[n]? = some a) :
    ∃ b, r[n]? = some b ∧ f a = .ok b := by
  induction l generalizing r n with
  | nil => simp at ha
  | cons x l ih =>
    rw [List.mapM_cons] at h
    obtain ⟨b, hb, h⟩ := Except.bind_ok.mp h
    obtain ⟨bs, hbs, h⟩ := Except.bind_ok.mp h
    cases h
    cases n with
    | zero =>
      cases ha
      exact ⟨b, rfl, hb⟩
    | succ n => exact ih hbs ha

/-- **C71, which component acts where.** The matrix acting on the electric field along `x` is that of the isotropic layer made of the
first components of the indices, the one along `y` that of the second components, and the one along `z` that of the third, layer by
layer. -/
theorem C71_matrices (la : LinAlg) (s : TSettings) (ls : List AVLayer) (hu : s.ucell = .avector ls)
    (cs : Fin 3 → List (Conv (FlatIdx s.p.fto.1 s.p.fto.2))) (h : ∀ k, convMats la (Spec.vectorAt s ls k) = .ok (cs k)) :
    ∃ es, tConvMats la s = .ok es ∧ es.length = ls.length ∧ ∀ (n : ℕ) e, es[n]? = some e → ∃ c : Fin 3 → Conv (FlatIdx s.p.fto.1 s.p.fto.2),
      (∀ k, (cs k)[n]? = some (c k)) ∧ e.epx = (c 0).epx ∧ e.epy = (c 1).epy ∧ e.epzi = (c 2).epzi := by
  obtain ⟨es, e1, e2, -⟩ := avector_convMats hu (h 0) (h 1) (h 2)
  refine ⟨es, e1, e2, fun n e he => ?_⟩
  have e1' := e1
  unfold tConvMats at e1'
  simp only [hu, TStructure.components] at e1'
  obtain ⟨ds, hd, e1'⟩ := Except.bind_ok.mp e1'
  have hn : n < ds.length := by
    have h1 := (mapM_ok.mp e1').length_eq
    have h2 := (List.getElem?_eq_some_iff.mp he).1
    omega
  obtain ⟨d, hdn⟩ : ∃ d, ds[n]? = some d := ⟨_, List.getElem?_eq_getElem hn⟩
  obtain ⟨e', he', hv⟩ := mapM_get e1' hdn
  obtain rfl : e' = e := by rw [he] at he'; cases he'; rfl
  have hk : ∀ k, ∃ c, (cs k)[n]? = some c ∧ convContinuous la (Spec.cellAt k d) s.p.fto.1 s.p.fto.2 s.p.use_pinv = .ok c := by
    intro k
    have := h k
    unfold convMats Spec.vectorAt at this
    dsimp only at this
    rw [← aModeling_at, hd] at this
    exact mapM_get (l := ds.map (Spec.cellAt k)) this (by rw [List.getElem?_map, hdn]; rfl)
  choose c hc1 hc2 using hk
  refine ⟨c, hc1, ?_⟩
  rw [tConvVector_eq, tConvContinuous_of (hc2 0) (hc2 1) (hc2 2)] at hv
  cases hv
  exact ⟨rfl, rfl, rfl⟩

/-! ### Energy -/

private theorem index_at {k : Fin 3} {l : AVLayer} {n : ℂ} (h : Spec.Media (Spec.layerAt k l) n) : ∃ a, Spec.UsedIndex l a ∧ n = Spec.indexAt k a := by
  rcases h with rfl | ⟨cx, cy, lx, ly, an, a, b, h | h⟩
  · exact ⟨l.base, Or.inl rfl, rfl⟩
  · obtain ⟨i, hi, e⟩ := List.mem_map.mp h
    cases i with
    | rectangle cx' cy' lx' ly' n' an' a' b' =>
      simp only [Spec.instrAt, VInstr.rectangle.injEq] at e
      exact ⟨n', Or.inr ⟨_, _, _, _, _, _, _, Or.inl hi⟩, e.2.2.2.2.1.symm⟩
    | ellipse => cases e
    | unknown => cases e
  · obtain ⟨i, hi, e⟩ := List.mem_map.mp h
    cases i with
    | ellipse cx' cy' lx' ly' n' an' a' b' =>
      simp only [Spec.instrAt, VInstr.ellipse.injEq] at e
      exact ⟨n', Or.inr ⟨_, _, _, _, _, _, _, Or.inr hi⟩, e.2.2.2.2.1.symm⟩
    | rectangle => cases e
    | unknown => cases e

private theorem instr_media {P : ℂ → Prop} {l : VLayer} (h : ∀ n, Spec.Media l n → P n) : ∀ v ∈ l.instrs, match v with
    | .rectangle _ _ _ _ n _ _ _ => P n
    | .ellipse _ _ _ _ n _ _ _ => P n
    | .unknown => True := by
  intro v hv
  cases v with
  | rectangle cx cy lx ly n a nt np => exact h n (Or.inr ⟨_, _, _, _, _, _, _, Or.inl hv⟩)
  | ellipse cx cy lx ly n a nt np => exact h n (Or.inr ⟨_, _, _, _, _, _, _, Or.inr hv⟩)
  | unknown => trivial

private theorem geometry_at {s : TSettings} {ls : List AVLayer} (h : Spec.OrdinaryVector s ls) (k : Fin 3) :
    Spec.GoodGeometry s.p.period (ls.map (Spec.layerAt k)) := by
  intro l hl os hos
  obtain ⟨l', hl', rfl⟩ := List.mem_map.mp hl
  rw [layerAt_objs] at hos
  cases ho : l'.objs with
  | error e => rw [ho] at hos; cases hos
  | ok os' =>
    rw [ho] at hos
    cases hos
    obtain ⟨h1, h2, h3⟩ := h.geometry l' hl' os' ho
    refine ⟨?_, by rw [rowEdges_at]; exact h2, by rw [colEdges_at]; exact h3⟩
    intro o hm
    obtain ⟨o', hm', rfl⟩ := List.mem_map.mp hm
    exact h1 o' hm'

private theorem media_at {ls : List AVLayer} {P : ℂ → Prop} (h : ∀ l ∈ ls, ∀ a, Spec.UsedIndex l a → ∀ k, P (Spec.indexAt k a)) (k : Fin 3) :
    ∀ l ∈ ls.map (Spec.layerAt k), ∀ n, Spec.Media l n → P n := by
  intro l hl n hn
  obtain ⟨l', hl', rfl⟩ := List.mem_map.mp hl
  obtain ⟨a, ha, rfl⟩ := index_at hn
  exact h l' hl' a ha k

private theorem drawn_at {s : TSettings} {ls : List AVLayer} (h : Spec.OrdinaryVector s ls) (k : Fin 3) :
    ∃ cells, modeling_vector_instruction s.p.period (ls.map (Spec.layerAt k)) = .ok cells := by
  obtain ⟨ds, hd⟩ := h.drawn
  exact ⟨_, by rw [← aModeling_at, hd]; rfl⟩

theorem avector_exists (la : LinAlg) {s : TSettings} {ls : List AVLayer} (hc : Spec.LosslessCladdings s.p) (hp : s.p.use_pinv = false)
    (h : Spec.OrdinaryVector s ls) :
    ∃ cs cs0 cs1 cs2, tConvMats la s = .ok cs ∧ cs.length = ls.length ∧ convMats la (Spec.vectorAt s ls 0) = .ok cs0 ∧
      convMats la (Spec.vectorAt s ls 1) = .ok cs1 ∧ convMats la (Spec.vectorAt s ls 2) = .ok cs2 ∧ ∀ c ∈ cs, FromComponents cs0 cs1 cs2 c := by
  have hk : ∀ k, ∃ cs, convMats la (Spec.vectorAt s ls k) = .ok cs := by
    intro k
    obtain ⟨cells, hd⟩ := drawn_at h k
    obtain ⟨cs, h1, -⟩ := C55_ordinary_vector la (Spec.vectorAt s ls k) _ rfl hp hc.period_x_pos hc.period_y_pos (geometry_at h k) cells hd
      (media_at h.media k)
    exact ⟨cs, h1⟩
  obtain ⟨cs0, h0⟩ := hk 0
  obtain ⟨cs1, h1⟩ := hk 1
  obtain ⟨cs2, h2⟩ := hk 2
  obtain ⟨cs, e1, e2, e3⟩ := avector_convMats h.cell h0 h1 h2
  exact ⟨cs, cs0, cs1, cs2, e1, e2, h0, h1, h2, e3⟩

private theorem type_two {s : TSettings} {ls : List AVLayer} (h : Spec.OrdinaryVector s ls) : tGratingType s = 2 := by
  unfold tGratingType
  simp only [h.cell, TStructure.rows]

/-- **C71, lossless.** Vector layers with real positive indices in all three components: the matrices of the layers exist, and unless
a singular matrix makes PyTorch fall back on a pseudo-inverse, PyTorch solves them and the efficiencies of every dictionary it reports
add up to one. -/
theorem C71_energy (la : LinAlg) (s : TSettings) (ls : List AVLayer) (h : Spec.OrdinaryVector s ls)
    (hr : ∀ l ∈ ls, ∀ a, Spec.UsedIndex l a → ∀ k, Spec.IsReal (Spec.indexAt k a)) (hc : Spec.LosslessCladdings s.p)
    (hp : s.p.use_pinv = false) (ha : s.algo = .tmm) :
    ∃ cs, tConvMats la s = .ok cs ∧ cs.length = ls.length ∧
      (Spec.NoFallback la s cs → ∃ sol, tConv_solve la s = .ok sol ∧ Spec.Totals sol.result (· = 1)) := by
  obtain ⟨cs, cs0, cs1, cs2, hcs, hlen, h0, h1, h2, hf⟩ := avector_exists la hc hp h
  refine ⟨cs, hcs, hlen, fun hn => aniso_energy_core hc hp ha (by rw [type_two h]; omega) hcs hn fun c hm => ?_⟩
  have hk : ∀ k, Spec.RealStructure (Spec.vectorAt s ls k).ucell := fun k l hl =>
    ⟨media_at hr k l hl _ (Or.inl rfl), instr_media (P := Spec.IsReal) (media_at hr k l hl)⟩
  exact fromComponents_hermitian (convMats_isHermitian (s := Spec.vectorAt s ls 0) hp (hk 0) h0)
    (convMats_isHermitian (s := Spec.vectorAt s ls 1) hp (hk 1) h1) (convMats_isHermitian (s := Spec.vectorAt s ls 2) hp (hk 2) h2) (hf c hm)

/-- **C71, passive.** The same for indices without gain: at most one. -/
theorem C71_passive (la : LinAlg) (s : TSettings) (ls : List AVLayer) (h : Spec.OrdinaryVector s ls)
    (hd : ∀ d ∈ s.p.thickness, 0 ≤ d) (hc : Spec.LosslessCladdings s.p) (hp : s.p.use_pinv = false) (ha : s.algo = .tmm) :
    ∃ cs, tConvMats la s = .ok cs ∧ cs.length = ls.length ∧
      (Spec.NoFallback la s cs → ∃ sol, tConv_solve la s = .ok sol ∧ Spec.Totals sol.result (· ≤ 1)) := by
  obtain ⟨cs, cs0, cs1, cs2, hcs, hlen, h0, h1, h2, hf⟩ := avector_exists la hc hp h
  refine ⟨cs, hcs, hlen, fun hn => aniso_passive_core hd hc hp ha (by rw [type_two h]; omega) hcs hn fun c hm => ?_⟩
  have hk : ∀ k, Spec.PassiveProblem (Spec.vectorAt s ls k) := by
    intro k
    refine { hc.toRealIllumination with layers_passive := ?_, thickness_nonneg := hd, n_bot_real := hc.n_bot_real, n_bot_pos := hc.n_bot_pos }
    intro l hl
    have hm : ∀ n, Spec.Media l n → Spec.PassiveMedium n := fun n hn => by
      have := media_at h.media k l hl n hn
      exact ⟨this.1.le, this.2⟩
    exact ⟨hm _ (Or.inl rfl), instr_media hm, geometry_at h k l hl⟩
  exact fromComponents_lossy (convMats_lossy (s := Spec.vectorAt s ls 0) hp (hk 0) h0) (convMats_lossy (s := Spec.vectorAt s ls 1) hp (hk 1) h1)
    (convMats_lossy (s := Spec.vectorAt s ls 2) hp (hk 2) h2) (hf c hm)

/-- **C71, absorbing.** Nothing is singular when every index absorbs in all three components: PyTorch solves such layers and no power
is created, provided they have a basis of modes and no kept order runs along the normal. -/
theorem C71_absorbing (la : LinAlg) (hb : Spec.ReturnsBasis la) (s : TSettings) (ls : List AVLayer) (h : Spec.OrdinaryVector s ls)
    (hab : ∀ l ∈ ls, ∀ a, Spec.UsedIndex l a → ∀ k, Spec.AbsorbingMedium (Spec.indexAt k a))
    (hd : ∀ d ∈ s.p.thickness, 0 < d) (hne : s.p.thickness ≠ []) (hlen : s.p.thickness.length ≤ ls.length)
    (hc : Spec.LosslessCladdings s.p) (hp : s.p.use_pinv = false) (ha : s.algo = .tmm) (hg : ¬ Spec.SomeAlongNormal s.p) :
    ∃ cs, tConvMats la s = .ok cs ∧ ((∀ c ∈ cs.take s.p.thickness.length, Spec.AnisoModes s c) →
      ∃ sol, tConv_solve la s = .ok sol ∧ Spec.Totals sol.result (· ≤ 1)) := by
  obtain ⟨cs, hcs, hl, hpas⟩ := C71_passive la s ls h (fun d m => (hd d m).le) hc hp ha
  refine ⟨cs, hcs, fun hm => hpas (aniso_absorbing_core hb hd hne (by rw [hl]; exact hlen) hc hp (Or.inr ⟨type_two h, hg⟩) ?_ hm)⟩
  obtain ⟨cs', cs0, cs1, cs2, hcs', -, h0, h1, h2, hfr⟩ := avector_exists la hc hp h
  obtain rfl : cs' = cs := by rw [hcs] at hcs'; cases hcs'; rfl
  have hs : ∀ {k : Fin 3} {ds : List (Conv (FlatIdx s.p.fto.1 s.p.fto.2))}, convMats la (Spec.vectorAt s ls k) = .ok ds →
      ∀ c ∈ ds, SideConv Complex.I c := by
    intro k ds hds c hm
    obtain ⟨cells, hce⟩ := drawn_at h k
    have pos : ∀ l ∈ ls.map (Spec.layerAt k), ∀ n, Spec.Media l n → 0 < (Complex.I * n ^ 2).re := by
      intro l hl n hn
      obtain ⟨a, b⟩ := media_at hab k l hl n hn
      have : (Complex.I * n ^ 2).re = 2 * n.re * -n.im := by simp [pow_two]; ring
      rw [this]
      exact mul_pos (by linarith) (by linarith)
    obtain ⟨ds', e1, e2, -⟩ := convMats_side_vector (la := la) (s := Spec.vectorAt s ls k) hp rfl hce hc.period_x_pos hc.period_y_pos
      (· = Complex.I) (fun l hl => ⟨⟨Complex.I, rfl, pos l hl _ (Or.inl rfl), instr_media (P := fun n => 0 < (Complex.I * n ^ 2).re) (pos l hl)⟩,
        geometry_at h k l hl⟩)
    obtain rfl : ds' = ds := Except.ok.inj (e1.symm.trans hds)
    obtain ⟨w, rfl, hw⟩ := e2 c hm
    exact hw
  exact fun c hm => fromComponents_side (hs h0) (hs h1) (hs h2) (hfr c hm)

/-! ### Non-vacuity -/

namespace C71

/-- A layer of index `a` with a rectangle of index `b` drawn in it. -/
noncomputable def patch (a b : AIndex) : AVLayer := ⟨a, [.rectangle (1 / 2) (1 / 2) (1 / 2) (1 / 4) b 0 2 2]⟩

theorem patch_objs (a b : AIndex) : (patch a b).objs = .ok [(⟨1 / 2 - 1 / 4 / 2, 1 / 2 - 1 / 2 / 2, 1 / 2 + 1 / 4 / 2, 1 / 2 + 1 / 2 / 2, 0⟩, b)] := by
  have h : rectangle (1 / 2) (1 / 2) (1 / 2) (1 / 4) 0 0 2 2 = _ := rectangle_zero (1 / 2) (1 / 2) (1 / 2) (1 / 4) 0 2 2
  simp only [AVLayer.objs, patch, List.mapM_cons, List.mapM_nil, AInstr.run, h]
  rfl

theorem patch_drawn (a b : AIndex) : ∃ d, aModeling_vector_instruction (1, 1) [patch a b] = .ok [d] := by
  have h := C71_components (1, 1) [patch a b] 0
  obtain ⟨c, hc⟩ := C35_success (1, 1) (Spec.indexAt 0 a) (boxesAt 0 [(⟨1 / 2 - 1 / 4 / 2, 1 / 2 - 1 / 2 / 2, 1 / 2 + 1 / 4 / 2, 1 / 2 + 1 / 2 / 2, 0⟩, b)])
    one_pos one_pos (by simp [boxesAt, VObj.withN]; norm_num) (by simp [boxesAt])
  have hm : modeling_vector_instruction (1, 1) [Spec.layerAt 0 (patch a b)] = .ok [c] := by
    unfold modeling_vector_instruction
    simp only [List.mapM_cons, List.mapM_nil, layerAt_objs, patch_objs]
    show (drawLayer (1, 1) (Spec.indexAt 0 a) _ >>= _) = _
    rw [hc]
    rfl
  rw [List.map_singleton, hm] at h
  cases hd : aModeling_vector_instruction (1, 1) [patch a b] with
  | error e => rw [hd] at h; cases h
  | ok ds =>
    rw [hd] at h
    have h1 : ds.map (Spec.cellAt 0) = [c] := Except.ok.inj h
    have h2 : ds.length = 1 := by simpa using congrArg List.length h1
    obtain ⟨d, rfl⟩ := List.length_eq_one_iff.mp h2
    exact ⟨d, rfl⟩

theorem patch_used {a b i : AIndex} (h : Spec.UsedIndex (patch a b) i) : i = a ∨ i = b := by
  rcases h with h | ⟨cx, cy, lx, ly, an, n, m, h | h⟩
  · exact Or.inl h
  · have := List.mem_singleton.mp h
    simp only [AInstr.rectangle.injEq] at this
    exact Or.inr this.2.2.2.2.1
  · have := List.mem_singleton.mp h
    cases this

theorem patch_ordinary {s : TSettings} {a b : AIndex} (hu : s.ucell = .avector [patch a b]) (hper : s.p.period = (1, 1))
    (ha : ∀ k, Spec.OrdinaryMedium (Spec.indexAt k a)) (hb : ∀ k, Spec.OrdinaryMedium (Spec.indexAt k b)) :
    Spec.OrdinaryVector s [patch a b] where
  cell := hu
  drawn := by
    rw [hper]
    obtain ⟨d, hd⟩ := patch_drawn a b
    exact ⟨_, hd⟩
  geometry := by
    intro l hl os hos
    obtain rfl := List.mem_singleton.mp hl
    rw [patch_objs] at hos
    cases hos
    rw [hper]
    refine ⟨?_, ?_, ?_⟩
    · intro o ho
      obtain rfl := List.mem_singleton.mp ho
      norm_num [Spec.Inside]
    · norm_num [Spec.rowEdges]
    · norm_num [Spec.colEdges]
  media := by
    intro l hl i hi k
    obtain rfl := List.mem_singleton.mp hl
    rcases patch_used hi with rfl | rfl
    · exact ha k
    · exact hb k

/-- A rectangle of three different indices in vacuum: the three components at its centre, and outside it. -/
example (n : Fin 3 → ℂ) : ∃ d, aModeling_vector_instruction (1, 1) [patch (.scalar 1) (.vector n)] = .ok [d] ∧
    ∀ k, (∃ i j, Spec.InCell (Spec.cellAt k d) (1 / 2) (1 / 2) i j ∧ (Spec.cellAt k d).val i j = n k) ∧
      ∃ i j, Spec.InCell (Spec.cellAt k d) (1 / 8) (1 / 2) i j ∧ (Spec.cellAt k d).val i j = 1 := by
  obtain ⟨d, hd⟩ := patch_drawn (.scalar 1) (.vector n)
  refine ⟨d, hd, fun k => ?_⟩
  obtain ⟨l, os, h1, h2, h3⟩ := (C71_paint _ _ _ hd).2 0 d rfl
  cases h1
  rw [patch_objs] at h2
  cases h2
  constructor
  · obtain ⟨t, ht, hc⟩ := h3 (1 / 2) (1 / 2) (by norm_num) (by norm_num) (by norm_num [Spec.rowEdges, Spec.Clear, abs_of_pos, abs_of_neg])
      (by norm_num [Spec.colEdges, Spec.Clear, abs_of_pos, abs_of_neg])
    obtain ⟨i, j, g1, -, g2⟩ := hc k
    refine ⟨i, j, g1, g2.trans ?_⟩
    rcases ht with ⟨b, o, a, e, -, -, e3⟩ | ⟨e, -⟩
    · have : o ∈ [((⟨1 / 2 - 1 / 4 / 2, 1 / 2 - 1 / 2 / 2, 1 / 2 + 1 / 4 / 2, 1 / 2 + 1 / 2 / 2, 0⟩ : VObj), AIndex.vector n)] := by rw [e]; simp
      obtain rfl := List.mem_singleton.mp this
      exact e3 k
    · exact absurd (by norm_num [Spec.Covers]) (e _ (List.mem_singleton.mpr rfl))
  · obtain ⟨t, ht, hc⟩ := h3 (1 / 8) (1 / 2) (by norm_num) (by norm_num) (by norm_num [Spec.rowEdges, Spec.Clear, abs_of_pos, abs_of_neg])
      (by norm_num [Spec.colEdges, Spec.Clear, abs_of_pos, abs_of_neg])
    obtain ⟨i, j, g1, -, g2⟩ := hc k
    refine ⟨i, j, g1, g2.trans ?_⟩
    rcases ht with ⟨b, o, a, e, e1, -, -⟩ | ⟨-, e⟩
    · have : o ∈ [((⟨1 / 2 - 1 / 4 / 2, 1 / 2 - 1 / 2 / 2, 1 / 2 + 1 / 4 / 2, 1 / 2 + 1 / 2 / 2, 0⟩ : VObj), AIndex.vector n)] := by rw [e]; simp
      obtain rfl := List.mem_singleton.mp this
      norm_num [Spec.Covers] at e1
    · exact e k

/-- A number instead of three equal components. -/
example (la : LinAlg) (s : TSettings) (n : Fin 3 → ℂ) : tConv_solve la (Spec.withCell s (.avector [patch (.scalar 2) (.vector n)])) =
    tConv_solve la (Spec.withCell s (.avector [patch (.vector fun _ => 2) (.vector n)])) :=
  C71_same_components la s _ _ fun _ => rfl

theorem patch_at {la : LinAlg} {s : TSettings} {n : Fin 3 → ℂ} (hper : s.p.period = (1, 1)) (hn : ∀ k, n k ≠ 0) (k : Fin 3) :
    convMats la (Spec.vectorAt s [patch (.vector n) (.vector n)] k) = .ok [Spec.scalarConv s.p.fto.1 s.p.fto.2 (n k)] := by
  obtain ⟨d, hd⟩ := patch_drawn (.vector n) (.vector n)
  have hm : modeling_vector_instruction s.p.period ([patch (.vector n) (.vector n)].map (Spec.layerAt k)) = .ok [Spec.cellAt k d] := by
    rw [← aModeling_at, hper, hd]
    rfl
  refine Except.bind_ok.mpr ⟨_, hm, ?_⟩
  refine C18_homogeneous_vector la s.p.period (by rw [hper]; exact one_ne_zero) (by rw [hper]; exact one_ne_zero) [n k]
    (by intro m hm; obtain rfl := List.mem_singleton.mp hm; exact hn k) _ (List.Forall₂.cons ⟨rfl, ?_⟩ List.Forall₂.nil) _ _ _ _ hm
  intro v hv
  obtain rfl := List.mem_singleton.mp hv
  rfl

/-- The matrices of a rectangle drawn into a layer of its own index. -/
theorem patch_conv {la : LinAlg} {s : TSettings} {n : Fin 3 → ℂ} (hu : s.ucell = .avector [patch (.vector n) (.vector n)])
    (hper : s.p.period = (1, 1)) (hn : ∀ k, n k ≠ 0) {cs} (hcs : tConvMats la s = .ok cs) :
    cs = [⟨(n 0 ^ 2) • 1, (n 1 ^ 2) • 1, (n 2 ^ 2)⁻¹ • 1⟩] := by
  have hk := patch_at (la := la) hper hn
  obtain ⟨cs', h1, h2, h3⟩ := avector_convMats hu (hk 0) (hk 1) (hk 2)
  obtain rfl : cs' = cs := by rw [hcs] at h1; cases h1; rfl
  obtain ⟨c, rfl⟩ : ∃ c, cs' = [c] := List.length_eq_one_iff.mp h2
  obtain ⟨c0, m0, c1, m1, c2, m2, f0, f1, f2⟩ := h3 c (List.mem_singleton.mpr rfl)
  obtain rfl := List.mem_singleton.mp m0
  obtain rfl := List.mem_singleton.mp m1
  obtain rfl := List.mem_singleton.mp m2
  obtain ⟨x, y, z⟩ := c
  dsimp only at f0 f1 f2
  rw [f0, f1, f2]
  rfl

/-- The matrices of the components exist, and their components are told apart. -/
example (la : LinAlg) (s : TSettings) (n : Fin 3 → ℂ) (hn : ∀ k, n k ≠ 0) (hu : s.ucell = .avector [patch (.vector n) (.vector n)])
    (hper : s.p.period = (1, 1)) : ∃ e, tConvMats la s = .ok [e] ∧ e.epx = (n 0 ^ 2) • 1 ∧ e.epy = (n 1 ^ 2) • 1 := by
  obtain ⟨es, h1, h2, h3⟩ := C71_matrices la s _ hu _ (patch_at hper hn)
  obtain ⟨e, rfl⟩ : ∃ e, es = [e] := List.length_eq_one_iff.mp h2
  obtain ⟨c, hc, g0, g1, -⟩ := h3 0 e rfl
  have k0 := hc 0
  have k1 := hc 1
  refine ⟨e, h1, ?_, ?_⟩
  · rw [g0, ← Option.some.inj k0]
    rfl
  · rw [g1, ← Option.some.inj k1]
    rfl

/-- An absorbing anisotropic layer. -/
noncomputable def dark : AIndex := .vector fun k => if k = 1 then 2 - Complex.I else 1 - Complex.I

noncomputable def darkSettings : TSettings := Spec.withCell C69.filmSettings (.avector [patch dark dark])

theorem dark_absorbs (k : Fin 3) : Spec.AbsorbingMedium (Spec.indexAt k dark) := by
  by_cases hk : k = 1 <;> simp [hk, dark, Spec.indexAt, Spec.AbsorbingMedium]

example : ∃ sol, tConv_solve exLA darkSettings = .ok sol ∧ Spec.Totals sol.result (· ≤ 1) := by
  have hor : ∀ k, Spec.OrdinaryMedium (Spec.indexAt k dark) := fun k => ⟨(dark_absorbs k).1, (dark_absorbs k).2.le⟩
  have ho : Spec.OrdinaryVector darkSettings [patch dark dark] := patch_ordinary rfl rfl hor hor
  obtain ⟨cs, h1, h2⟩ := C71_absorbing exLA exLA_basis darkSettings _ ho (by
      intro l hl a ha k
      obtain rfl := List.mem_singleton.mp hl
      rcases patch_used ha with rfl | rfl <;> exact dark_absorbs k)
    (by simp [darkSettings, C69.filmSettings, exParams]) (by simp [darkSettings, C69.filmSettings, exParams])
    (by simp [darkSettings, C69.filmSettings, exParams]) (C69.claddings 0 none (by simp)) rfl rfl C69.film_normal
  refine h2 fun c hc => ?_
  rw [patch_conv rfl rfl (fun k h => by have := (hor k).1; simp only [dark, Spec.indexAt] at this; rw [h] at this; simp at this) h1] at hc
  obtain rfl := List.mem_singleton.mp (List.mem_of_mem_take hc)
  have q0 : ((1 : ℂ) - Complex.I) ^ 2 = -2 * Complex.I := by linear_combination Complex.I_sq
  have q1 : ((2 : ℂ) - Complex.I) ^ 2 = 3 - 4 * Complex.I := by linear_combination Complex.I_sq
  have q2 : (((1 : ℂ) - Complex.I) ^ 2)⁻¹ = Complex.I / 2 := by
    rw [q0]
    refine inv_eq_of_mul_eq_one_right ?_
    linear_combination -Complex.I_sq
  simp only [Fin.isValue, zero_ne_one, if_false, if_true, show (2 : Fin 3) ≠ 1 by decide]
  rw [q2, q0, q1, smul_one_eq_diagonal, smul_one_eq_diagonal, smul_one_eq_diagonal]
  exact C69.film_modes (.avector [patch dark dark]) (type_two ho)

/-- A transparent uniaxial layer. -/
noncomputable def clear : Fin 3 → ℂ := fun k => if k = 0 then (Real.sqrt (8 / 5) : ℝ) else (Real.sqrt (5 / 2) : ℝ)

noncomputable def clearSettings (pol : ℝ) : TSettings :=
  Spec.withCell (exSettings pol (some 0)).torch (.avector [patch (.vector clear) (.vector clear)])

theorem clear_ordinary (k : Fin 3) : Spec.OrdinaryMedium (clear k) ∧ Spec.IsReal (clear k) := by
  by_cases hk : k = 0 <;> simp [hk, clear, Spec.OrdinaryMedium, Spec.IsReal]

theorem clear_away (m : Type) [Fintype m] [DecidableEq m] : Spec.DiagonalisableAway (fromBlocks
    (diagonal (fun _ : m => (0 : ℂ)) * diagonal (fun _ => 0) + (diagonal (fun _ => 1 / 2) * (diagonal fun _ => 2 / 5) * diagonal (fun _ => 1 / 2) - 1) * (diagonal fun _ => 8 / 5))
    (diagonal (fun _ => 1 / 2) * ((diagonal fun _ => 2 / 5) * diagonal (fun _ => 0) * (diagonal fun _ => 5 / 2) - diagonal (fun _ => 0)))
    (diagonal (fun _ => 0) * ((diagonal fun _ => 2 / 5) * diagonal (fun _ => 1 / 2) * (diagonal fun _ => 8 / 5) - diagonal (fun _ => 1 / 2)))
    (diagonal (fun _ => 1 / 2) * diagonal (fun _ => 1 / 2) + (diagonal (fun _ => 0) * (diagonal fun _ => 2 / 5) * diagonal (fun _ => 0) - 1) * (diagonal fun _ => 5 / 2))) := by
  have z : (diagonal fun _ : m => (0 : ℂ)) = 0 := diagonal_zero
  have sc : ∀ a : ℂ, (diagonal fun _ : m => a) = algebraMap ℂ (Matrix m m ℂ) a := fun a => rfl
  have key : ∀ A B C D : Matrix m m ℂ, A = (diagonal fun _ : m => (-36 / 25 : ℂ)) → B = 0 → C = 0 →
      D = (diagonal fun _ : m => (-9 / 4 : ℂ)) → Spec.DiagonalisableAway (fromBlocks A B C D) := by
    rintro _ _ _ _ rfl rfl rfl rfl
    rw [fromBlocks_diagonal]
    refine C69.diagonal_away _ ?_
    rintro (i | i) <;> norm_num
  refine key _ _ _ _ ?_ ?_ ?_ ?_
  · simp only [sc, ← map_one (algebraMap ℂ (Matrix m m ℂ)), ← map_mul, ← map_sub, ← map_add]
    norm_num
  · simp only [z, mul_zero, zero_mul, sub_zero]
  · simp only [z, zero_mul]
  · simp only [sc, ← map_one (algebraMap ℂ (Matrix m m ℂ)), ← map_mul, ← map_sub, ← map_add]
    norm_num

example (pol : ℝ) : ∃ sol, tConv_solve exLA (clearSettings pol) = .ok sol ∧ Spec.Totals sol.result (· = 1) := by
  have ho : Spec.OrdinaryVector (clearSettings pol) [patch (.vector clear) (.vector clear)] :=
    patch_ordinary rfl rfl (fun k => (clear_ordinary k).1) (fun k => (clear_ordinary k).1)
  have hcl := C69.claddings pol (some 0) (by intro φ hφ; cases hφ; simp [Spec.IsReal])
  obtain ⟨cs, h1, -, h2⟩ := C71_energy exLA (clearSettings pol) _ ho (by
      intro l hl a ha k
      obtain rfl := List.mem_singleton.mp hl
      rcases patch_used ha with rfl | rfl <;> exact (clear_ordinary k).2) hcl rfl rfl
  refine h2 ⟨fun h => absurd ((type_two ho).symm.trans h) (by omega), fun _ => ?_⟩
  have s0 : ((Real.sqrt (8 / 5) : ℝ) : ℂ) ^ 2 = 8 / 5 := by rw [← Complex.ofReal_pow, Real.sq_sqrt (by norm_num)]; norm_num
  have s1 : ((Real.sqrt (5 / 2) : ℝ) : ℂ) ^ 2 = 5 / 2 := by rw [← Complex.ofReal_pow, Real.sq_sqrt (by norm_num)]; norm_num
  have hcs : cs = [exConv] := by
    rw [patch_conv rfl rfl (fun k h => by have := (clear_ordinary k).1.1; rw [h] at this; simp at this) h1]
    simp only [clear, Fin.isValue, if_true, if_false, one_ne_zero, show (2 : Fin 3) ≠ 0 by decide]
    rw [s0, s1, smul_one_eq_diagonal, smul_one_eq_diagonal, smul_one_eq_diagonal, show ((5 : ℂ) / 2)⁻¹ = 2 / 5 by norm_num]
    rfl
  obtain ⟨o, h4⟩ := exSolveCon (p := exParams pol (some 0)) rfl rfl rfl rfl rfl (exKxF pol) (exKyF pol)
  obtain ⟨o', ho', -⟩ := solve_con_to_2d (la' := exLA) (p := exParams pol (some 0)) rfl (by
    intro _ c hc
    obtain rfl := List.mem_singleton.mp hc
    simp [exC]) exLA_basis h4
  rw [hcs]
  refine ⟨o', ho', infos_away (p := exParams pol (some 0)) exLA_basis rfl ?_ ho'⟩
  intro x hx
  have hx1 : x.1 = exC _ := List.mem_singleton.mp (List.of_mem_zip hx).1
  rw [hx1, omega_spec, exKxF, exKyF]
  exact clear_away _

end C71

#print axioms C71_components
#print axioms C71_paint
#print axioms C71_same_components
#print axioms C71_scalar
#print axioms C71_matrices
#print axioms C71_energy
#print axioms C71_passive
#print axioms C71_absorbing

end Meent
