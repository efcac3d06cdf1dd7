import Verif.Lemmas.ConvGen
import Verif.Lemmas.Energy1DSolve
import Verif.Spec.Optics

/-!
# Convolution matrices of whole structures (helper lemmas)
-/

open Matrix

namespace Meent

set_option linter.unusedSectionVars false
set_option linter.unusedSimpArgs false

theorem mapM_ok {α β : Type} {f : α → Res β} {l : List α} {l' : List β} :
    l.mapM f = .ok l' ↔ List.Forall₂ (fun a b => f a = .ok b) l l' := by
  induction l generalizing l' with
  | nil =>
    simp only [List.mapM_nil, List.forall₂_nil_left_iff]
    constructor
    · intro h; cases h; rfl
    · rintro rfl; rfl
  | cons a l ih =>
    simp only [List.mapM_cons, Except.bind_ok, ih, List.forall₂_cons_left_iff]
    constructor
    · rintro ⟨b, hb, t, ht, e⟩
      cases e
      exact ⟨b, t, hb, ht, rfl⟩
    · rintro ⟨b, t, hb, ht, rfl⟩
      exact ⟨b, hb, t, ht, rfl⟩

theorem mapM_mem {α β : Type} {f : α → Res β} {l : List α} {l' : List β}
    (h : l.mapM f = .ok l') {b : β} (hb : b ∈ l') : ∃ a ∈ l, f a = .ok b := by
  rw [mapM_ok] at h
  induction h with
  | nil => cases hb
  | cons h1 h2 ih =>
    rcases List.mem_cons.mp hb with rfl | hb
    · exact ⟨_, List.mem_cons_self, h1⟩
    · obtain ⟨a, ha, e⟩ := ih hb
      exact ⟨a, List.mem_cons_of_mem _ ha, e⟩

theorem mapM_length {α β : Type} {f : α → Res β} {l : List α} {l' : List β}
    (h : l.mapM f = .ok l') : l'.length = l.length :=
  (mapM_ok.mp h).length_eq.symm

/-- Everything the convolution matrices of one layer have in common across the Fourier paths:
the three matrices come from one permittivity cell through `genConv`. -/
structure FromCell {fx fy Nx Ny : ℕ} (Lx : (Fin Nx → ℂ) → ℤ → ℂ) (Ly : (Fin Ny → ℂ) → ℤ → ℂ)
    (cell : Fin Nx → Fin Ny → ℂ) (c : Conv (FlatIdx fx fy)) (epz : Matrix (FlatIdx fx fy) (FlatIdx fx fy) ℂ) :
    Prop where
  hz : genConv Lx Ly true true fx fy cell = .ok epz
  hy : genConv Lx Ly true false fx fy cell = .ok c.epy
  hx : genConv Lx Ly false true fx fy cell = .ok c.epx
  hu : IsUnit epz.det
  hi : c.epzi = epz⁻¹

theorem convDiscrete_fromCell {la : LinAlg} {l : Raster} {fx fy : ℕ} {enh : Bool}
    {c : Conv (FlatIdx fx fy)} :
    convDiscrete la l fx fy enh false = .ok c ↔
      2 * fy < (enlarge l fx fy enh).ny ∧ 2 * fx < (enlarge l fx fy enh).nx ∧
      ∃ epz, FromCell Spec.dftCoeff Spec.dftCoeff
        (fun x y => ((enlarge l fx fy enh).sq.val y x)) c epz := by
  unfold convDiscrete
  simp only [Except.bind_ok, meeinv_false_ok, dfs2d_iff_gen]
  constructor
  · rintro ⟨z, ⟨h1, h2, hz⟩, y, ⟨-, -, hy⟩, x, ⟨-, -, hx⟩, zi, ⟨hu, hi⟩, e⟩
    simp only [Except.ok.injEq] at e
    subst e
    exact ⟨h1, h2, z, ⟨hz, hy, hx, hu, hi⟩⟩
  · rintro ⟨h1, h2, z, h⟩
    exact ⟨z, ⟨h1, h2, h.hz⟩, _, ⟨h1, h2, h.hy⟩, _, ⟨h1, h2, h.hx⟩, _, ⟨h.hu, h.hi⟩, rfl⟩

theorem convContinuous_fromCell {la : LinAlg} {l : VCell} {fx fy : ℕ} {c : Conv (FlatIdx fx fy)} :
    convContinuous la l fx fy false = .ok c ↔
      ∃ epz, FromCell (cfsC l.x (l.x (-1))) (cfsC l.y (l.y (-1)))
        (fun x y => (l.val y x) ^ 2) c epz := by
  unfold convContinuous
  simp only [Except.bind_ok, meeinv_false_ok, cfs2d_eq_gen]
  constructor
  · rintro ⟨z, hz, y, hy, x, hx, zi, ⟨hu, hi⟩, e⟩
    simp only [Except.ok.injEq] at e
    subst e
    exact ⟨z, ⟨hz, hy, hx, hu, hi⟩⟩
  · rintro ⟨z, h⟩
    exact ⟨z, h.hz, _, h.hy, _, h.hx, _, ⟨h.hu, h.hi⟩, rfl⟩

theorem FromCell.isHermitian {fx fy Nx Ny : ℕ} {Lx : (Fin Nx → ℂ) → ℤ → ℂ}
    {Ly : (Fin Ny → ℂ) → ℤ → ℂ} {cell : Fin Nx → Fin Ny → ℂ} {c : Conv (FlatIdx fx fy)}
    {epz : Matrix (FlatIdx fx fy) (FlatIdx fx fy) ℂ}
    (hLx : RealFun Lx) (hLy : RealFun Ly) (h : FromCell Lx Ly cell c epz)
    (hr : ∀ i j, star (cell i j) = cell i j) :
    c.epx.IsHermitian ∧ c.epy.IsHermitian ∧ c.epzi.IsHermitian := by
  refine ⟨genConv_isHermitian hLx hLy hr h.hx, genConv_isHermitian hLx hLy hr h.hy, ?_⟩
  rw [h.hi]
  exact (genConv_isHermitian hLx hLy hr h.hz).inv

theorem isReal_star {z : ℂ} (h : Spec.IsReal z) : star z = z := by
  rw [Complex.star_def]
  exact Complex.conj_eq_iff_im.mpr h

theorem enlarge_val (l : Raster) (fx fy : ℕ) (enh : Bool) (i : Fin (enlarge l fx fy enh).ny)
    (j : Fin (enlarge l fx fy enh).nx) : ∃ i' j', (enlarge l fx fy enh).val i j = l.val i' j' := by
  have rr : ∀ (l : Raster) (k : ℕ) i j, ∃ i' j', (l.repeatRows k).val i j = l.val i' j' :=
    fun l k i j => ⟨_, _, rfl⟩
  have rc : ∀ (l : Raster) (k : ℕ) i j, ∃ i' j', (l.repeatCols k).val i j = l.val i' j' :=
    fun l k i j => ⟨_, _, rfl⟩
  have main : ∀ (a : Raster), (a = enlarge l fx fy enh) → ∀ i j, ∃ i' j', a.val i j = l.val i' j' := by
    intro a ha
    unfold enlarge at ha
    simp only at ha
    generalize (if enh then (4 * fy + 1) * l.ny else 4 * fy + 1) = my at ha
    generalize (if enh then (4 * fx + 1) * l.nx else 4 * fx + 1) = mx at ha
    split at ha <;> split at ha <;> subst ha <;> intro i j
    · obtain ⟨i', j', e⟩ := rc _ _ i j
      obtain ⟨i2, j2, e2⟩ := rr l _ i' j'
      exact ⟨i2, j2, e.trans e2⟩
    · exact rr l _ i j
    · exact rc l _ i j
    · exact ⟨i, j, rfl⟩
  exact main _ rfl i j

theorem cell_compression_val {l : Raster} {c : VCell} (h : cell_compression l = .ok c)
    (i : Fin c.ny) (j : Fin c.nx) : ∃ i' j', c.val i j = l.val i' j' := by
  unfold cell_compression assembleCell at h
  simp only at h
  split at h
  · simp only [Except.ok.injEq] at h
    subst h
    exact ⟨_, _, rfl⟩
  · cases h

theorem paintAll_val {rows cols : List ℝ} {os : List VObj} {m m' : ℕ → ℕ → ℂ}
    (h : paintAll rows cols os m = .ok m') (i j : ℕ) :
    m' i j = m i j ∨ ∃ o ∈ os, m' i j = o.n := by
  induction os generalizing m with
  | nil =>
    simp only [paintAll, Except.ok.injEq] at h
    subst h; exact .inl rfl
  | cons o os ih =>
    simp only [paintAll, Except.bind_ok] at h
    obtain ⟨r0, -, r1, -, c0, -, c1, -, h⟩ := h
    rcases ih h with e | ⟨o', ho', e⟩
    · unfold paintSlice at e
      split at e
      · exact .inr ⟨o, List.mem_cons_self, e⟩
      · exact .inl e
    · exact .inr ⟨o', List.mem_cons_of_mem _ ho', e⟩

theorem gridStep_n (s : GridAcc) (o : VObj) :
    (gridStep s o).objs.map (·.n) = s.objs.map (·.n) ++ [o.n] := by
  simp [gridStep]

theorem gridLayer_n (os : List VObj) : (gridLayer os).objs.map (·.n) = os.map (·.n) := by
  have : ∀ (s : GridAcc), (os.foldl gridStep s).objs.map (·.n) = s.objs.map (·.n) ++ os.map (·.n) := by
    induction os with
    | nil => intro s; simp
    | cons o os ih =>
      intro s
      simp only [List.foldl_cons, ih, gridStep_n, List.map_cons, List.append_assoc, List.singleton_append]
  exact this _

theorem drawLayer_val {period : ℝ × ℝ} {base : ℂ} {objs : List VObj} {c : VCell}
    (h : drawLayer period base objs = .ok c) (i : Fin c.ny) (j : Fin c.nx) :
    c.val i j = base ∨ ∃ o ∈ objs, c.val i j = o.n := by
  unfold drawLayer vectorPerLayer toVCell at h
  simp only [Except.bind_ok] at h
  obtain ⟨r, ⟨m, hm, e⟩, h⟩ := h
  simp only [Except.ok.injEq] at e
  subst e
  simp only at h
  split at h
  · simp only [Except.ok.injEq] at h
    subst h
    rcases paintAll_val hm i j with e | ⟨o, ho, e⟩
    · exact .inl e
    · right
      have hmem : o.n ∈ (gridLayer objs).objs.map (·.n) := List.mem_map_of_mem ho
      rw [gridLayer_n] at hmem
      obtain ⟨o', ho', e'⟩ := List.mem_map.mp hmem
      exact ⟨o', ho', by rw [e']; exact e⟩
  · cases h

theorem slices_n {left : Bool} {n : ℂ} : ∀ {l : List Sample}, ∀ o ∈ slices left n l, o.n = n
  | [], o, h => by simp [slices] at h
  | [a], o, h => by simp [slices] at h
  | a :: b :: rest, o, h => by
    simp only [slices, List.mem_cons] at h
    rcases h with rfl | h
    · split <;> rfl
    · exact slices_n o h

theorem rectangle_n {cx cy lx ly : ℝ} {n : ℂ} {angle : ℝ} {nt np : ℕ} {os : List VObj}
    (h : rectangle cx cy lx ly n angle nt np = .ok os) : ∀ o ∈ os, o.n = n := by
  unfold rectangle at h
  simp only at h
  have hr : ∀ a b c d, ∀ o ∈ rectNoApprox a b c d n, o.n = n := by
    intro a b c d o ho
    simp only [rectNoApprox, List.mem_singleton] at ho
    subst ho; rfl
  split at h
  · simp only [Except.ok.injEq] at h; subst h; exact hr _ _ _ _
  split at h
  · simp only [Except.ok.injEq] at h; subst h; exact hr _ _ _ _
  split at h
  · simp only [Except.ok.injEq] at h; subst h; exact hr _ _ _ _
  split at h
  · simp only [Except.ok.injEq] at h; subst h; exact hr _ _ _ _
  · simp only [Except.bind_ok] at h
    obtain ⟨r, -, h⟩ := h
    split at h
    · cases h
    · simp only [Except.ok.injEq] at h; subst h; exact fun o ho => slices_n o ho

theorem pairBoxes_n {n : ℂ} : ∀ {l : List Pt}, ∀ o ∈ pairBoxes n l, o.n = n
  | [], o, h => by cases h
  | [_], o, h => by cases h
  | a :: b :: rest, o, h => by
    rcases List.mem_cons.mp h with rfl | h
    · rfl
    · exact pairBoxes_n o h

theorem ellipse_n {cx cy lx ly : ℝ} {n : ℂ} {angle : ℝ} {nw nh : ℕ} {os : List VObj}
    (h : ellipse cx cy lx ly n angle nw nh = .ok os) : ∀ o ∈ os, o.n = n := by
  unfold ellipse at h
  split at h
  · cases h
  dsimp only at h
  split at h
  · cases h
  split at h
  · cases h
  split at h
  · simp only [Except.ok.injEq] at h; subst h; exact fun o ho => pairBoxes_n o ho
  · cases h

/-- Real structures give Hermitian convolution matrices, on every Fourier path. -/
theorem convMats_isHermitian {la : LinAlg} {s : Settings}
    {convs : List (Conv (FlatIdx s.p.fto.1 s.p.fto.2))} (hp : s.p.use_pinv = false)
    (hr : Spec.RealStructure s.ucell) (h : convMats la s = .ok convs) :
    ∀ c ∈ convs, c.epx.IsHermitian ∧ c.epy.IsHermitian ∧ c.epzi.IsHermitian := by
  intro c hc
  unfold convMats at h
  cases hu : s.ucell with
  | raster u =>
    rw [hu] at h hr
    simp only at h
    have hreal : ∀ l ∈ u.rasters, ∀ i j, star (l.val i j) = l.val i j := by
      intro l hl i j
      obtain ⟨l', hl', rfl⟩ := List.mem_map.mp hl
      exact isReal_star (hr l' hl' i j)
    split at h
    · unfold to_conv_mat_raster_discrete at h
      obtain ⟨l, hl, e⟩ := mapM_mem h hc
      rw [hp] at e
      obtain ⟨-, -, epz, hf⟩ := convDiscrete_fromCell.mp e
      refine hf.isHermitian realFun_dft realFun_dft fun i j => ?_
      obtain ⟨i', j', e'⟩ := enlarge_val l _ _ s.enhanced_dfs j i
      simp only [Raster.sq, e', star_pow, hreal l hl]
    · split at h
      · unfold to_conv_mat_raster_continuous at h
        obtain ⟨l, hl, e⟩ := mapM_mem h hc
        unfold convRasterContinuous at e
        rw [hp] at e
        simp only [Except.bind_ok] at e
        obtain ⟨vc, hvc, e⟩ := e
        obtain ⟨epz, hf⟩ := convContinuous_fromCell.mp e
        refine hf.isHermitian (realFun_cfsC _ _) (realFun_cfsC _ _) fun i j => ?_
        obtain ⟨i', j', e'⟩ := cell_compression_val hvc j i
        simp only [e', star_pow, hreal l hl]
      · cases h
  | vector ls =>
    rw [hu] at h hr
    simp only [Except.bind_ok] at h
    obtain ⟨cells, hcells, h⟩ := h
    unfold to_conv_mat_vector at h
    obtain ⟨vc, hvc, e⟩ := mapM_mem h hc
    rw [hp] at e
    obtain ⟨epz, hf⟩ := convContinuous_fromCell.mp e
    refine hf.isHermitian (realFun_cfsC _ _) (realFun_cfsC _ _) fun i j => ?_
    unfold modeling_vector_instruction at hcells
    simp only [Except.bind_ok] at hcells
    obtain ⟨os, hos, hcells⟩ := hcells
    obtain ⟨bo, hbo, hd⟩ := mapM_mem hcells hvc
    obtain ⟨l, hl, hlo⟩ := mapM_mem hos hbo
    simp only [Except.bind_ok] at hlo
    obtain ⟨o, ho, e2⟩ := hlo
    simp only [Except.ok.injEq] at e2
    subst e2
    obtain ⟨hb, hn⟩ := hr l hl
    rcases drawLayer_val hd j i with e3 | ⟨ob, hob, e3⟩
    · simp only at e3; rw [e3, star_pow, isReal_star hb]
    · rw [e3, star_pow, isReal_star]
      unfold VLayer.objs at ho
      simp only [Except.bind_ok] at ho
      obtain ⟨oss, hoss, e4⟩ := ho
      simp only [Except.ok.injEq] at e4
      subst e4
      obtain ⟨ol, hol, hob⟩ := List.mem_flatten.mp hob
      obtain ⟨v, hv, hrun⟩ := mapM_mem hoss hol
      have := hn v hv
      cases v with
      | rectangle cx cy lx ly n angle nt np =>
        simp only [VInstr.run] at hrun
        rw [rectangle_n hrun ob hob]
        exact this
      | ellipse cx cy lx ly n angle nw nh =>
        simp only [VInstr.run] at hrun
        rw [ellipse_n hrun ob hob]
        exact this
      | unknown => cases hrun

end Meent
