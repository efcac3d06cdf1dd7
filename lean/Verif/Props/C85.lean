import Verif.Lemmas.PatternAnywhere
import Verif.Lemmas.VectorOne
import Verif.Props.C55
import Verif.Props.C56

/-!
# C85: only the pattern of a drawn structure matters, and where it sits does not
-/

open Matrix

namespace Meent

private theorem relSame {ny nx : ℕ} {D : Fin ny → Fin nx → ℂ} (hD : ∀ j i, ‖D j i‖ = 1) {a b c e : Fin ny → Fin nx → ℂ}
    {r r' : Option (SubRes ny nx)} (h : Option.Rel (SubRes.Scaled D) r r') (hr : ∀ x, r = some x → EffBy a b c e x)
    (hr' : ∀ x, r' = some x → EffBy a b c e x) : Option.Rel Spec.SameEff r r' := by
  cases h with
  | some h => exact .some (scaled_sameEff hD h (hr _ rfl) (hr' _ rfl))
  | none => exact .none

private theorem moveW_zpow (d p : ℝ) (m : ℤ) : moveW d p ^ m = Spec.shiftPhase m (-d / p) := by
  unfold moveW Spec.shiftPhase
  rw [← Complex.exp_neg, ← Complex.exp_int_mul]
  congr 1
  push_cast
  ring

private theorem norm_moveW (d p : ℝ) : ‖moveW d p‖ = 1 := by
  have := moveW_zpow d p 1
  rw [zpow_one] at this
  rw [this]
  unfold Spec.shiftPhase
  rw [show -(2 * Real.pi * Complex.I * ((1 : ℤ) : ℂ) * ((-d / p : ℝ) : ℂ)) = ((2 * Real.pi * d / p : ℝ) : ℂ) * Complex.I by push_cast; ring]
  exact Complex.norm_exp_ofReal_mul_I _

theorem moveD_phase {fx fy : ℕ} (dx dy : ℝ) (P : ℝ × ℝ) (j : Fin (2 * fy + 1)) (i : Fin (2 * fx + 1)) :
    shiftD (fx := fx) (fy := fy) (moveW dx P.1) (moveW dy P.2) (finProdFinEquiv (j, i))
      = Spec.shiftPhase (Spec.colOrder i) (-dx / P.1) * Spec.shiftPhase (Spec.rowOrder j) (-dy / P.2) := by
  have hX : Spec.orderX (fx := fx) (fy := fy) (finProdFinEquiv (j, i)) = Spec.colOrder i := by
    have := congrArg Fin.val (modNat_prod j i)
    unfold Spec.orderX Spec.colOrder
    rw [← this]
    rfl
  have hY : Spec.orderY (fx := fx) (fy := fy) (finProdFinEquiv (j, i)) = Spec.rowOrder j := by
    have := congrArg Fin.val (divNat_prod j i)
    unfold Spec.orderY Spec.rowOrder
    rw [← this]
    rfl
  unfold shiftD
  rw [hX, hY, moveW_zpow, moveW_zpow]

private theorem relShift {fx fy : ℕ} {qx qy : ℝ} {D : Fin (2 * fy + 1) → Fin (2 * fx + 1) → ℂ}
    (hD : ∀ j i, D j i = Spec.shiftPhase (Spec.colOrder i) qx * Spec.shiftPhase (Spec.rowOrder j) qy)
    {r r' : Option (SubRes (2 * fy + 1) (2 * fx + 1))} (h : Option.Rel (SubRes.Scaled D) r r') :
    Option.Rel (Spec.ShiftedAmplitudes qx qy) r r' := by
  cases h with
  | some h => exact .some fun j i => by rw [h.R_s, h.R_p, h.T_s, h.T_p, hD]; exact ⟨rfl, rfl, rfl, rfl⟩
  | none => exact .none

private theorem grating_vector {s : Settings} {ls ls' : List VLayer} (hu : s.ucell = .vector ls) :
    gratingType (Spec.withUcell s (.vector ls')) = gratingType s := by
  unfold gratingType
  rw [hu]

/-- What follows from convolution matrices that differ by the phases of a displacement. -/
private theorem moved_results {la la' : LinAlg} {s : Settings} (hp : s.p.use_pinv = false) {ls ls' : List VLayer} (hu : s.ucell = .vector ls)
    {dx dy : ℝ} (hC : ∀ cs, convMats la s = .ok cs →
      convMats la (Spec.withUcell s (.vector ls')) = .ok (cs.map (Conv.gauge (shiftD (moveW dx s.p.period.1) (moveW dy s.p.period.2)))))
    {sol sol' : Solved s.p.fto.1 s.p.fto.2} (h : conv_solve la s = .ok sol) (h' : conv_solve la' (Spec.withUcell s (.vector ls')) = .ok sol') :
    Spec.SameEfficiencies sol.result sol'.result ∧
    Option.Rel (Spec.ShiftedAmplitudes (-dx / s.p.period.1) (-dy / s.p.period.2)) sol.result.res sol'.result.res ∧
    Option.Rel (Spec.ShiftedAmplitudes (-dx / s.p.period.1) (-dy / s.p.period.2)) sol.result.res_te_inc sol'.result.res_te_inc ∧
    Option.Rel (Spec.ShiftedAmplitudes (-dx / s.p.period.1) (-dy / s.p.period.2)) sol.result.res_tm_inc sol'.result.res_tm_inc := by
  have hg := grating_vector (ls' := ls') hu
  have hwx := moveW_ne dx s.p.period.1
  have hwy := moveW_ne dy s.p.period.2
  obtain ⟨la₂, sol₂, h₂, hS⟩ := conv_solve_gauge hp (u' := .vector ls') (D := shiftD (moveW dx s.p.period.1) (moveW dy s.p.period.2))
    (shiftD_ne hwx hwy) (shiftD_delta _ _) hg hC h
  have hE := conv_solve_agree (s := Spec.withUcell s (.vector ls')) hp h₂ h'
  rw [hE]
  have hw : weights (Spec.withUcell s (.vector ls')) = weights s := by
    unfold weights
    rw [hg]
  have e : ∀ x, Spec.Reports sol.result x → EffBy (weights s 0) (weights s 1) (weights s 2) (weights s 3) x :=
    fun x hx => conv_solve_eff h hx
  have e' : ∀ x, Spec.Reports sol₂.result x → EffBy (weights s 0) (weights s 1) (weights s 2) (weights s 3) x := by
    intro x hx
    have := conv_solve_eff (s := Spec.withUcell s (.vector ls')) h₂ hx
    rw [hw] at this
    exact this
  have hD : ∀ j i, ‖shiftD (fx := s.p.fto.1) (fy := s.p.fto.2) (moveW dx s.p.period.1) (moveW dy s.p.period.2) (finProdFinEquiv (j, i))‖ = 1 :=
    fun j i => norm_shiftD (norm_moveW _ _) (norm_moveW _ _) _
  obtain ⟨S1, S2, S3⟩ := hS
  exact ⟨⟨relSame hD S1 (fun x hx => e x (.inl hx)) (fun x hx => e' x (.inl hx)),
    relSame hD S2 (fun x hx => e x (.inr (.inl hx))) (fun x hx => e' x (.inr (.inl hx))),
    relSame hD S3 (fun x hx => e x (.inr (.inr hx))) (fun x hx => e' x (.inr (.inr hx)))⟩,
    relShift (moveD_phase dx dy s.p.period) S1, relShift (moveD_phase dx dy s.p.period) S2, relShift (moveD_phase dx dy s.p.period) S3⟩

/-- **C85.**  Two vector structures whose layers show the same periodic pattern, however it is put together from objects, the second
displaced by `(dx, dy)`: if both solves return, they report the same efficiencies, and amplitudes that differ by the phases of the
displacement. -/
theorem C85_pattern (la la' : LinAlg) (s : Settings) (hp : s.p.use_pinv = false) (ls ls' : List VLayer) (hu : s.ucell = .vector ls)
    (hP : 0 < s.p.period.1) (hQ : 0 < s.p.period.2) (dx dy : ℝ) (hd : List.Forall₂ (Spec.Displaced s.p.period dx dy) ls ls')
    (sol sol' : Solved s.p.fto.1 s.p.fto.2) (h : conv_solve la s = .ok sol) (h' : conv_solve la' (Spec.withUcell s (.vector ls')) = .ok sol') :
    Spec.SameEfficiencies sol.result sol'.result ∧
    Option.Rel (Spec.ShiftedAmplitudes (-dx / s.p.period.1) (-dy / s.p.period.2)) sol.result.res sol'.result.res ∧
    Option.Rel (Spec.ShiftedAmplitudes (-dx / s.p.period.1) (-dy / s.p.period.2)) sol.result.res_te_inc sol'.result.res_te_inc ∧
    Option.Rel (Spec.ShiftedAmplitudes (-dx / s.p.period.1) (-dy / s.p.period.2)) sol.result.res_tm_inc sol'.result.res_tm_inc := by
  obtain ⟨cs', hcs', -⟩ := Except.bind_ok.mp h'
  exact moved_results hp hu (fun cs hcs => by
    rw [convMats_la la la' (s := Spec.withUcell s (.vector ls')) hp, hcs', convMats_displaced hp hu hP hQ hd hcs hcs']) h h'

/-- **C85, moved rectangles.**  Moving all rectangles of all layers by the same real amounts, within the cell, displaces the pattern. -/
theorem C85_moved (period : ℝ × ℝ) (hP : 0 < period.1) (hQ : 0 < period.2) (dx dy : ℝ) (ls : List VLayer) (h : ∀ l ∈ ls, Spec.Parallel l)
    (h1 : ∀ l ∈ ls, ∃ objs, Spec.DistinctEdges period l objs) (h2 : ∀ l ∈ ls, ∃ objs, Spec.DistinctEdges period (Spec.moveLayer dx dy l) objs) :
    List.Forall₂ (Spec.Displaced period dx dy) ls (ls.map (Spec.moveLayer dx dy)) := by
  rw [List.forall₂_map_right_iff, List.forall₂_same]
  intro l hl
  obtain ⟨objs, d⟩ := h1 l hl
  obtain ⟨objs', d'⟩ := h2 l hl
  obtain rfl := Except.ok.inj (d'.drawn.symm.trans (moved_objs (dx := dx) (dy := dy) (h l hl) d.drawn))
  exact moved_displaced hP hQ (h l hl) d fun o ho => d'.inside _ (List.mem_map_of_mem ho)

private theorem drawn_cells {period : ℝ × ℝ} (hP : 0 < period.1) (hQ : 0 < period.2) {ls : List VLayer} (h : ∀ l ∈ ls, ∃ objs, Spec.DistinctEdges period l objs) :
    Spec.GoodGeometry period ls ∧ ∃ cells, modeling_vector_instruction period ls = .ok cells := by
  constructor
  · intro l hl os ho
    obtain ⟨objs, d⟩ := h l hl
    obtain rfl := Except.ok.inj (ho.symm.trans d.drawn)
    exact ⟨d.inside, d.rows, d.cols⟩
  · unfold modeling_vector_instruction
    simp only [Except.bind_ok, mapM_ok]
    induction ls with
    | nil => exact ⟨[], [], .nil, .nil⟩
    | cons l ls ih =>
      obtain ⟨cells, os, h1, h2⟩ := ih fun l hl => h l (List.mem_cons_of_mem _ hl)
      obtain ⟨objs, d⟩ := h l List.mem_cons_self
      obtain ⟨c, hc⟩ := draw_exists l.base (objs := objs) hP.ne' hQ.ne' (fun o ho => by
        obtain ⟨a1, a2, a3, a4, a5, a6⟩ := d.inside o ho
        exact ⟨by linarith, by linarith⟩) (by rw [(freeInv objs d.rows d.cols).pert]; exact zero_lt_one)
      exact ⟨c :: cells, (l.base, objs) :: os, .cons ⟨objs, d.drawn, rfl⟩ h1, .cons hc h2⟩

/-- **C85, success.**  If the materials are transparent or absorbing and one of the two structures is solved, then so is the other, with
every eigensolver that returns a basis of eigenvectors. -/
theorem C85_success (la la' : LinAlg) (hb : Spec.ReturnsBasis la') (s : Settings) (hp : s.p.use_pinv = false) (ls ls' : List VLayer)
    (hu : s.ucell = .vector ls) (hP : 0 < s.p.period.1) (hQ : 0 < s.p.period.2) (dx dy : ℝ)
    (hd : List.Forall₂ (Spec.Displaced s.p.period dx dy) ls ls') (hm : ∀ l ∈ ls', ∀ n, Spec.Media l n → Spec.OrdinaryMedium n)
    (sol : Solved s.p.fto.1 s.p.fto.2) (h : conv_solve la s = .ok sol) :
    ∃ sol', conv_solve la' (Spec.withUcell s (.vector ls')) = .ok sol' := by
  have hd' : ∀ l ∈ ls', ∃ objs, Spec.DistinctEdges s.p.period l objs := by
    intro l hl
    clear hu h hm
    induction hd with
    | nil => cases hl
    | cons a _ ih =>
      rcases List.mem_cons.mp hl with rfl | hl
      · obtain ⟨-, objs', -, -, d', -⟩ := a
        exact ⟨objs', d'⟩
      · exact ih hl
  obtain ⟨g, cells, hc⟩ := drawn_cells hP hQ hd'
  obtain ⟨cs', hcs', -⟩ := C55_ordinary_vector la (Spec.withUcell s (.vector ls')) ls' rfl hp hP hQ g cells hc hm
  obtain ⟨la₂, sol₂, h₂, -⟩ := conv_solve_gauge hp (u' := .vector ls') (D := shiftD (moveW dx s.p.period.1) (moveW dy s.p.period.2))
    (shiftD_ne (moveW_ne _ _) (moveW_ne _ _)) (shiftD_delta _ _) (grating_vector hu) (fun cs hcs => by
      rw [hcs', convMats_displaced hp hu hP hQ hd hcs hcs']) h
  obtain ⟨sol', h1, -⟩ := conv_solve_basis (s := Spec.withUcell s (.vector ls')) hp hb h₂
  exact ⟨sol', h1⟩

/-- **C85, moved to any place.**  All rectangles of all layers are moved by the same real amounts, also over the border of the cell or
out of it, and no edges coincide or lie on the border, before and after.  If the structure is solved, then so is the moved one, with
every eigensolver that returns a basis of eigenvectors; and whenever it is solved, it has the same efficiencies and amplitudes that
differ by the phases of the displacement. -/
theorem C85_anywhere (la : LinAlg) (s : Settings) (hp : s.p.use_pinv = false) (ls : List VLayer) (hu : s.ucell = .vector ls)
    (hP : s.p.period.1 ≠ 0) (hQ : s.p.period.2 ≠ 0) (dx dy : ℝ) (hl : ∀ l ∈ ls, Spec.Parallel l)
    (h1 : ∀ l ∈ ls, ∃ objs, Spec.FreeEdges s.p.period l objs) (h2 : ∀ l ∈ ls, ∃ objs, Spec.FreeEdges s.p.period (Spec.moveLayer dx dy l) objs)
    (sol : Solved s.p.fto.1 s.p.fto.2) (h : conv_solve la s = .ok sol) :
    (∀ la', Spec.ReturnsBasis la' → ∃ sol', conv_solve la' (Spec.withUcell s (.vector (ls.map (Spec.moveLayer dx dy)))) = .ok sol') ∧
    ∀ la' (sol' : Solved s.p.fto.1 s.p.fto.2), conv_solve la' (Spec.withUcell s (.vector (ls.map (Spec.moveLayer dx dy)))) = .ok sol' →
      Spec.SameEfficiencies sol.result sol'.result ∧
      Option.Rel (Spec.ShiftedAmplitudes (-dx / s.p.period.1) (-dy / s.p.period.2)) sol.result.res sol'.result.res ∧
      Option.Rel (Spec.ShiftedAmplitudes (-dx / s.p.period.1) (-dy / s.p.period.2)) sol.result.res_te_inc sol'.result.res_te_inc ∧
      Option.Rel (Spec.ShiftedAmplitudes (-dx / s.p.period.1) (-dy / s.p.period.2)) sol.result.res_tm_inc sol'.result.res_tm_inc := by
  have hC : ∀ cs, convMats la s = .ok cs → convMats la (Spec.withUcell s (.vector (ls.map (Spec.moveLayer dx dy))))
      = .ok (cs.map (Conv.gauge (shiftD (moveW dx s.p.period.1) (moveW dy s.p.period.2)))) := by
    intro cs hcs
    refine (convMats_drawn (s := Spec.withUcell s (.vector (ls.map (Spec.moveLayer dx dy)))) hp rfl).mpr ?_
    have hcs := (convMats_drawn hp hu).mp hcs
    exact list_moved hP hQ hl h1 h2 hcs
  refine ⟨fun la' hb => ?_, fun la' sol' h' => moved_results hp hu hC h h'⟩
  obtain ⟨la₂, sol₂, h₂, -⟩ := conv_solve_gauge hp (u' := .vector (ls.map (Spec.moveLayer dx dy)))
    (D := shiftD (moveW dx s.p.period.1) (moveW dy s.p.period.2)) (shiftD_ne (moveW_ne _ _) (moveW_ne _ _)) (shiftD_delta _ _) (grating_vector hu) hC h
  obtain ⟨sol', h1, -⟩ := conv_solve_basis (s := Spec.withUcell s (.vector (ls.map (Spec.moveLayer dx dy)))) hp hb h₂
  exact ⟨sol', h1⟩

/-! ### Examples -/

/-- A square of an absorbing medium in air, centred at `(x, y)`. -/
noncomputable def squareLayer (x y : ℝ) : VLayer := ⟨1, [.rectangle x y (1 / 4) (1 / 4) (2 - Complex.I) (((0 : ℤ) : ℝ) * (Real.pi / 2)) 1 1]⟩

theorem square_objs (x y : ℝ) : (squareLayer x y).objs = .ok [⟨y - 1 / 8, x - 1 / 8, y + 1 / 8, x + 1 / 8, 2 - Complex.I⟩] := by
  have e : (1 / 4 / 2 : ℝ) = 1 / 8 := by norm_num
  simp only [VLayer.objs, squareLayer, List.mapM_cons, VInstr.run, rectangle_quarter, rectNoApprox, bind, Except.bind, List.mapM_nil, pure,
    Except.pure, List.flatten_cons, List.flatten_nil, List.append_nil, e]
  rfl

theorem square_edges {x y : ℝ} (hx : 1 / 8 ≤ x) (hx' : x ≤ 7 / 8) (hy : 1 / 8 ≤ y) (hy' : y ≤ 7 / 8) :
    Spec.DistinctEdges (1, 1) (squareLayer x y) [⟨y - 1 / 8, x - 1 / 8, y + 1 / 8, x + 1 / 8, 2 - Complex.I⟩] := by
  refine ⟨square_objs x y, ?_, ?_, ?_⟩
  · intro o ho
    rw [List.mem_singleton.mp ho]
    refine ⟨?_, ?_, ?_, ?_, ?_, ?_⟩ <;> simp only <;> linarith
  · simp only [Spec.rowEdges, List.flatMap_cons, List.flatMap_nil, List.append_nil, List.nodup_cons, List.mem_singleton, List.not_mem_nil, not_false_eq_true,
      List.nodup_nil, and_true]
    intro h; linarith
  · simp only [Spec.colEdges, List.flatMap_cons, List.flatMap_nil, List.append_nil, List.nodup_cons, List.mem_singleton, List.not_mem_nil, not_false_eq_true,
      List.nodup_nil, and_true]
    intro h; linarith

theorem square_media (x y : ℝ) : ∀ n, Spec.Media (squareLayer x y) n → Spec.OrdinaryMedium n := by
  rintro n (rfl | ⟨cx, cy, lx, ly, angle, nt, np, hv | hv⟩)
  · simp [squareLayer, Spec.OrdinaryMedium]
  · simp only [squareLayer, List.mem_singleton, VInstr.rectangle.injEq] at hv
    obtain ⟨-, -, -, -, rfl, -⟩ := hv
    simp [Spec.OrdinaryMedium]
  · simp [squareLayer] at hv

/-- The square as a layer of thickness 1/3. -/
noncomputable def squareSettings (x y : ℝ) : Settings := { exSettings 0 (some 0) with ucell := .vector [squareLayer x y] }

theorem square_solves : ∃ sol, conv_solve exLA (squareSettings (1 / 4) (3 / 8)) = .ok sol := by
  have hde := square_edges (x := 1 / 4) (y := 3 / 8) (by norm_num) (by norm_num) (by norm_num) (by norm_num)
  obtain ⟨g, cells, hc⟩ := drawn_cells (period := (1, 1)) one_pos one_pos (ls := [squareLayer (1 / 4) (3 / 8)]) (fun l hl => by
    rw [List.mem_singleton.mp hl]; exact ⟨_, hde⟩)
  have hA : Spec.AbsorbingProblem (squareSettings (1 / 4) (3 / 8)) :=
    { toRealIllumination := (exSettings_lossless 0 (some 0) (by intro φ h; cases h; rfl)).toRealIllumination
      layers := by
        refine ⟨g, fun l hl => by rw [List.mem_singleton.mp hl]; exact square_media _ _, cells, hc, fun c hcm => ?_⟩
        unfold modeling_vector_instruction at hc
        simp only [Except.bind_ok, mapM_ok] at hc
        obtain ⟨os, h1, h2⟩ := hc
        cases h1 with
        | cons a b =>
          cases b
          cases h2 with
          | cons a' b' =>
            cases b'
            rw [List.mem_singleton.mp hcm]
            obtain ⟨o, ho, e⟩ := a
            obtain rfl := Except.ok.inj e
            obtain rfl := Except.ok.inj (ho.symm.trans hde.drawn)
            obtain ⟨i, j, -, -, hp⟩ := C35_exact (1, 1) _ _ _ a' (1 / 4) (3 / 8) (by norm_num) (by norm_num) hde.rows hde.cols
              (by norm_num [Spec.rowEdges]) (by norm_num [Spec.colEdges])
            refine ⟨i, j, ?_⟩
            have : Spec.PaintedAs (squareLayer (1 / 4) (3 / 8)).base [(⟨3 / 8 - 1 / 8, 1 / 4 - 1 / 8, 3 / 8 + 1 / 8, 1 / 4 + 1 / 8, 2 - Complex.I⟩ : VObj)]
                (1 / 4) (3 / 8) (2 - Complex.I) :=
              .inl ⟨[], _, [], rfl, by norm_num [Spec.Covers], by simp, rfl⟩
            rw [painted_eq hp this]
            simp [Spec.AbsorbingMedium]
      thickness_pos := by
        intro d hd
        obtain rfl : d = 1 / 3 := by simpa [squareSettings, exSettings, exParams] using hd
        norm_num
      thickness_some := by simp [squareSettings, exSettings, exParams]
      layers_enough := by simp [squareSettings, exSettings, exParams, Spec.layerCount]
      n_bot_real := by simp [squareSettings, exSettings, exParams, Spec.IsReal]
      n_bot_pos := by simp [squareSettings, exSettings, exParams]
      not_normal := .inr (lossy_not_normal 0 0 0)
      orders := fun _ => rfl }
  obtain ⟨cs, hcs, -, hiff⟩ := C56_absorbing exLA exLA_basis (squareSettings (1 / 4) (3 / 8)) rfl rfl hA
  refine hiff.mpr fun c _ => ?_
  have hg : gratingType (squareSettings (1 / 4) (3 / 8)) = 2 := rfl
  unfold Spec.LayerHasModes
  rw [hg]
  intro Kx Ky
  have hKy : Ky = 0 := by
    have : Spec.kyOf (squareSettings (1 / 4) (3 / 8)).p = fun _ => 0 := by
      funext i
      have hi : (i : FlatIdx 0 0) = 0 := Subsingleton.elim (α := Fin 1) _ _
      subst hi
      simp [Spec.kyOf, squareSettings, exSettings, exParams]
    show diagonal _ = 0
    rw [this]
    exact diagonal_zero
  have key : ∀ A B : Matrix (Fin 1) (Fin 1) ℂ, Spec.Diagonalisable (fromBlocks A 0 0 B) := by
    intro A B
    refine ⟨1, Sum.elim (fun i => A i i) (fun i => B i i), by simp, ?_⟩
    rw [Matrix.mul_one, Matrix.one_mul]
    ext i j
    rcases i with i | i <;> rcases j with j | j
    · rw [Subsingleton.elim i j]; simp
    · simp
    · simp
    · rw [Subsingleton.elim i j]; simp
  refine ⟨fun h => absurd h (by norm_num), fun h => absurd h (by norm_num), fun h => absurd h (by norm_num), fun _ => ?_⟩
  rw [hKy]
  simp only [Matrix.mul_zero, Matrix.zero_mul, sub_zero]
  exact key _ _

/-- Not vacuous: the square of an absorbing medium, moved by `(1/8, -1/5)`, is solved with the same efficiencies. -/
example : ∃ sol sol', conv_solve exLA (squareSettings (1 / 4) (3 / 8)) = .ok sol ∧
    conv_solve exLA (Spec.withUcell (squareSettings (1 / 4) (3 / 8)) (.vector ([squareLayer (1 / 4) (3 / 8)].map (Spec.moveLayer (1 / 8) (-(1 / 5)))))) = .ok sol' ∧
    Spec.SameEfficiencies sol.result sol'.result := by
  obtain ⟨sol, h⟩ := square_solves
  have e : Spec.moveLayer (1 / 8) (-(1 / 5)) (squareLayer (1 / 4) (3 / 8)) = squareLayer (1 / 4 + 1 / 8) (3 / 8 + -(1 / 5)) := rfl
  have hd := C85_moved (squareSettings (1 / 4) (3 / 8)).p.period one_pos one_pos (1 / 8) (-(1 / 5)) [squareLayer (1 / 4) (3 / 8)]
    (fun l hl => by
      rw [List.mem_singleton.mp hl]
      intro i hi
      rw [List.mem_singleton.mp hi]
      exact ⟨_, _, _, _, _, 0, _, _, rfl⟩)
    (fun l hl => by rw [List.mem_singleton.mp hl]; exact ⟨_, square_edges (by norm_num) (by norm_num) (by norm_num) (by norm_num)⟩)
    (fun l hl => by
      rw [List.mem_singleton.mp hl, e]
      exact ⟨_, square_edges (by norm_num) (by norm_num) (by norm_num) (by norm_num)⟩)
  obtain ⟨sol', h'⟩ := C85_success exLA exLA exLA_basis (squareSettings (1 / 4) (3 / 8)) rfl _ _ rfl one_pos one_pos _ _ hd
    (fun l hl => by
      rw [List.map_cons, List.map_nil] at hl
      rw [List.mem_singleton.mp hl, e]
      exact square_media _ _) sol h
  exact ⟨sol, sol', h, h', (C85_pattern exLA exLA _ rfl _ _ rfl one_pos one_pos _ _ hd sol sol' h h').1⟩

/-- Not vacuous: the square may be moved over the border of the cell, here by `(3/4, -1/3)`. -/
example : ∃ sol sol', conv_solve exLA (squareSettings (1 / 4) (3 / 8)) = .ok sol ∧
    conv_solve exLA (Spec.withUcell (squareSettings (1 / 4) (3 / 8)) (.vector ([squareLayer (1 / 4) (3 / 8)].map (Spec.moveLayer (3 / 4) (-(1 / 3)))))) = .ok sol' ∧
    Spec.SameEfficiencies sol.result sol'.result := by
  obtain ⟨sol, h⟩ := square_solves
  have e : Spec.moveLayer (3 / 4) (-(1 / 3)) (squareLayer (1 / 4) (3 / 8)) = squareLayer (1 / 4 + 3 / 4) (3 / 8 + -(1 / 3)) := rfl
  obtain ⟨k1, k2⟩ := C85_anywhere exLA (squareSettings (1 / 4) (3 / 8)) rfl [squareLayer (1 / 4) (3 / 8)] rfl one_ne_zero one_ne_zero (3 / 4) (-(1 / 3))
    (fun l hl => by
      rw [List.mem_singleton.mp hl]
      intro i hi
      rw [List.mem_singleton.mp hi]
      exact ⟨_, _, _, _, _, 0, _, _, rfl⟩)
    (fun l hl => by
      rw [List.mem_singleton.mp hl]
      refine ⟨_, square_objs _ _, ?_, ?_, ?_, ?_⟩ <;> norm_num [Spec.rowEdges, Spec.colEdges, squareSettings, exSettings, exParams])
    (fun l hl => by
      rw [List.mem_singleton.mp hl, e]
      refine ⟨_, square_objs _ _, ?_, ?_, ?_, ?_⟩ <;> norm_num [Spec.rowEdges, Spec.colEdges, squareSettings, exSettings, exParams]) sol h
  obtain ⟨sol', h'⟩ := k1 exLA exLA_basis
  exact ⟨sol, sol', h, h', (k2 exLA sol' h').1⟩

end Meent

#print axioms Meent.C85_pattern
#print axioms Meent.C85_moved
#print axioms Meent.C85_success
#print axioms Meent.C85_anywhere
