import Verif.Lemmas.FieldMoved
import Verif.Lemmas.Example2D
import Verif.Props.C27
import Verif.Props.C39
import Verif.Props.C57
import Verif.Props.C85

/-!
# C87: the fields are determined by the problem, and move with the structure

Two eigensolvers may order and scale the eigenvectors in different ways. The fields that are returned do not depend on such choices.
Moving the structure moves the fields.
-/

open Matrix

namespace Meent

private theorem tetm_facts {la : LinAlg} {s : Settings} {r : Solved s.p.fto.1 s.p.fto.2} (h : conv_solve la s = .ok r) (o) (hr : r = .tetm o) :
    s.p.phi = none ∧ s.p.fto.2 = 0 := by
  subst hr
  obtain ⟨-, -, hg, -, -⟩ := conv_solve_tetm.mp h
  obtain ⟨-, -, -, -, h1, h2⟩ := gratingType_zero hg
  exact ⟨h1, h2⟩

/-- **C87.**  The fields returned for a problem do not depend on the eigensolver: if `conv_solve_field` returns with two eigensolvers, it
returns the same arrays. -/
theorem C87_eigensolver (la la' : LinAlg) (s : Settings) (hp : s.p.use_pinv = false) (hn : s.p.n_top ≠ 0) (hw : s.p.wavelength ≠ 0)
    (rx ry rz : ℕ) (sel : Bool × Bool × Bool) (r r' : Solved s.p.fto.1 s.p.fto.2) (cell cell' : FieldCell rx ry rz)
    (h : conv_solve_field la s rx ry rz sel = .ok (r, cell)) (h' : conv_solve_field la' s rx ry rz sel = .ok (r', cell')) : cell = cell' := by
  unfold conv_solve_field at h h'
  simp only [Except.bind_ok] at h h'
  obtain ⟨r1, h1, c1, h2, e⟩ := h
  obtain ⟨rfl, rfl⟩ := Prod.mk.inj (Except.ok.inj e)
  obtain ⟨r1', h1', c1', h2', e'⟩ := h'
  obtain ⟨rfl, rfl⟩ := Prod.mk.inj (Except.ok.inj e')
  obtain ⟨cs, hc, -⟩ := conv_solve_ok.mp h1
  have hr : r1 ≠ .conicalSmm := by rintro rfl; cases h2
  obtain ⟨fields, hf⟩ := problem_fields hp hn h1 hr hc
  have hf' := problem_congr (fun o ho => (tetm_facts h1 o ho).2) (conv_solve_agree hp h1 h1') hf
  obtain ⟨a, ha, hs⟩ := problem_sampled hp hn hw h1 hc hf rx ry rz sel
  obtain ⟨a', ha', hs'⟩ := problem_sampled hp hn hw h1' ((convMats_la la' la hp).trans hc) hf' rx ry rz sel
  obtain rfl := Except.ok.inj (ha.symm.trans h2)
  obtain rfl := Except.ok.inj (ha'.symm.trans h2')
  exact sampled_inj hs hs'

/-- What follows from convolution matrices that differ by the phases of a move. -/
private theorem fields_move {la la' : LinAlg} {s : Settings} (hp : s.p.use_pinv = false) (hR : Spec.RealIllumination s.p) {u' : Structure} {q : ℝ × ℝ}
    {D : FlatIdx s.p.fto.1 s.p.fto.2 → ℂ} (hD : MovePhases s.p q D) (hg : gratingType (Spec.withUcell s u') = gratingType s)
    (hC : ∀ cs, convMats la s = .ok cs → convMats la (Spec.withUcell s u') = .ok (cs.map (Conv.gauge D)))
    {r r' : Solved s.p.fto.1 s.p.fto.2} (h : conv_solve la s = .ok r) (h' : conv_solve la' (Spec.withUcell s u') = .ok r') (hr : r ≠ .conicalSmm) :
    ∃ fields : Spec.Fields Field3, Spec.AlwaysSampled s.p r fields ∧ Spec.AlwaysSampled s.p r' (fields.moved s.p q) := by
  have hn : s.p.n_top ≠ 0 := by
    intro h0
    have := hR.n_top_pos
    rw [h0] at this
    simp at this
  have hw := hR.wavelength_pos.ne'
  obtain ⟨cs, hc, -⟩ := conv_solve_ok.mp h
  obtain ⟨fields, hf⟩ := problem_fields hp hn h hr hc
  obtain ⟨la₂, sol₂, h₂, hS⟩ := conv_solve_gauge hp (u' := u') hD.ne hD.delta hg hC h
  have hE := conv_solve_agree (s := Spec.withUcell s u') hp h₂ h'
  rw [← hE] at hS
  have hf' := problem_gauge hR hD (tetm_facts h) hS hf
  have hc' : convMats la' (Spec.withUcell s u') = .ok (cs.map (Conv.gauge D)) := by
    rw [convMats_la la' la (s := Spec.withUcell s u') hp]
    exact hC cs hc
  exact ⟨fields, problem_sampled hp hn hw h hc hf, problem_sampled (s := Spec.withUcell s u') hp hn hw h' hc' hf'⟩

private theorem roll_phases {p : Params} (nx ny sx sy : ℕ) (ft : ℤ) :
    MovePhases p ((sx : ℝ) / nx, (if ft = 0 then 1 else -1) * ((sy : ℝ) / ny)) (shiftD (rootZ nx 1 ^ sx) (shiftWy ft ny sy)) := by
  intro j i
  have key : ∀ (N k : ℕ) (m : ℤ), (rootZ N 1 ^ k) ^ m = Spec.shiftPhase m ((k : ℝ) / N) := by
    intro N k m
    unfold rootZ Spec.shiftPhase
    rw [← Complex.exp_nat_mul, ← Complex.exp_int_mul]
    congr 1
    push_cast
    ring
  have hX : Spec.orderX (fx := p.fto.1) (fy := p.fto.2) (finProdFinEquiv (j, i)) = Spec.colOrder i := by
    have := congrArg Fin.val (modNat_prod j i)
    unfold Spec.orderX Spec.colOrder
    rw [← this]
    rfl
  have hY : Spec.orderY (fx := p.fto.1) (fy := p.fto.2) (finProdFinEquiv (j, i)) = Spec.rowOrder j := by
    have := congrArg Fin.val (divNat_prod j i)
    unfold Spec.orderY Spec.rowOrder
    rw [← this]
    rfl
  unfold shiftD shiftWy
  rw [hX, hY, key]
  congr 1
  split_ifs with h
  · rw [key, one_mul]
  · rw [_root_.inv_zpow', key]
    unfold Spec.shiftPhase
    congr 1
    push_cast
    ring

/-- **C87, moved pixels.**  When all rasters are shifted by `sy` rows and `sx` columns, the fields move along: there are functions of position, sampled by
all arrays for the original structure, whose translates by the same fractions of a period, with the phase of the incident wave, are sampled by all
arrays for the shifted structure. With continuous coefficients, where rows are counted downwards, the sign of the move along `y` changes. -/
theorem C87_pixels (la la' : LinAlg) (s : Settings) (hp : s.p.use_pinv = false) (hR : Spec.RealIllumination s.p) (u : Ucell) (hu : s.ucell = .raster u)
    (hy : 0 < u.ny) (hx : 0 < u.nx) (sy sx : ℕ) (r r' : Solved s.p.fto.1 s.p.fto.2) (h : conv_solve la s = .ok r)
    (h' : conv_solve la' (Spec.withUcell s (.raster (Spec.rollAll sy sx u))) = .ok r') (hr : r ≠ .conicalSmm) :
    ∃ fields : Spec.Fields Field3, Spec.AlwaysSampled s.p r fields ∧
      Spec.AlwaysSampled s.p r' (fields.moved s.p ((sx : ℝ) / u.nx, (if s.fourier_type = 0 then 1 else -1) * ((sy : ℝ) / u.ny))) :=
  fields_move hp hR (roll_phases u.nx u.ny sx sy s.fourier_type) (by unfold gratingType; rw [hu])
    (fun cs hcs => convMats_shift hp hu hy hx sy sx hcs) h h' hr

private theorem drawn_phases {p : Params} (dx dy : ℝ) :
    MovePhases p (-dx / p.period.1, -dy / p.period.2) (shiftD (moveW dx p.period.1) (moveW dy p.period.2)) :=
  moveD_phase dx dy p.period

/-- **C87, moved drawings.**  When the pattern drawn in every layer is displaced by `(dx, dy)`, the fields are displaced by `(dx, dy)`, with the phase of
the incident wave. -/
theorem C87_drawings (la la' : LinAlg) (s : Settings) (hp : s.p.use_pinv = false) (hR : Spec.RealIllumination s.p) (ls ls' : List VLayer)
    (hu : s.ucell = .vector ls) (dx dy : ℝ) (hd : List.Forall₂ (Spec.Displaced s.p.period dx dy) ls ls') (r r' : Solved s.p.fto.1 s.p.fto.2)
    (h : conv_solve la s = .ok r) (h' : conv_solve la' (Spec.withUcell s (.vector ls')) = .ok r') (hr : r ≠ .conicalSmm) :
    ∃ fields : Spec.Fields Field3, Spec.AlwaysSampled s.p r fields ∧
      Spec.AlwaysSampled s.p r' (fields.moved s.p (-dx / s.p.period.1, -dy / s.p.period.2)) := by
  obtain ⟨cs', hcs', -⟩ := Except.bind_ok.mp h'
  exact fields_move hp hR (drawn_phases dx dy) (by unfold gratingType; rw [hu]) (fun cs hcs => by
    rw [convMats_la la la' (s := Spec.withUcell s (.vector ls')) hp, hcs', convMats_displaced hp hu hR.period_x_pos hR.period_y_pos hd hcs hcs']) h h' hr

/-- **C87, rectangles moved anywhere.**  The same for rectangles whose sides are parallel to the axes, whether or not they cross the border of the cell. -/
theorem C87_anywhere (la la' : LinAlg) (s : Settings) (hp : s.p.use_pinv = false) (hR : Spec.RealIllumination s.p) (ls : List VLayer)
    (hu : s.ucell = .vector ls) (dx dy : ℝ) (hl : ∀ l ∈ ls, Spec.Parallel l) (h1 : ∀ l ∈ ls, ∃ objs, Spec.FreeEdges s.p.period l objs)
    (h2 : ∀ l ∈ ls, ∃ objs, Spec.FreeEdges s.p.period (Spec.moveLayer dx dy l) objs) (r r' : Solved s.p.fto.1 s.p.fto.2)
    (h : conv_solve la s = .ok r) (h' : conv_solve la' (Spec.withUcell s (.vector (ls.map (Spec.moveLayer dx dy)))) = .ok r') (hr : r ≠ .conicalSmm) :
    ∃ fields : Spec.Fields Field3, Spec.AlwaysSampled s.p r fields ∧
      Spec.AlwaysSampled s.p r' (fields.moved s.p (-dx / s.p.period.1, -dy / s.p.period.2)) := by
  refine fields_move hp hR (drawn_phases dx dy) (by unfold gratingType; rw [hu]) (fun cs hcs => ?_) h h' hr
  refine (convMats_drawn (s := Spec.withUcell s (.vector (ls.map (Spec.moveLayer dx dy)))) hp rfl).mpr ?_
  exact list_moved hR.period_x_pos.ne' hR.period_y_pos.ne' hl h1 h2 ((convMats_drawn hp hu).mp hcs)

/-- **C87, JAX.**  The fields of the JAX backend are those of the NumPy backend, whatever eigensolvers the two use. -/
theorem C87_jax (env : Jax.Env) (la' : LinAlg) (s : Settings) (hp : s.p.use_pinv = false) (hn : s.p.n_top ≠ 0) (hw : s.p.wavelength ≠ 0)
    (hpix : ∀ u, s.ucell = .raster u → 0 < u.ny ∧ 0 < u.nx) (he : Spec.EllipsesSplit s.ucell)
    (hl : s.p.thickness.length ≤ Spec.layerCount s.ucell) (rx ry rz : ℕ) (sel : Bool × Bool × Bool) (r r' : Solved s.p.fto.1 s.p.fto.2)
    (cell cell' : FieldCell rx ry rz) (h : Jax.conv_solve env s = .ok r) (hc : Jax.calculate_field s.p r rx ry rz sel = .ok cell)
    (h' : conv_solve_field la' s rx ry rz sel = .ok (r', cell')) : cell = cell' := by
  refine C87_eigensolver env.la la' s hp hn hw rx ry rz sel r r' cell cell' ?_ h'
  unfold conv_solve_field
  rw [C57_jax_to_numpy env s hpix he hl r h]
  simp only [bind, Except.bind]
  rw [show calculate_field s.p r rx ry rz sel = .ok cell from hc]

/-- Not vacuous: a conical problem with two materials at 30° is solved, and so is it shifted by one column. -/
example (pol : ℝ) : ∃ la la' sol sol', conv_solve la (exSettings pol (some 0)) = .ok sol ∧
    conv_solve la' (Spec.withUcell (exSettings pol (some 0)) (.raster (Spec.rollAll 0 1 exCell))) = .ok sol' ∧ sol ≠ .conicalSmm ∧
    ∃ fields : Spec.Fields Field3, Spec.AlwaysSampled (exSettings pol (some 0)).p sol fields ∧
      Spec.AlwaysSampled (exSettings pol (some 0)).p sol' (fields.moved (exSettings pol (some 0)).p
        (((1 : ℕ) : ℝ) / exCell.nx, (if (exSettings pol (some 0)).fourier_type = 0 then 1 else -1) * (((0 : ℕ) : ℝ) / exCell.ny))) := by
  obtain ⟨o, ho⟩ := exCon_ok pol
  obtain ⟨sol', h'⟩ := C39_success (la' := exLA) exLA_basis (s := exSettings pol (some 0)) rfl rfl (u := exCell) (by simp [exCell]) (by simp [exCell]) 0 1 ho
  exact ⟨_, _, _, sol', ho, h', by simp, C87_pixels _ _ _ rfl (exSettings_lossless pol (some 0) (by intro φ h; cases h; rfl)).toRealIllumination exCell rfl
    (by simp [exCell]) (by simp [exCell]) 0 1 _ _ ho h' (by simp)⟩

/-- Not vacuous: the fields of that problem are returned by every eigensolver that finds a basis of eigenvectors. -/
example (pol : ℝ) (rx ry rz : ℕ) (sel : Bool × Bool × Bool) (la' : LinAlg) (hb : Spec.ReturnsBasis la') :
    ∃ r r' cell, conv_solve_field exLA (exSettings pol (some 0)) rx ry rz sel = .ok (r, cell) ∧
      conv_solve_field la' (exSettings pol (some 0)) rx ry rz sel = .ok (r', cell) := by
  obtain ⟨o, ho⟩ := exCon_ok pol
  obtain ⟨sol', h', -⟩ := conv_solve_basis (s := exSettings pol (some 0)) rfl hb ho
  obtain ⟨c, hc⟩ := C27_available exLA (exSettings pol (some 0)) rfl rx ry rz sel _ ho
  obtain ⟨c', hc'⟩ := C27_available la' (exSettings pol (some 0)) rfl rx ry rz sel _ h'
  obtain rfl := C87_eigensolver _ _ _ rfl (by simp [exSettings, exParams]) (by simp [exSettings, exParams]) rx ry rz sel _ _ _ _ hc hc'
  exact ⟨_, _, c, hc, hc'⟩

/-- Not vacuous: a square of an absorbing medium, moved over the border of the cell by `(3/4, -1/3)`. -/
example : ∃ sol sol', conv_solve exLA (squareSettings (1 / 4) (3 / 8)) = .ok sol ∧
    conv_solve exLA (Spec.withUcell (squareSettings (1 / 4) (3 / 8)) (.vector ([squareLayer (1 / 4) (3 / 8)].map (Spec.moveLayer (3 / 4) (-(1 / 3)))))) = .ok sol' ∧
    ∃ fields : Spec.Fields Field3, Spec.AlwaysSampled (squareSettings (1 / 4) (3 / 8)).p sol fields ∧
      Spec.AlwaysSampled (squareSettings (1 / 4) (3 / 8)).p sol' (fields.moved (squareSettings (1 / 4) (3 / 8)).p (-(3 / 4) / 1, - -(1 / 3) / 1)) := by
  obtain ⟨sol, h⟩ := square_solves
  have e : Spec.moveLayer (3 / 4) (-(1 / 3)) (squareLayer (1 / 4) (3 / 8)) = squareLayer (1 / 4 + 3 / 4) (3 / 8 + -(1 / 3)) := rfl
  have a0 : ∀ l ∈ [squareLayer (1 / 4) (3 / 8)], Spec.Parallel l := by
    intro l hl
    rw [List.mem_singleton.mp hl]
    intro i hi
    rw [List.mem_singleton.mp hi]
    exact ⟨_, _, _, _, _, 0, _, _, rfl⟩
  have a1 : ∀ l ∈ [squareLayer (1 / 4) (3 / 8)], ∃ objs, Spec.FreeEdges (squareSettings (1 / 4) (3 / 8)).p.period l objs := by
    intro l hl
    rw [List.mem_singleton.mp hl]
    refine ⟨_, square_objs _ _, ?_, ?_, ?_, ?_⟩ <;> norm_num [Spec.rowEdges, Spec.colEdges, squareSettings, exSettings, exParams]
  have a2 : ∀ l ∈ [squareLayer (1 / 4) (3 / 8)], ∃ objs, Spec.FreeEdges (squareSettings (1 / 4) (3 / 8)).p.period (Spec.moveLayer (3 / 4) (-(1 / 3)) l) objs := by
    intro l hl
    rw [List.mem_singleton.mp hl, e]
    refine ⟨_, square_objs _ _, ?_, ?_, ?_, ?_⟩ <;> norm_num [Spec.rowEdges, Spec.colEdges, squareSettings, exSettings, exParams]
  obtain ⟨k1, -⟩ := C85_anywhere exLA (squareSettings (1 / 4) (3 / 8)) rfl [squareLayer (1 / 4) (3 / 8)] rfl one_ne_zero one_ne_zero (3 / 4) (-(1 / 3)) a0 a1 a2 sol h
  obtain ⟨sol', h'⟩ := k1 exLA exLA_basis
  have hR : Spec.RealIllumination (squareSettings (1 / 4) (3 / 8)).p :=
    (exSettings_lossless 0 (some 0) (by intro φ h; cases h; rfl)).toRealIllumination
  refine ⟨sol, sol', h, h', C87_anywhere exLA exLA _ rfl hR _ rfl _ _ a0 a1 a2 _ _ h h' ?_⟩
  rintro rfl
  obtain ⟨_, _, h2⟩ := conv_solve_ok.mp h
  rw [solve_for_conv_smm] at h2
  exact absurd h2.1 (by show ¬(2 = 1); norm_num)

end Meent

#print axioms Meent.C87_anywhere
#print axioms Meent.C87_eigensolver
#print axioms Meent.C87_pixels
#print axioms Meent.C87_drawings
#print axioms Meent.C87_jax
