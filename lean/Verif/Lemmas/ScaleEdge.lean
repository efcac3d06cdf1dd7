import Verif.Lemmas.AbsorbSpec
import Verif.Lemmas.VectorOne
import Verif.Spec.Scale
import Verif.Lemmas.Example2D

/-!
# A vector layer with two slices that start at coordinate 0 (helper lemmas)
-/

open Matrix

namespace Meent

set_option linter.unusedSimpArgs false

theorem toepL_zero {N : ℕ} (L : (Fin N → ℂ) → ℤ → ℂ) (a : Fin N → ℂ) : toepL L 0 a = L a 0 • 1 := by
  ext r c
  obtain rfl : r = 0 := Subsingleton.elim _ _
  obtain rfl : c = 0 := Subsingleton.elim _ _
  simp [toepL]

/-- With one order kept, a cell that is the same in all columns gives the mean and the harmonic mean over y. -/
theorem fromCell_xconst {Nx Ny : ℕ} {Lx : (Fin Nx → ℂ) → ℤ → ℂ} {Ly : (Fin Ny → ℂ) → ℤ → ℂ} (hx : UnitFun Lx 0) {v : Fin Ny → ℂ}
    (hne : ∀ y, v y ≠ 0) (hm : Ly v 0 ≠ 0) (hh : Ly (fun y => 1 / v y) 0 ≠ 0) :
    FromCell (fx := 0) (fy := 0) Lx Ly (fun _ y => v y)
      ⟨Ly v 0 • 1, (Ly (fun y => 1 / v y) 0)⁻¹ • 1, (Ly v 0)⁻¹ • 1⟩ (Ly v 0 • 1) := by
  refine ⟨?_, ?_, ?_, isUnit_det_smul_one hm, (smul_one_inv hm).symm⟩
  · unfold genConv
    refine Except.bind_ok.mpr ⟨_, invRuleY_ok.mpr (.inl ⟨rfl, rfl⟩), Except.bind_ok.mpr ⟨_, invIf_ok.mpr (.inl ⟨rfl, rfl⟩), ?_⟩⟩
    simp only [if_true, toepL_zero]
    rw [btoepL_const hx, flatten4_smul_one]
  · unfold genConv
    refine Except.bind_ok.mpr ⟨_, invRuleY_ok.mpr (.inr ⟨rfl, fun _ => hne, rfl⟩), Except.bind_ok.mpr
      ⟨_, invIf_ok.mpr (.inr ⟨rfl, fun x => ?_, rfl⟩), ?_⟩⟩
    · rw [toepL_zero]; exact isUnit_det_smul_one hh
    simp only [if_true, toepL_zero, smul_one_inv hh]
    rw [btoepL_const hx, flatten4_smul_one]
  · unfold genConv
    refine Except.bind_ok.mpr ⟨_, invRuleY_ok.mpr (.inl ⟨rfl, rfl⟩), Except.bind_ok.mpr
      ⟨_, invIf_ok.mpr (.inr ⟨rfl, fun x => ?_, rfl⟩), ?_⟩⟩
    · rw [toepL_zero]; exact isUnit_det_smul_one hm
    simp only [Bool.false_eq_true, if_false, toepL_zero, smul_one_inv hm]
    rw [btoepL_const hx, flatten4_smul_one]
    exact npInv_ok.mpr ⟨isUnit_det_smul_one (inv_ne_zero hm), by rw [smul_one_inv (inv_ne_zero hm), inv_inv]⟩

theorem fromCell_xconst_mean {Nx Ny : ℕ} {Lx : (Fin Nx → ℂ) → ℤ → ℂ} {Ly : (Fin Ny → ℂ) → ℤ → ℂ} (hx : UnitFun Lx 0) {v : Fin Ny → ℂ}
    {c : Conv (FlatIdx 0 0)} {epz : Matrix (FlatIdx 0 0) (FlatIdx 0 0) ℂ}
    (h : FromCell (fx := 0) (fy := 0) Lx Ly (fun _ y => v y) c epz) : Ly v 0 ≠ 0 := by
  intro h0
  have hz := h.hz
  unfold genConv at hz
  obtain ⟨a, ha, hz⟩ := Except.bind_ok.mp hz
  obtain ⟨b, hb, hz⟩ := Except.bind_ok.mp hz
  rcases invRuleY_ok.mp ha with ⟨-, rfl⟩ | ⟨h1, -⟩
  · rcases invIf_ok.mp hb with ⟨-, rfl⟩ | ⟨h1, -⟩
    · simp only [if_true, toepL_zero, Except.ok.injEq] at hz
      rw [btoepL_const hx, flatten4_smul_one, h0, zero_smul] at hz
      have := h.hu
      rw [← hz] at this
      rw [det_zero] at this
      exact not_isUnit_zero this
    · simp at h1
  · simp at h1

theorem bisectLeft_two (a b x : ℝ) : bisectLeft [a, b] x 0 2 = if b < x then 2 else if a < x then 1 else 0 := by
  unfold bisectLeft
  simp only [bisectLeft_empty, Nat.reduceAdd, Nat.reduceDiv, Nat.zero_add]
  unfold bisectLeft
  simp [bisectLeft_empty]

theorem bisectLeft_three (a b c x : ℝ) : bisectLeft [a, b, c] x 0 3
    = if b < x then (if c < x then 3 else 2) else if a < x then 1 else 0 := by
  unfold bisectLeft
  simp only [bisectLeft_empty, Nat.reduceAdd, Nat.reduceDiv, Nat.zero_add]
  unfold bisectLeft
  simp [bisectLeft_empty]

/-- Two slices that both start at row 0: the second one is moved by `1e-14`. -/
theorem drawn_edge {c : ℝ} (hc : 0 < c) (h1 : c ≠ pertUnit) (h3 : c / 2 ≠ pertUnit) (b n : ℂ) :
    vectorPerLayer (c, c) b [⟨0, c / 4, c / 2, c / 2, b⟩, ⟨0, 0, c, c, n⟩]
      = .ok ([pertUnit, 0, c / 2, c], [c / 4, c / 2, c],
          paintSlice (paintSlice (fun _ _ => b) 0 3 1 2 b) 1 4 0 3 n) := by
  have hu : pertUnit ≠ 0 := by unfold pertUnit; positivity
  have h4 : c / 4 < c / 2 := by linarith
  have h2 : c / 2 < c := by linarith
  have h5 : c / 4 < c := by linarith
  have p2 : 0 < c / 2 := by linarith
  have p4 : 0 < c / 4 := by linarith
  have hg : gridLayer [⟨0, c / 4, c / 2, c / 2, b⟩, ⟨0, 0, c, c, n⟩]
      = ⟨[pertUnit, 0, c / 2, c], [0, c / 4, c / 2, c], pertUnit, [⟨0, c / 4, c / 2, c / 2, b⟩, ⟨pertUnit, 0, c, c, n⟩]⟩ := by
    have a1 : insertTop [0, c / 2] 0 0 = ([pertUnit, 0, c / 2], pertUnit, pertUnit) := by
      simp [insertTop, bisectLeft_two, p2.not_gt]
    have a2 : insertBot [pertUnit, 0, c / 2] pertUnit c = ([pertUnit, 0, c / 2, c], pertUnit, c) := by
      simp [insertBot, bisectLeft_three, hc, h2]
    have a3 : insertTop [c / 4, c / 2] pertUnit 0 = ([0, c / 4, c / 2], pertUnit, 0) := by
      simp [insertTop, bisectLeft_two, p2.not_gt, p4.not_gt, p4.ne', hc.ne']
    have a4 : insertBot [0, c / 4, c / 2] pertUnit c = ([0, c / 4, c / 2, c], pertUnit, c) := by
      simp [insertBot, bisectLeft_three, h5, h2]
    simp only [gridLayer, List.foldl_cons, List.foldl_nil, gridStep, insertTop_nil, insertBot_one _ _ _ p2, insertBot_one _ _ _ h4,
      a1, a2, a3, a4, List.nil_append, List.cons_append]
  have e1 : finishEdges [pertUnit, 0, c / 2, c] c = [pertUnit, 0, c / 2, c] := by simp [finishEdges, hu]
  have e2 : finishEdges [0, c / 4, c / 2, c] c = [c / 4, c / 2, c] := by simp [finishEdges]
  simp [vectorPerLayer, hg, e1, e2, paintAll, beginIdx, endIdx, listIndex, hu, List.findIdx?_cons, bind, Except.bind, hc.ne, hc.ne', p4.ne',
    p4.ne, p2.ne, p2.ne', h1, h1.symm, h3, h3.symm, h2.ne, h4.ne, h5.ne]

/-- An absorbing layer with a small box in the colour of the background and a box over the whole period, both drawn from coordinate
0 upwards. -/
noncomputable def edgeLayer : VLayer :=
  ⟨1 - Complex.I, [.rectangle (3 / 8) (1 / 4) (1 / 4) (1 / 2) (1 - Complex.I) 0 1 1, .rectangle (1 / 2) (1 / 2) 1 1 (2 - 2 * Complex.I) 0 1 1]⟩

/-- The layer in vacuum, one order kept. -/
noncomputable def edgeSettings : Settings where
  p := exParams 0 (some 0)
  ucell := .vector [edgeLayer]
  fourier_type := 1
  enhanced_dfs := true
  algo := .tmm

/-- The grid lines of the drawn cell. -/
noncomputable def edgeX (c : ℝ) (j : Fin 3) : ℝ := [c / 4, c / 2, c].get j

noncomputable def edgeY (c : ℝ) (i : Fin 4) : ℝ := [pertUnit, 0, c / 2, c].get i

/-- The cell that is drawn. -/
noncomputable def edgeCell (c : ℝ) : VCell where
  ny := 4
  nx := 3
  hy := ⟨by norm_num⟩
  hx := ⟨by norm_num⟩
  val := fun i j => paintSlice (paintSlice (fun _ _ => 1 - Complex.I) 0 3 1 2 (1 - Complex.I)) 1 4 0 3 (2 - 2 * Complex.I) i j
  x := edgeX c
  y := edgeY c

theorem edge_cells {c : ℝ} (hc : 0 < c) (h1 : c ≠ pertUnit) (h3 : c / 2 ≠ pertUnit) :
    modeling_vector_instruction (c, c) [⟨edgeLayer.base, edgeLayer.instrs.map (Spec.scaleInstr c)⟩] = .ok [edgeCell c] := by
  have e1 : c * (1 / 4) - c * (1 / 2) / 2 = 0 := by ring
  have e2 : c * (3 / 8) - c * (1 / 4) / 2 = c / 4 := by ring
  have e3 : c * (1 / 4) + c * (1 / 2) / 2 = c / 2 := by ring
  have e4 : c * (3 / 8) + c * (1 / 4) / 2 = c / 2 := by ring
  have e5 : c * (1 / 2) - c * 1 / 2 = 0 := by ring
  have e6 : c * (1 / 2) + c * 1 / 2 = c := by ring
  have ho : (⟨edgeLayer.base, edgeLayer.instrs.map (Spec.scaleInstr c)⟩ : VLayer).objs
      = .ok [⟨0, c / 4, c / 2, c / 2, 1 - Complex.I⟩, ⟨0, 0, c, c, 2 - 2 * Complex.I⟩] := by
    simp only [VLayer.objs, edgeLayer, List.map_cons, List.map_nil, Spec.scaleInstr, List.mapM_cons, List.mapM_nil, VInstr.run,
      rectangle_angle_zero, rectNoApprox, bind, Except.bind, pure, Except.pure, e1, e2, e3, e4, e5, e6]
    rfl
  have hd : drawLayer (c, c) (1 - Complex.I) [⟨0, c / 4, c / 2, c / 2, 1 - Complex.I⟩, ⟨0, 0, c, c, 2 - 2 * Complex.I⟩]
      = .ok (edgeCell c) := by
    unfold drawLayer
    rw [drawn_edge hc h1 h3]
    rfl
  unfold modeling_vector_instruction
  simp only [List.mapM_cons, List.mapM_nil, ho, bind, Except.bind, pure, Except.pure]
  rw [show edgeLayer.base = 1 - Complex.I from rfl, hd]

/-- The permittivities of the rows of the drawn cell. -/
noncomputable def edgeRow (y : Fin 4) : ℂ := if y = 0 then -2 * Complex.I else -8 * Complex.I

theorem edge_row (c : ℝ) (x : Fin 3) (y : Fin 4) : (edgeCell c).val y x ^ 2 = edgeRow y := by
  have a : (1 - Complex.I) ^ 2 = -2 * Complex.I := by ring_nf; simp; ring
  have b : (2 - 2 * Complex.I) ^ 2 = -8 * Complex.I := by ring_nf; simp; ring
  unfold edgeRow edgeCell paintSlice
  fin_cases x <;> fin_cases y <;> simp [a, b]

theorem edge_mean {c : ℝ} (hc : 0 < c) (v w : ℂ) :
    cfsC (edgeY c) c (fun y : Fin 4 => if y = 0 then v else w) 0 = w + (v - w) * (pertUnit / c : ℝ) := by
  have hc' : (c : ℂ) ≠ 0 := by exact_mod_cast hc.ne'
  unfold cfsC
  rw [if_pos rfl]
  simp [Fin.sum_univ_four, edgeY]
  field_simp
  ring

theorem edge_convMats {la : LinAlg} {c : ℝ} (hc : 0 < c) (h1 : c ≠ pertUnit) (h3 : c / 2 ≠ pertUnit)
    (cs : List (Conv (FlatIdx 0 0))) :
    convMats la (Spec.scaled c edgeSettings) = .ok cs ↔ ∃ k epz, cs = [k] ∧
      FromCell (fx := 0) (fy := 0) (cfsC (edgeX c) c) (cfsC (edgeY c) c) (fun _ y => edgeRow y) k epz := by
  have hm : modeling_vector_instruction (Spec.scaled c edgeSettings).p.period
      [⟨edgeLayer.base, edgeLayer.instrs.map (Spec.scaleInstr c)⟩] = .ok [edgeCell c] := by
    simp only [edgeSettings, exParams, mul_one]
    exact edge_cells hc h1 h3
  unfold convMats
  show (do
    let cells ← modeling_vector_instruction (Spec.scaled c edgeSettings).p.period
      [⟨edgeLayer.base, edgeLayer.instrs.map (Spec.scaleInstr c)⟩]
    to_conv_mat_vector la cells 0 0 false) = .ok cs ↔ _
  rw [hm]
  simp only [bind, Except.bind, to_conv_mat_vector, List.mapM_cons, List.mapM_nil, pure, Except.pure]
  have key : ∀ k, convContinuous la (edgeCell c) 0 0 false = .ok k ↔ ∃ epz,
      FromCell (fx := 0) (fy := 0) (cfsC (edgeX c) c) (cfsC (edgeY c) c) (fun _ y => edgeRow y) k epz := by
    intro k
    rw [convContinuous_fromCell]
    have : (fun (x : Fin (edgeCell c).nx) (y : Fin (edgeCell c).ny) => (edgeCell c).val y x ^ 2) = fun _ y => edgeRow y := by
      funext x y
      exact edge_row c x y
    rw [this]
    rfl
  cases hk : convContinuous la (edgeCell c) 0 0 false with
  | error e =>
    simp only [reduceCtorEq, false_iff]
    rintro ⟨k, epz, -, h⟩
    rw [(key k).mpr ⟨epz, h⟩] at hk
    cases hk
  | ok k =>
    simp only [Except.ok.injEq]
    constructor
    · rintro rfl
      obtain ⟨epz, h⟩ := (key k).mp hk
      exact ⟨k, epz, rfl, h⟩
    · rintro ⟨k', epz, rfl, h⟩
      have := (key k').mpr ⟨epz, h⟩
      rw [hk] at this
      cases this
      rfl

theorem side_smul_one {n : Type} [Fintype n] [DecidableEq n] {u a : ℂ} (h : 0 < (u * a).re) : Side u (a • (1 : Matrix n n ℂ)) := by
  intro v hv
  have hb : beta (a • (1 : Matrix n n ℂ)) v v = a * ((∑ i, Complex.normSq (v i) : ℝ) : ℂ) := by
    simp only [beta, smul_mulVec, one_mulVec, dotProduct_smul, smul_eq_mul]
    congr 1
    simp only [dotProduct, Pi.star_apply, Complex.star_def]
    push_cast
    exact Finset.sum_congr rfl fun i _ => (Complex.normSq_eq_conj_mul_self).symm
  rw [hb, ← mul_assoc, Complex.re_mul_ofReal]
  refine mul_pos h ?_
  obtain ⟨i, hi⟩ := Function.ne_iff.mp hv
  exact Finset.sum_pos' (fun _ _ => Complex.normSq_nonneg _) ⟨i, Finset.mem_univ _, Complex.normSq_pos.mpr hi⟩

theorem edge_unitFun {c : ℝ} (hc : 0 < c) : UnitFun (cfsC (edgeX c) c) 0 := by
  have : (edgeX c) (-1) = c := rfl
  have h := unitFun_cfsC (x := edgeX c) (f := 0) (by rw [this]; exact hc.ne')
  rwa [this] at h

theorem edgeRow_inv : (fun y => 1 / edgeRow y) = fun y : Fin 4 => if y = 0 then 1 / (-2 * Complex.I) else 1 / (-8 * Complex.I) := by
  funext y
  unfold edgeRow
  split <;> rfl

theorem edge_one : Spec.scaled 1 edgeSettings = edgeSettings := by
  simp [Spec.scaled, edgeSettings, exParams, Spec.scaleStructure, edgeLayer, Spec.scaleInstr]

private theorem diag_modes' {n : Type} [Fintype n] [DecidableEq n] (d : n → ℂ) : Spec.Diagonalisable (diagonal d) :=
  ⟨1, d, by simp, by simp⟩

/-- At the drawn size the layer absorbs and the problem is solved. -/
theorem edge_solves {la : LinAlg} (hb : Spec.ReturnsBasis la) : ∃ sol, conv_solve la edgeSettings = .ok sol := by
  suffices ∃ sol, conv_solve la (Spec.scaled 1 edgeSettings) = .ok sol by rwa [edge_one] at this
  have hu : 0 < pertUnit := by unfold pertUnit; positivity
  have hu1 : pertUnit < 1 / 2 := by unfold pertUnit; norm_num
  have hm : cfsC (edgeY 1) 1 edgeRow 0 = -Complex.I * ((8 - 6 * pertUnit : ℝ) : ℂ) := by
    have := edge_mean one_pos (-2 * Complex.I) (-8 * Complex.I)
    unfold edgeRow
    rw [this]
    push_cast
    ring
  have hh : cfsC (edgeY 1) 1 (fun y => 1 / edgeRow y) 0 = Complex.I * ((1 / 8 + 3 / 8 * pertUnit : ℝ) : ℂ) := by
    rw [edgeRow_inv, edge_mean one_pos]
    push_cast
    field_simp
    ring_nf
    simp [Complex.I_sq]
    ring
  have p1 : 0 < 8 - 6 * pertUnit := by linarith
  have p2 : 0 < 1 / 8 + 3 / 8 * pertUnit := by linarith
  have n1 : ((8 - 6 * pertUnit : ℝ) : ℂ) ≠ 0 := by exact_mod_cast p1.ne'
  have n2 : ((1 / 8 + 3 / 8 * pertUnit : ℝ) : ℂ) ≠ 0 := by exact_mod_cast p2.ne'
  have hne : ∀ y, edgeRow y ≠ 0 := by
    intro y
    unfold edgeRow
    split <;> simp
  have hf := fromCell_xconst (Ly := cfsC (edgeY 1) 1) (edge_unitFun one_pos) hne (by rw [hm]; simpa using n1) (by rw [hh]; simpa using n2)
  rw [hm, hh] at hf
  have hcs := (edge_convMats (la := la) one_pos (by linarith) (by linarith) _).mpr ⟨_, _, rfl, hf⟩
  have hg : gratingType (Spec.scaled 1 edgeSettings) = 2 := rfl
  have hP : (Spec.scaled 1 edgeSettings).p = exParams 0 (some 0) := by rw [edge_one]; rfl
  have hw : (Spec.scaled 1 edgeSettings).p.wavelength = 1 := by rw [hP]; rfl
  have hI : Spec.RealIllumination (Spec.scaled 1 edgeSettings).p := by
    rw [hP]
    exact (exSettings_lossless 0 (some 0) (by intro φ h; cases h; rfl)).toRealIllumination
  obtain ⟨ph, hph⟩ := phi_real hI
  have hx : kxF (Spec.scaled 1 edgeSettings).p (Spec.scaled 1 edgeSettings).p.wavelength = fun _ => 1 / 2 := by
    rw [hw, hP]; exact exKxF 0
  have hy : kyF (Spec.scaled 1 edgeSettings).p (Spec.scaled 1 edgeSettings).p.wavelength = fun _ => 0 := by
    rw [hw, hP]; exact exKyF 0
  obtain ⟨o, ho⟩ := solve_2d_absorbing (la := la) (p := (Spec.scaled 1 edgeSettings).p) (wl := (Spec.scaled 1 edgeSettings).p.wavelength)
    (nb := 1) rfl hph (RealIncidence.of_spec hI)
    (by simp [edgeSettings, exParams]) (by rw [hw]; exact one_pos)
    (by intro d hd; obtain rfl : d = 1 / 3 := by simpa [edgeSettings, exParams] using hd
        norm_num) (by simp [edgeSettings, exParams]) (by simp [edgeSettings, exParams])
    (varphiAll_exists (by
      rintro ⟨i, h, -⟩
      rw [hx] at h
      norm_num at h))
    (convs := [⟨(-Complex.I * ((8 - 6 * pertUnit : ℝ) : ℂ)) • 1, (Complex.I * ((1 / 8 + 3 / 8 * pertUnit : ℝ) : ℂ))⁻¹ • 1,
      (-Complex.I * ((8 - 6 * pertUnit : ℝ) : ℂ))⁻¹ • 1⟩])
    (by
      intro c hc
      obtain rfl := List.mem_singleton.mp hc
      refine ⟨side_smul_one ?_, side_smul_one ?_, side_smul_one ?_⟩
      · rw [show Complex.I * (-Complex.I * ((8 - 6 * pertUnit : ℝ) : ℂ)) = ((8 - 6 * pertUnit : ℝ) : ℂ) by
          linear_combination -((8 - 6 * pertUnit : ℝ) : ℂ) * Complex.I_mul_I]
        exact p1
      · rw [mul_inv, ← mul_assoc, mul_inv_cancel₀ Complex.I_ne_zero, one_mul, ← Complex.ofReal_inv]
        exact inv_pos.mpr p2
      · rw [Complex.star_def, Complex.conj_I, mul_inv, ← mul_assoc, mul_inv_cancel₀ (neg_ne_zero.mpr Complex.I_ne_zero), one_mul,
          ← Complex.ofReal_inv]
        exact inv_pos.mpr p1)
    (by
      intro x hx'
      rw [eig_unit_iff hb, omega_spec]
      have e2 : x.1 = _ := List.mem_singleton.mp (List.of_mem_zip hx').1
      rw [hy, e2]
      simp only [smul_one_eq_diagonal]
      simp only [← diagonal_one, diagonal_mul_diagonal, diagonal_sub, diagonal_add]
      simp only [zero_mul, mul_zero, diagonal_zero, sub_zero, zero_sub, Matrix.mul_zero, Matrix.zero_mul]
      rw [fromBlocks_diagonal]
      exact diag_modes' _)
  exact ⟨_, conv_solve_twoD.mpr ⟨_, hcs, hg, rfl, ho⟩⟩

/-- At another size the mean of the permittivity is zero. -/
theorem edge_fails (la : LinAlg) (sol) : conv_solve la (Spec.scaled (3 / 4 * pertUnit) edgeSettings) ≠ .ok sol := by
  intro h
  have hu : 0 < pertUnit := by unfold pertUnit; positivity
  have hc : 0 < 3 / 4 * pertUnit := by positivity
  unfold conv_solve at h
  obtain ⟨cs, hcs, -⟩ := Except.bind_ok.mp h
  obtain ⟨k, epz, -, hk⟩ := (edge_convMats hc (by intro h; linarith) (by intro h; linarith) cs).mp hcs
  refine fromCell_xconst_mean (edge_unitFun hc) hk ?_
  unfold edgeRow
  rw [edge_mean hc]
  have : pertUnit / (3 / 4 * pertUnit) = 4 / 3 := by field_simp
  rw [this]
  push_cast
  ring

end Meent
