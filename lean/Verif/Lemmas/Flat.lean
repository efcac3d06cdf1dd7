import Verif.Lemmas.Gauge
import Verif.Lemmas.Orders
import Verif.Props.C18
import Verif.Spec.Rows

/-!
# Flat stacks (helper lemmas)
-/

open Matrix

namespace Meent

set_option linter.unusedSectionVars false
set_option linter.unusedSimpArgs false

/-- All three matrices are multiples of the identity. -/
def ScalarConv {n : Type} [Fintype n] [DecidableEq n] (c : Conv n) : Prop :=
  ∃ a b e : ℂ, c = ⟨a • 1, b • 1, e • 1⟩

theorem ScalarConv.gauge {n : Type} [Fintype n] [DecidableEq n] {c : Conv n} (h : ScalarConv c) {D : n → ℂ}
    (hD : ∀ i, D i ≠ 0) : c.gauge D = c := by
  obtain ⟨a, b, e, rfl⟩ := h
  simp only [Conv.gauge, gConj_smul_one hD]

theorem rowIdx_inj {fx fy : ℕ} : Function.Injective (rowIdx (fx := fx) (fy := fy)) := by
  intro i j h
  have := finProdFinEquiv.injective h
  exact (Prod.mk.injEq _ _ _ _ ▸ this).2

theorem ScalarConv.row {fx fy : ℕ} {c : Conv (FlatIdx fx fy)} (h : ScalarConv c) : ScalarConv c.row := by
  obtain ⟨a, b, e, rfl⟩ := h
  have hs : ∀ a : ℂ, (a • (1 : Matrix (FlatIdx fx fy) (FlatIdx fx fy) ℂ)).submatrix rowIdx rowIdx = a • 1 := by
    intro a
    rw [Matrix.submatrix_smul]
    simp only [Pi.smul_apply, submatrix_one _ rowIdx_inj]
  exact ⟨a, b, e, by simp only [Conv.row, hs]⟩

theorem convMats_flat {la : LinAlg} {s : Settings} (hf : Spec.FlatStructure s.ucell) (hx : s.p.period.1 ≠ 0)
    (hy : s.p.period.2 ≠ 0) {cs : List (Conv (FlatIdx s.p.fto.1 s.p.fto.2))} (hc : convMats la s = .ok cs) :
    ∀ c ∈ cs, ScalarConv c := by
  cases hu : s.ucell with
  | raster u =>
    obtain ⟨ny, nx, ls⟩ := u
    rw [hu] at hf
    obtain ⟨h1, h2, h3⟩ := hf
    obtain ⟨-, hm⟩ := (convMats_raster hu).mp hc
    intro c hcm
    obtain ⟨l, hl, hl'⟩ := mapM_mem hm hcm
    obtain ⟨l0, hl0, rfl⟩ := List.mem_map.mp hl
    obtain ⟨n, hn, e⟩ := h3 l0 hl0
    obtain rfl : l0 = fun _ _ => n := funext fun i => funext fun j => e i j
    refine ⟨n ^ 2, n ^ 2, (n ^ 2)⁻¹, ?_⟩
    unfold rasterConv at hl'
    split at hl'
    · rw [convDiscrete_const la h1 h2 _ _ _ _ hn] at hl'
      exact (Except.ok.inj hl').symm
    · have := C18_homogeneous_continuous la ny nx h1 h2 [n] (by simpa using hn) s.p.fto.1 s.p.fto.2 s.p.use_pinv
      unfold to_conv_mat_raster_continuous at this
      rw [mapM_ok] at this
      simp only [Ucell.rasters, Spec.homogeneousRaster, List.map_cons, List.map_nil] at this
      cases this with
      | cons h _ =>
        rw [hl'] at h
        exact Except.ok.inj h
  | vector ls =>
    rw [hu] at hf
    have hm := (convMats_vector hu).mp hc
    intro c hcm
    obtain ⟨l, hl, hl'⟩ := mapM_mem hm hcm
    obtain ⟨n, hn, e⟩ := hf l hl
    refine ⟨n ^ 2, n ^ 2, (n ^ 2)⁻¹, ?_⟩
    unfold vecConv at hl'
    simp only [Except.bind_ok] at hl'
    obtain ⟨o, ho, cell, hcell, hcc⟩ := hl'
    have hmv : modeling_vector_instruction s.p.period [l] = .ok [cell] := by
      unfold modeling_vector_instruction
      simp only [Except.bind_ok, mapM_ok]
      refine ⟨[(l.base, o)], .cons ?_ .nil, .cons hcell .nil⟩
      exact ⟨o, ho, rfl⟩
    have h := C18_homogeneous_vector la s.p.period hx hy [n] (by simpa using hn) [l] (.cons e .nil)
      s.p.fto.1 s.p.fto.2 s.p.use_pinv [cell] hmv
    unfold to_conv_mat_vector at h
    rw [mapM_ok] at h
    cases h with
    | cons h _ =>
      rw [hcc] at h
      exact Except.ok.inj h

/-! ### Gauge transformations of a whole solve -/

/-- Entrywise relation between two result objects. -/
def Result.Scaled {fx fy : ℕ} (D : FlatIdx fx fy → ℂ) (r r' : Result fx fy) : Prop :=
  Option.Rel (SubRes.Scaled fun j i => D (finProdFinEquiv (j, i))) r.res r'.res ∧
  Option.Rel (SubRes.Scaled fun j i => D (finProdFinEquiv (j, i))) r.res_te_inc r'.res_te_inc ∧
  Option.Rel (SubRes.Scaled fun j i => D (finProdFinEquiv (j, i))) r.res_tm_inc r'.res_tm_inc

theorem Conv.gauge_row {fx fy : ℕ} (D : FlatIdx fx fy → ℂ) (c : Conv (FlatIdx fx fy)) :
    (c.gauge D).row = c.row.gauge (D ∘ rowIdx) := by
  have h : ∀ A : Matrix (FlatIdx fx fy) (FlatIdx fx fy) ℂ,
      (gConj D A).submatrix rowIdx rowIdx = gConj (D ∘ rowIdx) (A.submatrix rowIdx rowIdx) := by
    intro A
    ext i j
    simp only [gConj_apply, submatrix_apply, Function.comp]
  simp only [Conv.gauge, Conv.row, h]

theorem deltaI0_rowIdx {fx fy : ℕ} (h : fy = 0) (i : Fin (2 * fx + 1)) :
    deltaI0 (rowIdx i : FlatIdx fx fy) = deltaI0 i := by
  subst h
  have e : (rowIdx i : FlatIdx fx 0).val = i.val := by simp [rowIdx]
  unfold deltaI0
  rw [e]
  congr 1
  simp

/-- The gauge matrices of another structure give the scaled amplitudes. -/
theorem conv_solve_gauge {la : LinAlg} {s : Settings} (hp : s.p.use_pinv = false) {u' : Structure}
    {D : FlatIdx s.p.fto.1 s.p.fto.2 → ℂ} (hD : ∀ i, D i ≠ 0) (h0 : ∀ i, D i * deltaI0 i = deltaI0 i)
    (hg : gratingType (Spec.withUcell s u') = gratingType s)
    (hc : ∀ cs, convMats la s = .ok cs → convMats la (Spec.withUcell s u') = .ok (cs.map (Conv.gauge D)))
    {sol : Solved s.p.fto.1 s.p.fto.2} (h : conv_solve la s = .ok sol) :
    ∃ la' sol', conv_solve la' (Spec.withUcell s u') = .ok sol' ∧ Result.Scaled D sol.result sol'.result := by
  have hcl : ∀ la' cs, convMats la s = .ok cs → convMats la' (Spec.withUcell s u') = .ok (cs.map (Conv.gauge D)) := by
    intro la' cs h
    rw [convMats_la la' la (s := Spec.withUcell s u') hp]
    exact hc cs h
  cases sol with
  | tetm o =>
    obtain ⟨cs, h1, h2, h3, h4⟩ := conv_solve_tetm.mp h
    obtain ⟨-, -, -, -, -, hfy⟩ := gratingType_zero h2
    obtain ⟨o', ho, hS⟩ := solve_1d_gauge (D := D ∘ rowIdx) hp (fun i => hD _)
      (fun i => by rw [← deltaI0_rowIdx hfy i]; exact h0 _) h4
    refine ⟨gLA la (Fin (2 * s.p.fto.1 + 1)) (D ∘ rowIdx) (fun i => hD _), .tetm o', conv_solve_tetm.mpr ⟨_, hcl _ cs h1, hg.trans h2, h3, ?_⟩, ?_⟩
    · rw [List.map_map]
      rw [List.map_map] at ho
      rw [show (Conv.row ∘ Conv.gauge D) = Conv.gauge (D ∘ rowIdx) ∘ Conv.row from
        funext fun c => Conv.gauge_row D c]
      exact ho
    · have hj : ∀ (j : Fin (2 * s.p.fto.2 + 1)) (i : Fin (2 * s.p.fto.1 + 1)),
          D (finProdFinEquiv (j, i)) = D (rowIdx i) := by
        intro j i
        have : j = 0 := by
          apply Fin.ext
          have := j.isLt
          simp only [Fin.val_zero]
          omega
        rw [this]; rfl
      refine ⟨.some ⟨?_, ?_, ?_, ?_⟩, .none, .none⟩
      · intro j i; rw [hj]; exact hS.R_s 0 i
      · intro j i; rw [hj]; exact hS.R_p 0 i
      · intro j i; rw [hj]; exact hS.T_s 0 i
      · intro j i; rw [hj]; exact hS.T_p 0 i
  | conical o =>
    obtain ⟨cs, h1, h2, h3, h4⟩ := conv_solve_conical.mp h
    obtain ⟨o', ho, hS1, hS2, hS3⟩ := solve_con_gauge (D := D) hp hD h0 h4
    exact ⟨_, .conical o', conv_solve_conical.mpr ⟨_, hcl _ cs h1, hg.trans h2, h3, ho⟩, .some hS1, .some hS2, .some hS3⟩
  | conicalSmm =>
    obtain ⟨cs, h1, h2⟩ := conv_solve_ok.mp h
    rw [solve_for_conv_smm] at h2
    exact ⟨la, .conicalSmm, conv_solve_ok.mpr ⟨_, hc cs h1, solve_for_conv_smm.mpr ⟨hg.trans h2.1, h2.2⟩⟩,
      .none, .none, .none⟩
  | twoD o =>
    obtain ⟨cs, h1, h2, h3, h4⟩ := conv_solve_twoD.mp h
    obtain ⟨o', ho, hS1, hS2, hS3⟩ := solve_2d_gauge (D := D) hp hD h0 h4
    exact ⟨_, .twoD o', conv_solve_twoD.mpr ⟨_, hcl _ cs h1, hg.trans h2, h3, ho⟩, .some hS1, .some hS2, .some hS3⟩

theorem Result.Scaled.reports {fx fy : ℕ} {D : FlatIdx fx fy → ℂ} {r r' : Result fx fy} (h : r.Scaled D r')
    {x} (hx : Spec.Reports r x) :
    ∃ x', Spec.Reports r' x' ∧ x.Scaled (fun j i => D (finProdFinEquiv (j, i))) x' := by
  obtain ⟨h1, h2, h3⟩ := h
  rcases hx with e | e | e
  · rw [e] at h1; generalize hr : r'.res = y at h1; cases h1 with
    | some h1 => exact ⟨_, .inl hr, h1⟩
  · rw [e] at h2; generalize hr : r'.res_te_inc = y at h2; cases h2 with
    | some h2 => exact ⟨_, .inr (.inl hr), h2⟩
  · rw [e] at h3; generalize hr : r'.res_tm_inc = y at h3; cases h3 with
    | some h3 => exact ⟨_, .inr (.inr hr), h3⟩

theorem Option.Rel.some_some {α β : Type} {R : α → β → Prop} {a b} (h : Option.Rel R (some a) (some b)) : R a b := by
  cases h; assumption

/-- Amplitudes of a flat stack vanish away from the specular order. -/
theorem flat_zero {la : LinAlg} {s : Settings} (hp : s.p.use_pinv = false)
    (hc : ∀ cs, convMats la s = .ok cs → ∀ c ∈ cs, ScalarConv c)
    {sol : Solved s.p.fto.1 s.p.fto.2} (h : conv_solve la s = .ok sol) {x} (hx : Spec.Reports sol.result x)
    {j i} (hji : deltaI0 (finProdFinEquiv (j, i) : FlatIdx s.p.fto.1 s.p.fto.2) = 0) :
    x.R_s j i = 0 ∧ x.R_p j i = 0 ∧ x.T_s j i = 0 ∧ x.T_p j i = 0 := by
  have hD : ∀ k : FlatIdx s.p.fto.1 s.p.fto.2, (2 - deltaI0 k : ℂ) ≠ 0 := by
    intro k; unfold deltaI0; split <;> norm_num
  have h0 : ∀ k : FlatIdx s.p.fto.1 s.p.fto.2, (2 - deltaI0 k : ℂ) * deltaI0 k = deltaI0 k := by
    intro k; unfold deltaI0; split <;> norm_num
  obtain ⟨la', sol', h', hS⟩ := conv_solve_gauge (u' := s.ucell) hp hD h0 rfl (fun cs hcs => by
    have : cs.map (Conv.gauge fun k => 2 - deltaI0 k) = cs := by
      conv_rhs => rw [← List.map_id cs]
      exact List.map_congr_left fun c hcm => (hc cs hcs c hcm).gauge hD
    rw [this]; exact hcs) h
  have he : sol'.result = sol.result := conv_solve_agree hp h h'
  rw [he] at hS
  obtain ⟨h1, h2, h3⟩ := hS
  have key : x.Scaled (fun j i => (2 - deltaI0 (finProdFinEquiv (j, i) : FlatIdx s.p.fto.1 s.p.fto.2) : ℂ)) x := by
    rcases hx with e | e | e
    · rw [e] at h1; exact Option.Rel.some_some h1
    · rw [e] at h2; exact Option.Rel.some_some h2
    · rw [e] at h3; exact Option.Rel.some_some h3
  have hz : ∀ z : ℂ, z = (2 - 0) * z → z = 0 := fun z hz => by linear_combination -hz
  have k1 := key.R_s j i; have k2 := key.R_p j i; have k3 := key.T_s j i; have k4 := key.T_p j i
  simp only [hji] at k1 k2 k3 k4
  exact ⟨hz _ k1, hz _ k2, hz _ k3, hz _ k4⟩

end Meent
