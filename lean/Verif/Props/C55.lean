import Verif.Lemmas.Side
import Verif.Lemmas.Dispatch
import Verif.Lemmas.PassiveExample
import Verif.Lemmas.Mirror
import Verif.Lemmas.Compress
import Verif.Lemmas.VectorOne
import Verif.Spec.Sides

/-!
# C55: the convolution matrices of ordinary media exist
-/

open Matrix

namespace Meent

/-- **C55, rasters.** If the permittivities of each layer lie strictly on one side of a line through the origin, every
convolution matrix the solve needs can be inverted: one triple of matrices per layer comes back, for both Fourier
types, any resolution and any truncation orders. -/
theorem C55_one_sided (la : LinAlg) (s : Settings) (u : Ucell) (hu : s.ucell = .raster u) (hy : 0 < u.ny) (hx : 0 < u.nx)
    (hf : s.fourier_type = 0 ∨ s.fourier_type = 1) (hp : s.p.use_pinv = false)
    (h : ∀ l ∈ u.layers, Spec.OneSided (Spec.Pixels l)) :
    ∃ cs, convMats la s = .ok cs ∧ cs.length = u.layers.length := by
  obtain ⟨cs, h1, -, h3⟩ := convMats_side (la := la) hp hf hu hy hx (fun _ => True) (fun l hl => by
    obtain ⟨w, hw⟩ := h l hl
    exact ⟨w, trivial, fun i j => hw _ ⟨i, j, rfl⟩⟩)
  exact ⟨cs, h1, h3⟩

/-- **C55, vector structures.** The same for every vector structure that can be drawn. -/
theorem C55_one_sided_vector (la : LinAlg) (s : Settings) (ls : List VLayer) (hu : s.ucell = .vector ls) (hp : s.p.use_pinv = false)
    (hpx : 0 < s.p.period.1) (hpy : 0 < s.p.period.2) (hg : Spec.GoodGeometry s.p.period ls)
    (cells : List VCell) (hc : modeling_vector_instruction s.p.period ls = .ok cells)
    (h : ∀ l ∈ ls, Spec.OneSided (Spec.Media l)) :
    ∃ cs, convMats la s = .ok cs ∧ cs.length = cells.length := by
  obtain ⟨cs, h1, -, h3⟩ := convMats_side_vector (la := la) hp hu hc hpx hpy (fun _ => True) (fun l hl => by
    obtain ⟨w, hw⟩ := h l hl
    refine ⟨⟨w, trivial, hw _ (Or.inl rfl), ?_⟩, hg l hl⟩
    intro v hv
    cases v with
    | rectangle cx cy lx ly n angle nt np => exact hw n (Or.inr ⟨cx, cy, lx, ly, angle, nt, np, .inl hv⟩)
    | ellipse cx cy lx ly n angle nt np => exact hw n (Or.inr ⟨cx, cy, lx, ly, angle, nt, np, .inr hv⟩)
    | unknown => trivial)
  exact ⟨cs, h1, h3⟩

private theorem ordinary_aux (l : List ℂ) (h : ∀ n ∈ l, Spec.OrdinaryMedium n) :
    ∃ δ : ℝ, 0 < δ ∧ ∀ e : ℝ, 0 < e → e ≤ δ → ∀ n ∈ l, 0 < ((Complex.I + e) * n ^ 2).re := by
  induction l with
  | nil => exact ⟨1, one_pos, by simp⟩
  | cons n l ih =>
    obtain ⟨δ, hδ, hd⟩ := ih fun m hm => h m (List.mem_cons_of_mem _ hm)
    obtain ⟨ha, hb⟩ := h n List.mem_cons_self
    have e0 : ∀ e : ℝ, ((Complex.I + e) * n ^ 2).re = -(2 * n.re * n.im) + e * (n.re ^ 2 - n.im ^ 2) := by
      intro e
      simp [pow_two]
      ring
    rcases hb.lt_or_eq with hb | hb
    · have hp : 0 < -(2 * n.re * n.im) := by nlinarith
      refine ⟨min δ (-(2 * n.re * n.im) / (1 + n.im ^ 2)), lt_min hδ (by positivity), fun e he h1 m hm => ?_⟩
      rcases List.mem_cons.mp hm with rfl | hm
      · rw [e0]
        have h2 := (le_div_iff₀ (by positivity : (0 : ℝ) < 1 + m.im ^ 2)).mp (h1.trans (min_le_right _ _))
        nlinarith [mul_pos he (pow_pos ha 2)]
      · exact hd e he (h1.trans (min_le_left _ _)) m hm
    · refine ⟨δ, hδ, fun e he h1 m hm => ?_⟩
      rcases List.mem_cons.mp hm with rfl | hm
      · rw [e0, hb]
        have := mul_pos he (pow_pos ha 2)
        nlinarith
      · exact hd e he h1 m hm

private theorem ordinary_oneSided (l : List ℂ) (P : ℂ → Prop) (hP : ∀ n, P n → n ∈ l) (h : ∀ n ∈ l, Spec.OrdinaryMedium n) :
    Spec.OneSided P := by
  obtain ⟨δ, hδ, hd⟩ := ordinary_aux l h
  exact ⟨Complex.I + δ, fun n hn => hd δ hδ le_rfl n (hP n hn)⟩

/-- **C55.** Structures made of transparent and absorbing media, `n > 0` and `k ≥ 0`, in any mixture: the convolution matrices
always exist. -/
theorem C55_ordinary (la : LinAlg) (s : Settings) (u : Ucell) (hu : s.ucell = .raster u) (hy : 0 < u.ny) (hx : 0 < u.nx)
    (hf : s.fourier_type = 0 ∨ s.fourier_type = 1) (hp : s.p.use_pinv = false)
    (h : ∀ l ∈ u.layers, ∀ i j, Spec.OrdinaryMedium (l i j)) :
    ∃ cs, convMats la s = .ok cs ∧ cs.length = u.layers.length := by
  refine C55_one_sided la s u hu hy hx hf hp fun l hl =>
    ordinary_oneSided ((Finset.univ : Finset (Fin u.ny × Fin u.nx)).toList.map fun p => l p.1 p.2) _ ?_ ?_
  · rintro n ⟨i, j, rfl⟩
    exact List.mem_map.mpr ⟨(i, j), by simp, rfl⟩
  · intro n hn
    obtain ⟨p, -, rfl⟩ := List.mem_map.mp hn
    exact h l hl _ _

/-- **C55, vector structures** of transparent and absorbing media. -/
theorem C55_ordinary_vector (la : LinAlg) (s : Settings) (ls : List VLayer) (hu : s.ucell = .vector ls)
    (hp : s.p.use_pinv = false) (hpx : 0 < s.p.period.1) (hpy : 0 < s.p.period.2) (hg : Spec.GoodGeometry s.p.period ls)
    (cells : List VCell) (hc : modeling_vector_instruction s.p.period ls = .ok cells)
    (h : ∀ l ∈ ls, ∀ n, Spec.Media l n → Spec.OrdinaryMedium n) :
    ∃ cs, convMats la s = .ok cs ∧ cs.length = cells.length := by
  refine C55_one_sided_vector la s ls hu hp hpx hpy hg cells hc fun l hl =>
    ordinary_oneSided (l.base :: l.instrs.map fun v => match v with
      | .rectangle _ _ _ _ n _ _ _ => n
      | .ellipse _ _ _ _ n _ _ _ => n
      | .unknown => l.base) _ ?_ ?_
  · rintro n (rfl | ⟨cx, cy, lx, ly, angle, nt, np, hv | hv⟩)
    · exact List.mem_cons_self
    · exact List.mem_cons_of_mem _ (List.mem_map.mpr ⟨_, hv, rfl⟩)
    · exact List.mem_cons_of_mem _ (List.mem_map.mpr ⟨_, hv, rfl⟩)
  · intro n hn
    rcases List.mem_cons.mp hn with rfl | hn
    · exact h l hl _ (Or.inl rfl)
    · obtain ⟨v, hv, rfl⟩ := List.mem_map.mp hn
      cases v with
      | rectangle cx cy lx ly n angle nt np => exact h l hl _ (Or.inr ⟨cx, cy, lx, ly, angle, nt, np, .inl hv⟩)
      | ellipse cx cy lx ly n angle nt np => exact h l hl _ (Or.inr ⟨cx, cy, lx, ly, angle, nt, np, .inr hv⟩)
      | unknown => exact h l hl _ (Or.inl rfl)

/-- So such a solve can only fail after the convolution matrices have been computed. -/
theorem C55_failure (la : LinAlg) (s : Settings) (u : Ucell) (hu : s.ucell = .raster u) (hy : 0 < u.ny) (hx : 0 < u.nx)
    (hf : s.fourier_type = 0 ∨ s.fourier_type = 1) (hp : s.p.use_pinv = false)
    (h : ∀ l ∈ u.layers, ∀ i j, Spec.OrdinaryMedium (l i j)) :
    ∃ cs, cs.length = u.layers.length ∧ conv_solve la s = solve_for_conv la s s.p.wavelength cs := by
  obtain ⟨cs, h1, h2⟩ := C55_ordinary la s u hu hy hx hf hp h
  exact ⟨cs, h2, by unfold conv_solve; rw [h1]; rfl⟩

/-- Two pixels: vacuum (permittivity 1) and an ideal metal of permittivity -1. -/
def plasmonCell : Ucell := ⟨1, 2, [fun _ j => if j = 0 then 1 else -Complex.I]⟩

/-- The example settings with this grating. -/
noncomputable def plasmonSettings (pol : ℝ) (phi : Option ℂ) : Settings where
  p := exParams pol phi
  ucell := .raster plasmonCell
  fourier_type := 1
  enhanced_dfs := false
  algo := .tmm

private theorem plasmon_conv (la : LinAlg) :
    to_conv_mat_raster_continuous la plasmonCell 0 0 false = .error .linAlgError := by
  have hne : ∀ (x : Fin 2) (y : Fin 1), (if x = 0 then (1 : ℂ) else -Complex.I) ^ 2 ≠ 0 := by
    intro x y
    split <;> simp
  have p0 : ∀ (N : ℕ) [NeZero N] (a : Fin N → ℂ), pixL N a 0 = (∑ y, a y) / N := by
    intro N _ a
    rw [pixL_eq, dftCoeff_zero]
    simp [pixKappa]
  have hc : convRasterContinuous la ⟨1, 2, fun _ j => if j = 0 then 1 else -Complex.I⟩ 0 0 false = .error .linAlgError := by
    haveI : NeZero (Raster.mk 1 2 fun _ j => if j = 0 then (1 : ℂ) else -Complex.I).ny := ⟨one_ne_zero⟩
    haveI : NeZero (Raster.mk 1 2 fun _ j => if j = 0 then (1 : ℂ) else -Complex.I).nx := ⟨two_ne_zero⟩
    rw [convRaster_pix, genConv_00_tt, genConv_00_tf]
    · have : genConv (pixL 2) (pixL 1) false true 0 0 (fun x (y : Fin 1) => (if x = 0 then (1 : ℂ) else -Complex.I) ^ 2)
          = .error .linAlgError := by
        unfold genConv
        simp only [invRuleY, if_true, bind, Except.bind, invIf, Bool.false_xor, toepL_00]
        have h' : ∀ x : Fin 2, pixL 1 (fun _ => (if x = 0 then (1 : ℂ) else -Complex.I) ^ 2) 0 ≠ 0 := by
          intro x
          rw [p0]
          have := hne x 0
          simpa using this
        have hu : ∀ x : Fin 2, IsUnit (diagonal (fun (_ : Fin (2 * 0 + 1)) =>
            pixL 1 (fun _ => (if x = 0 then (1 : ℂ) else -Complex.I) ^ 2) 0)).det :=
          fun x => isUnit_det_diagonal fun _ => h' x
        unfold npInvStack
        rw [if_pos hu]
        simp only [inv_diagonal' (n := Fin (2 * 0 + 1)) (fun _ => h' _), flatten_btoepL_00, Bool.false_eq_true, if_false]
        unfold npInv
        rw [if_neg]
        simp [p0, det_diagonal]
      simp only [bind, Except.bind]
      rw [this]
    · exact hne
    · intro x
      rw [p0]
      have := hne x 0
      simpa using this
  unfold to_conv_mat_raster_continuous
  simp only [Ucell.rasters, plasmonCell, List.map_cons, List.map_nil, List.mapM_cons, bind, Except.bind]
  rw [hc]

/-- **C55, sharpness.** Ideal metals (`n = 0`) must be left out: a grating of vacuum and a metal of permittivity -1 is a passive
problem, but solving it raises `LinAlgError`, whatever the eigensolver. -/
theorem C55_negation (la : LinAlg) : Spec.PassiveProblem (plasmonSettings 0 none) ∧
    conv_solve la (plasmonSettings 0 none) = .error .linAlgError := by
  have h := exSettings_lossless 0 none (by simp)
  refine ⟨⟨h.toRealIllumination, ?_, ?_, h.n_bot_real, h.n_bot_pos⟩, ?_⟩
  · intro l hl i j
    obtain rfl : l = fun _ j => if j = (0 : Fin 2) then 1 else -Complex.I := by
      rcases List.mem_cons.mp hl with h | h
      · exact h
      · cases h
    simp only [Spec.PassiveMedium]
    split <;> simp
  · intro d hd
    obtain rfl : d = 1 / 3 := by simpa [plasmonSettings, exParams] using hd
    norm_num
  · unfold conv_solve convMats
    simp only [plasmonSettings, exParams, if_true]
    simp only [one_ne_zero, if_false]
    rw [plasmon_conv la]
    rfl

/-- A grating of vacuum and an absorbing medium, at every truncation order and for both Fourier types. -/
example (la : LinAlg) (f : ℕ) (ft : ℤ) (hf : ft = 0 ∨ ft = 1) : ∃ cs,
    convMats la { absSettings 0 none with fourier_type := ft, p := { exParams 0 none with fto := (f, 0) } } = .ok cs ∧ cs.length = 1 := by
  refine C55_ordinary la _ absCell rfl one_pos two_pos hf rfl ?_
  intro l hl i j
  obtain rfl : l = fun _ j => if j = (0 : Fin 2) then 1 else 2 - Complex.I := by
    rcases List.mem_cons.mp hl with h | h
    · exact h
    · cases h
  simp only [Spec.OrdinaryMedium]
  split <;> simp

/-- A rectangle of glass, drawn as a vector structure, at every pair of truncation orders. -/
example (la : LinAlg) (fx fy : ℕ) : ∃ cells cs,
    modeling_vector_instruction (6, 6) [⟨1, [.rectangle 3 3 2 1 (3 / 2) 0 0 0]⟩] = .ok cells ∧
    convMats la { absSettings 0 none with ucell := .vector [⟨1, [.rectangle 3 3 2 1 (3 / 2) 0 0 0]⟩],
                                          p := { exParams 0 none with fto := (fx, fy), period := (6, 6) } } = .ok cs ∧
    cs.length = cells.length := by
  have hos : ∀ os, (VLayer.mk 1 [.rectangle 3 3 2 1 (3 / 2) 0 0 0]).objs = .ok os ↔ os = [⟨5 / 2, 2, 7 / 2, 4, 3 / 2⟩] := by
    intro os
    simp only [VLayer.objs, List.mapM_cons, VInstr.run, rectangle_angle_zero, rectNoApprox, bind, Except.bind, List.mapM_nil, pure,
      Except.pure, List.flatten_cons, List.flatten_nil, List.append_nil, Except.ok.injEq]
    norm_num
    exact eq_comm
  obtain ⟨c, hc⟩ := drawLayer_one (px := 6) (py := 6) (r0 := 5 / 2) (r1 := 7 / 2) (c0 := 2) (c1 := 4)
    (base := 1) (n := 3 / 2) (by norm_num) (by norm_num) (by norm_num) (by norm_num) (by norm_num) (by norm_num)
  have hm : modeling_vector_instruction (6, 6) [⟨1, [.rectangle 3 3 2 1 (3 / 2) 0 0 0]⟩] = .ok [c] := by
    unfold modeling_vector_instruction
    simp only [Except.bind_ok, mapM_ok]
    refine ⟨[(1, [⟨5 / 2, 2, 7 / 2, 4, 3 / 2⟩])], .cons ?_ .nil, .cons hc .nil⟩
    exact ⟨_, (hos _).mpr rfl, rfl⟩
  obtain ⟨cs, h1, h2⟩ := C55_ordinary_vector la { absSettings 0 none with ucell := .vector [⟨1, [.rectangle 3 3 2 1 (3 / 2) 0 0 0]⟩], p := { exParams 0 none with fto := (fx, fy), period := (6, 6) } }
    _ rfl rfl (by norm_num) (by norm_num) (by
      intro l hl os ho
      obtain rfl := List.mem_singleton.mp hl
      obtain rfl := (hos os).mp ho
      refine ⟨?_, by norm_num [Spec.rowEdges], by norm_num [Spec.colEdges]⟩
      intro o ho'
      obtain rfl := List.mem_singleton.mp ho'
      norm_num [Spec.Inside]) [c] hm (by
      intro l hl n hn
      obtain rfl := List.mem_singleton.mp hl
      rcases hn with rfl | ⟨cx, cy, lx, ly, angle, nt, np, hv | hv⟩
      · simp [Spec.OrdinaryMedium]
      · simp only [List.mem_singleton, VInstr.rectangle.injEq] at hv
        obtain ⟨-, -, -, -, rfl, -⟩ := hv
        norm_num [Spec.OrdinaryMedium]
      · simp at hv)
  exact ⟨[c], cs, hm, h1, h2⟩

#print axioms C55_one_sided
#print axioms C55_one_sided_vector
#print axioms C55_ordinary
#print axioms C55_ordinary_vector
#print axioms C55_failure
#print axioms C55_negation

end Meent
