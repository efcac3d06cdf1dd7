import Verif.Lemmas.PoyntingEnds
import Verif.Lemmas.PassiveExample2D
import Verif.Props.C27
import Verif.Props.C48
import Verif.Props.C50

/-!
# C84: the sampled fields carry the reported power

The power per area flowing down through a plane is the mean of `Re (E × H*)` over the distinct samples of that plane. With more
distinct samples per period than diffraction orders this mean is exact, and the fields account for the reported efficiencies.
-/

namespace Meent

/-- For real illumination, any structure and any substrate: through the topmost plane of samples flows what is not reflected,
through the lowest one what is transmitted, nothing is lost between layers, and the losses of the layers add up to
what is neither reflected nor transmitted. -/
theorem C84_account (la : LinAlg) (s : Settings) (hp : s.p.use_pinv = false) (h : Spec.RealIllumination s.p) (rx ry rz : ℕ)
    (hx : Spec.EnoughSamples s.p.fto.1 rx) (hy : Spec.EnoughSamples s.p.fto.2 ry) (sel : Bool × Bool × Bool)
    (r : Solved s.p.fto.1 s.p.fto.2) (cell : FieldCell rx ry rz) (hr : conv_solve_field la s rx ry rz sel = .ok (r, cell)) :
    Spec.ForFields s.p (fun {_ _} six inc R T cell => Spec.PowerAccount six inc R T cell) r sel cell := by
  have hn : s.p.n_top ≠ 0 := fun h0 => by have := h.n_top_pos; rw [h0] at this; simp at this
  obtain ⟨cs, hc, hm⟩ := C48_maxwell la s hp hn rx ry rz sel r cell hr
  exact forFields_of hp h hx hy (field_solves hr) hm
    (fun k => (stack_account k.solves k.len k.orders).spec k.top_eq k.bottom_eq)
    (fun k => (stack_account k.solves k.len k.orders).spec k.top_eq k.bottom_eq)

/-- In a passive structure the power never grows with the depth: no layer, and no slice of a layer, gives off power. -/
theorem C84_passive (la : LinAlg) (s : Settings) (hp : s.p.use_pinv = false) (h : Spec.PassiveProblem s) (rx ry rz : ℕ)
    (hx : Spec.EnoughSamples s.p.fto.1 rx) (hy : Spec.EnoughSamples s.p.fto.2 ry) (sel : Bool × Bool × Bool)
    (r : Solved s.p.fto.1 s.p.fto.2) (cell : FieldCell rx ry rz) (hr : conv_solve_field la s rx ry rz sel = .ok (r, cell)) :
    Spec.ForFields s.p (fun {_ _} six _ _ _ cell => Spec.PowerFalls six cell) r sel cell := by
  have hn : s.p.n_top ≠ 0 := fun h0 => by have := h.n_top_pos; rw [h0] at this; simp at this
  have hk : 0 < Spec.k0Of s.p := div_pos (by positivity) h.wavelength_pos
  obtain ⟨cs, hc, hm⟩ := C48_maxwell la s hp hn rx ry rz sel r cell hr
  have hl := convMats_lossy hp h hc
  refine forFields_of hp h.toRealIllumination hx hy (field_solves hr) hm
    (fun k => stack_falls hk k.kx_real k.ky_real k.solves k.len k.orders fun l hl' => ⟨hl _ (List.of_mem_zip hl').1, h.thickness_nonneg _ (List.of_mem_zip hl').2⟩)
    (fun k => stack_falls hk k.kx_real k.ky_real k.solves k.len k.orders fun l hl' => ⟨?_, h.thickness_nonneg _ (List.of_mem_zip hl').2⟩)
  obtain ⟨c, hc', e⟩ := List.mem_map.mp (List.of_mem_zip hl').1
  rw [← e]
  exact ⟨(hl c hc').x.submatrix _, (hl c hc').y.submatrix _, (hl c hc').z.submatrix _⟩

/-- In a lossless structure the same power flows through every plane: the transmitted power, which is the incident power less the reflected power. -/
theorem C84_lossless (la : LinAlg) (s : Settings) (hp : s.p.use_pinv = false) (h : Spec.LosslessProblem s) (rx ry rz : ℕ)
    (hx : Spec.EnoughSamples s.p.fto.1 rx) (hy : Spec.EnoughSamples s.p.fto.2 ry) (sel : Bool × Bool × Bool)
    (r : Solved s.p.fto.1 s.p.fto.2) (cell : FieldCell rx ry rz) (hr : conv_solve_field la s rx ry rz sel = .ok (r, cell)) :
    Spec.ForFields s.p (fun {_ _} six inc R T cell => Spec.PowerConstant six (inc * T) cell ∧ inc * T = inc * (1 - R)) r sel cell := by
  have hn : s.p.n_top ≠ 0 := fun h0 => by have := h.n_top_pos; rw [h0] at this; simp at this
  have hk : 0 < Spec.k0Of s.p := div_pos (by positivity) h.wavelength_pos
  obtain ⟨cs, hc, hm⟩ := C48_maxwell la s hp hn rx ry rz sel r cell hr
  have hl := convMats_isHermitian hp h.structure_real hc
  refine forFields_of hp h.toRealIllumination hx hy (field_solves hr) hm (fun k => ?_) (fun k => ?_)
  · obtain ⟨a, b⟩ := stack_constant hk k.kx_real k.ky_real k.solves k.len k.orders fun l hl' => hl _ (List.of_mem_zip hl').1
    rw [k.top_eq] at a b
    rw [k.bottom_eq] at a
    rw [← a] at b
    exact ⟨b, a⟩
  · obtain ⟨a, b⟩ := stack_constant hk k.kx_real k.ky_real k.solves k.len k.orders fun l hl' => by
      obtain ⟨c, hc', e⟩ := List.mem_map.mp (List.of_mem_zip hl').1
      rw [← e]
      obtain ⟨b1, b2, b3⟩ := hl c hc'
      exact ⟨b1.submatrix _, b2.submatrix _, b3.submatrix _⟩
    rw [k.top_eq] at a b
    rw [k.bottom_eq] at a
    rw [← a] at b
    exact ⟨b, a⟩

theorem meanPower_mirrored {rx ry rz : ℕ} {α : Type} {six : α → Field6} {c : ℂ} (hc : c = 1 ∨ c = -1) {a : Block rx ry rz α} {b : Block rx ry rz Field6}
    (h : ∀ iz iy ix, Spec.Mirrored c (six (a iz iy ix)) (b iz iy ix)) (iz : Fin rz) : Spec.meanPower six a iz = Spec.meanPower id b iz := by
  unfold Spec.meanPower
  congr 1
  refine Finset.sum_congr rfl fun iy _ => Finset.sum_congr rfl fun ix _ => ?_
  have := h iz iy ix
  unfold Spec.powerDown
  rw [id, this.Ex, this.Ey, this.Hx, this.Hy]
  rcases hc with rfl | rfl <;>
  · simp only [Complex.star_def, Complex.sub_re, Complex.neg_re, Complex.mul_re, Complex.mul_im, Complex.conj_re, Complex.conj_im, Complex.neg_im, Complex.one_re, Complex.one_im]
    ring

theorem same_power {pol : ℝ} {c : ℂ} (hc : c = 1 ∨ c = -1) {sel : Bool × Bool × Bool} {rx ry rz : ℕ} {cell : FieldCell rx ry rz} {cell' : TFieldCell rx ry rz}
    (h : Spec.SameFields pol c sel cell cell') : Spec.SamePower pol cell cell' := by
  have hf : ∀ c' ∈ Spec.factors c sel, c' = 1 ∨ c' = -1 := by
    intro c' h'
    unfold Spec.factors at h'
    simp only [List.mem_append] at h'
    rcases h' with (h' | h') | h' <;> split_ifs at h' <;> simp only [List.mem_singleton, List.not_mem_nil] at h'
    · exact h' ▸ hc
    · exact .inr h'
    · exact .inl h'
  cases h with
  | tetm h =>
    refine .tetm ?_
    unfold Spec.MirroredCells at h
    rw [List.forall₂_map_left_iff] at h
    exact h.imp fun a b hab => meanPower_mirrored hc hab
  | @vector cells cells' hl hl' h =>
    refine .vector ?_
    rw [List.forall₂_iff_get]
    refine ⟨hl.trans hl'.symm, fun k h1 h2 => ?_⟩
    have hk : k < (Spec.factors c sel).length := hl ▸ h1
    have hm := h k _ _ _ (List.getElem?_eq_getElem hk) (List.getElem?_eq_getElem h1) (List.getElem?_eq_getElem h2)
    unfold Spec.MirroredCells at hm
    exact hm.imp fun a b hab => meanPower_mirrored (six := id) (hf _ (List.getElem_mem hk)) hab

/-- PyTorch, TE/TM solver: whenever NumPy returns fields so does PyTorch, and they carry the same power through every plane. -/
theorem C84_torch_tetm (la : LinAlg) (s : Settings) (h : Spec.LosslessCladdings s.p) (hg : gratingType s = 0) (rx ry rz : ℕ) (sel : Bool × Bool × Bool)
    (r : Solved s.p.fto.1 s.p.fto.2) (cell : FieldCell rx ry rz) (hr : conv_solve_field la s rx ry rz sel = .ok (r, cell)) :
    ∃ (r' : Solved s.p.fto.1 s.p.fto.2) (cell' : TFieldCell rx ry rz), tConv_solve_field la s.torch rx ry rz sel = .ok (r', cell') ∧ Spec.SamePower s.p.pol cell cell' := by
  obtain ⟨r', cell', h1, h2⟩ := C50_tetm h hg rx ry rz sel hr
  refine ⟨r', cell', h1, same_power ?_ h2⟩
  split_ifs
  · exact .inr rfl
  · exact .inl rfl

/-- PyTorch, conical and 2D solvers: at polarization angle `ψ` the fields carry the power of NumPy's at `π - ψ`. -/
theorem C84_torch (la : LinAlg) (s : Settings) (h : Spec.LosslessCladdings s.p) (hg : gratingType s = 2 ∨ (gratingType s = 1 ∧ s.p.phi ≠ some 0))
    (rx ry rz : ℕ) (sel : Bool × Bool × Bool) (r : Solved s.p.fto.1 s.p.fto.2) (cell : FieldCell rx ry rz)
    (hr : conv_solve_field la (Spec.withPsi s (Real.pi - s.p.psi)) rx ry rz sel = .ok (r, cell)) (hq : Spec.ModesAway r) :
    ∃ (r' : Solved s.p.fto.1 s.p.fto.2) (cell' : TFieldCell rx ry rz), tConv_solve_field la s.torch rx ry rz sel = .ok (r', cell') ∧ Spec.SamePower s.p.pol cell cell' := by
  obtain ⟨r', cell', h1, h2⟩ := C50_psi h hg rx ry rz sel hr hq
  exact ⟨r', cell', h1, same_power (.inr rfl) h2⟩

/-- Not vacuous: an absorbing grating, TE, TM and conical, sampled at ten points per period and twenty depths. -/
example (pol : ℝ) (hpol : pol = 0 ∨ pol = 1) (sel : Bool × Bool × Bool) :
    Spec.PassiveProblem (absSettings pol none) ∧ Spec.EnoughSamples (absSettings pol none).p.fto.1 10 ∧ Spec.EnoughSamples (absSettings pol none).p.fto.2 1 ∧
    ∃ r cell, conv_solve_field exLA (absSettings pol none) 10 1 20 sel = .ok (r, cell) := by
  refine ⟨absSettings_passive pol none (by intro φ hφ; cases hφ), ?_, ?_, ?_⟩
  · show Spec.EnoughSamples 0 10
    unfold Spec.EnoughSamples; decide
  · show Spec.EnoughSamples 0 1
    unfold Spec.EnoughSamples; decide
  · obtain ⟨o, ho⟩ := abs_ok hpol
    obtain ⟨c, hc⟩ := C27_available exLA _ rfl 10 1 20 sel _ ho
    exact ⟨_, c, hc⟩

example (pol : ℝ) (sel : Bool × Bool × Bool) :
    ∃ r cell, conv_solve_field exLA (absSettings pol (some 0)) 10 10 20 sel = .ok (r, cell) ∧
      Spec.ForFields (absSettings pol (some 0)).p (fun {_ _} six inc R T cell => Spec.PowerAccount six inc R T cell) r sel cell ∧
      Spec.ForFields (absSettings pol (some 0)).p (fun {_ _} six _ _ _ cell => Spec.PowerFalls six cell) r sel cell := by
  have hp := absSettings_passive pol (some 0) (by intro φ hφ; cases hφ; simp [Spec.IsReal])
  have he : Spec.EnoughSamples 0 10 := by unfold Spec.EnoughSamples; decide
  obtain ⟨o, ho⟩ := absCon_ok pol
  obtain ⟨c, hc⟩ := C27_available exLA _ rfl 10 10 20 sel _ ho
  exact ⟨_, c, hc, C84_account _ _ rfl hp.toRealIllumination _ _ _ he he _ _ _ hc, C84_passive _ _ rfl hp _ _ _ he he _ _ _ hc⟩

example (pol : ℝ) (sel : Bool × Bool × Bool) :
    ∃ r cell, conv_solve_field exLA (exSettings pol (some 0)) 10 10 20 sel = .ok (r, cell) ∧ Spec.LosslessProblem (exSettings pol (some 0)) := by
  obtain ⟨o, ho⟩ := exCon_ok pol
  obtain ⟨c, hc⟩ := C27_available exLA _ rfl 10 10 20 sel _ ho
  exact ⟨_, c, hc, exSettings_lossless pol (some 0) (by intro φ hφ; cases hφ; simp [Spec.IsReal])⟩

/-- Not vacuous: PyTorch, a grating with TE or TM light, and a conical one at 45 degrees polarization. -/
example (pol : ℝ) (hpol : pol = 0 ∨ pol = 1) (sel : Bool × Bool × Bool) :
    ∃ r cell r' cell', conv_solve_field exLA (exSettings pol none) 20 20 20 sel = .ok (r, cell) ∧
      tConv_solve_field exLA (exSettings pol none).torch 20 20 20 sel = .ok (r', cell') ∧ Spec.SamePower pol cell cell' := by
  have hl : Spec.LosslessCladdings (exSettings pol none).p :=
    { (exSettings_lossless pol none (by simp)).toRealIllumination with
      n_bot_real := by simp [exSettings, exParams, Spec.IsReal], n_bot_pos := by simp [exSettings, exParams] }
  obtain ⟨o, ho⟩ : ∃ o, conv_solve exLA (exSettings pol none) = .ok (.tetm o) := by
    rcases hpol with rfl | rfl
    · exact exTE_ok
    · exact exTM_ok
  obtain ⟨c, hc⟩ := C27_available exLA _ rfl 20 20 20 sel _ ho
  obtain ⟨r', c', h1, h2⟩ := C84_torch_tetm exLA _ hl (exSettings_grating pol hpol) 20 20 20 sel _ _ hc
  exact ⟨_, c, r', c', hc, h1, h2⟩

example : ∃ r cell r' cell', conv_solve_field exLA (mixSettings ((Real.pi : ℂ) - ((Real.pi / 4 : ℝ) : ℂ))) 20 20 20 (true, true, true) = .ok (r, cell) ∧
      tConv_solve_field exLA (mixSettings ((Real.pi / 4 : ℝ) : ℂ)).torch 20 20 20 (true, true, true) = .ok (r', cell') ∧
      Spec.SamePower (1 / 2) cell cell' := by
  obtain ⟨o', ho', -⟩ := mix_ok ((Real.pi : ℂ) - ((Real.pi / 4 : ℝ) : ℂ))
  have h1 : conv_solve_field exLA (mixSettings ((Real.pi : ℂ) - ((Real.pi / 4 : ℝ) : ℂ))) 20 20 20 (true, true, true)
      = .ok (.conical o', .vector (field_dist_1d_conical (mixSettings ((Real.pi : ℂ) - ((Real.pi / 4 : ℝ) : ℂ))).p o' 20 20 20
        (true, true, true))) :=
    Except.bind_ok.mpr ⟨_, ho', rfl⟩
  obtain ⟨sol', cell', h2, h3⟩ := C84_torch exLA (mixSettings ((Real.pi / 4 : ℝ) : ℂ)) (mixLossless (Real.pi / 4))
    (Or.inr ⟨by simp [gratingType, mixSettings, mixCell, mixParams], by
      simp only [mixSettings, mixParams, ne_eq, Option.some.injEq]
      intro h0
      have := Real.arctan_pos.mpr (show (0 : ℝ) < 1 / 2 by norm_num)
      exact this.ne' (by exact_mod_cast h0)⟩) 20 20 20 (true, true, true) _ _ h1 (fun o h => by cases h)
  exact ⟨_, _, sol', cell', h1, h2, h3⟩

end Meent

#print axioms Meent.C84_account
#print axioms Meent.C84_passive
#print axioms Meent.C84_lossless
#print axioms Meent.C84_torch_tetm
#print axioms Meent.C84_torch
