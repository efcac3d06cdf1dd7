import Verif.Lemmas.FieldFunction
import Verif.Lemmas.Dispatch
import Verif.Lemmas.TorchNeg
import Verif.Lemmas.TorchObjectExample
import Verif.Props.C27
import Verif.Props.C57

/-!
# C86: the sampled fields are samples of one function of position

The arrays returned by `calculate_field` for different resolutions and selections of inputs are samples of the same functions of position. These functions
are quasi-periodic with the phase of the incident wave, and the one for a polarization angle is the superposition of those for TE and TM.
-/

open Matrix

namespace Meent

theorem quasi_vector {p : Params} (h : Spec.RealIllumination p) (ls : List (LayerFn (FlatIdx p.fto.1 p.fto.2))) (o : Out4 p.fto.1 p.fto.2) {α : Type} (times : ℂ → α → α) :
    let F := fn6 (2 * Real.pi / p.wavelength) (tileX (kxVec p p.wavelength)) (tileY (kyVec p p.wavelength)) ls
    (Spec.Fields.vector (α := α) (F o.T1) (F o.T1_te) (F o.T1_tm)).Quasi times p.period (-Spec.phaseAlongX p, -Spec.phaseAlongY p) := by
  intro F f hf
  simp only [List.mem_cons, List.not_mem_nil, or_false] at hf
  rcases hf with rfl | rfl | rfl <;> exact fn6_period h ls _

/-- For every solved problem there are fields, functions of position, of which every array returned later holds the samples: whatever the resolution and
the selection. One period further they have picked up the phase of the incident wave, and the field for `ψ` is `sin ψ` times that for TE plus
`cos ψ` times that for TM. The only other outcome is the error after an SMM solve. -/
theorem C86_function (la : LinAlg) (s : Settings) (r : Solved s.p.fto.1 s.p.fto.2) (hr : conv_solve la s = .ok r) :
    (r = .conicalSmm ∧ ∀ rx ry rz sel, calculate_field s.p r rx ry rz sel = .error .typeError) ∨
    ∃ fields : Spec.Fields Field3, fields.Superpose s.p.psi ∧
      (Spec.RealIllumination s.p → fields.Quasi Spec.times3 s.p.period (-Spec.phaseAlongX s.p, -Spec.phaseAlongY s.p)) ∧
      ∀ rx ry rz sel, ∃ cell, calculate_field s.p r rx ry rz sel = .ok cell ∧ fields.Sampled s.p s.p.thickness.length sel cell := by
  cases r with
  | conicalSmm => exact .inl ⟨rfl, fun _ _ _ _ => rfl⟩
  | tetm o =>
    right
    obtain ⟨convs, -, -, -, ho⟩ := conv_solve_tetm.mp hr
    have hlen : o.infos.reverse.length = s.p.thickness.length := by
      unfold solve_1d at ho
      simp only [Except.bind_ok] at ho
      obtain ⟨x, -, y, hy, z, -, ho⟩ := ho
      obtain rfl := Except.ok.inj ho
      rw [List.length_reverse, layerLoop_count _ hy]
      exact Nat.zero_add _
    refine ⟨.tetm (fn1d (2 * Real.pi / s.p.wavelength) s.p.pol (kxVec s.p s.p.wavelength) o.infos.reverse o.T1), trivial, fun h => ?_, fun rx ry rz sel => ⟨_, rfl, ?_, ?_⟩⟩
    · exact ⟨fun k z y x => fn1d_quasi (invFourier1d_period h) _ _ k z y x, fn1d_y _ _ _ _ _⟩
    · exact (fieldLoop1d_length ..).trans hlen
    · exact fieldLoop1d_value _ _ _ _ _ _ _ _
  | conical o =>
    right
    obtain ⟨convs, -, -, -, ho⟩ := conv_solve_conical.mp hr
    have hlen : o.infos.reverse.length = s.p.thickness.length ∧ o.out.Superposed s.p.psi := by
      unfold solve_1d_conical at ho
      simp only [Except.bind_ok] at ho
      obtain ⟨x, -, y, hy, ho⟩ := ho
      split_ifs at ho
      simp only [Except.bind_ok] at ho
      obtain ⟨z, hz, ho⟩ := ho
      obtain rfl := Except.ok.inj ho
      refine ⟨?_, transfer_2d_4_superposed hz⟩
      rw [List.length_reverse, layerLoop_count _ hy]
      exact Nat.zero_add _
    refine ⟨.vector _ _ _, fn6_superposed hlen.2 (ls := o.infos.reverse.map (layerCon (2 * Real.pi / s.p.wavelength) (tileX (kxVec s.p s.p.wavelength)) (tileY (kyVec s.p s.p.wavelength)))) ?_,
      fun h => quasi_vector h _ o.out _, fun rx ry rz sel => ⟨_, rfl, ?_⟩⟩
    · intro L hL
      obtain ⟨l, -, rfl⟩ := List.mem_map.mp hL
      exact layerCon_linear ..
    · refine sampled_select sel fun T => ?_
      rw [fieldLoopCon_loop6, ← hlen.1, ← List.length_map (as := o.infos.reverse)]
      exact loop6_samples ..
  | twoD o =>
    right
    obtain ⟨convs, -, -, -, ho⟩ := conv_solve_twoD.mp hr
    have hlen : o.infos.reverse.length = s.p.thickness.length ∧ o.out.Superposed s.p.psi := by
      unfold solve_2d at ho
      simp only [Except.bind_ok] at ho
      obtain ⟨x, -, y, hy, z, hz, ho⟩ := ho
      obtain rfl := Except.ok.inj ho
      refine ⟨?_, transfer_2d_4_superposed hz⟩
      rw [List.length_reverse, layerLoop_count _ hy]
      exact Nat.zero_add _
    refine ⟨.vector _ _ _, fn6_superposed hlen.2 (ls := o.infos.reverse.map (layer2d (2 * Real.pi / s.p.wavelength) (tileX (kxVec s.p s.p.wavelength)) (tileY (kyVec s.p s.p.wavelength)))) ?_,
      fun h => quasi_vector h _ o.out _, fun rx ry rz sel => ⟨_, rfl, ?_⟩⟩
    · intro L hL
      obtain ⟨l, -, rfl⟩ := List.mem_map.mp hL
      exact layer2d_linear ..
    · refine sampled_select sel fun T => ?_
      rw [fieldLoop2d_loop6, ← hlen.1, ← List.length_map (as := o.infos.reverse)]
      exact loop6_samples ..

theorem agreeLayers_of {α : Type} {rx ry rz rx' ry' rz' n : ℕ} {period : ℝ × ℝ} {F : Spec.FieldFn α} {cell : List (Block rx ry rz α)} {cell' : List (Block rx' ry' rz' α)}
    (h : Spec.SamplesOf n period F cell) (h' : Spec.SamplesOf n period F cell') : Spec.AgreeLayers period cell cell' := by
  refine ⟨h.layers.trans h'.layers.symm, fun k a a' ha ha' iz iz' iy iy' ix ix' ez ey ex => ?_⟩
  rw [h.value k a ha, h'.value k a' ha', ez, ey, ex]

theorem agree_of_samples {rx ry rz rx' ry' rz' n : ℕ} {p : Params} {sel : Bool × Bool × Bool} {fields : Spec.Fields Field3} {cell : FieldCell rx ry rz} {cell' : FieldCell rx' ry' rz'}
    (h : fields.Sampled p n sel cell) (h' : fields.Sampled p n sel cell') : Spec.Agree p.period cell cell' := by
  cases fields with
  | tetm F =>
    cases cell with
    | vector c => exact h.elim
    | tetm c =>
    cases cell' with
    | vector c' => exact h'.elim
    | tetm c' => exact agreeLayers_of h h'
  | vector F G H =>
    cases cell with
    | tetm c => exact h.elim
    | vector c =>
    cases cell' with
    | tetm c' => exact h'.elim
    | vector c' =>
      have h : List.Forall₂ _ _ c := h
      have h' : List.Forall₂ _ _ c' := h'
      rw [List.forall₂_iff_get] at h h'
      show List.Forall₂ _ c c'
      rw [List.forall₂_iff_get]
      refine ⟨h.1.symm.trans h'.1, fun i h1 h2 => agreeLayers_of (h.2 i (h.1 ▸ h1) h1) (h'.2 i (h.1 ▸ h1) h2)⟩

/-- Two calls for the same solved problem agree at every point sampled by both, whatever their resolutions. -/
theorem C86_resolution (la : LinAlg) (s : Settings) (r : Solved s.p.fto.1 s.p.fto.2) (hr : conv_solve la s = .ok r) (sel : Bool × Bool × Bool)
    (rx ry rz rx' ry' rz' : ℕ) (cell : FieldCell rx ry rz) (cell' : FieldCell rx' ry' rz')
    (h : calculate_field s.p r rx ry rz sel = .ok cell) (h' : calculate_field s.p r rx' ry' rz' sel = .ok cell') : Spec.Agree s.p.period cell cell' := by
  rcases C86_function la s r hr with ⟨-, e⟩ | ⟨fields, -, -, hf⟩
  · rw [e] at h; cases h
  · obtain ⟨c, hc, hs⟩ := hf rx ry rz sel
    obtain ⟨c', hc', hs'⟩ := hf rx' ry' rz' sel
    obtain rfl := Except.ok.inj (h.symm.trans hc)
    obtain rfl := Except.ok.inj (h'.symm.trans hc')
    exact agree_of_samples hs hs'

theorem samplePoint_first (P : ℝ) {n : ℕ} (i : Fin n) (hi : i.val = 0) : Spec.samplePoint P n i = 0 := by
  unfold Spec.samplePoint
  rw [hi]
  simp

theorem samplePoint_last (P : ℝ) {n : ℕ} (i : Fin n) (hi : i.val + 1 = n) (hn : 2 ≤ n) : Spec.samplePoint P n i = P := by
  unfold Spec.samplePoint
  have e : ((i : ℕ) : ℝ) = (n : ℝ) - 1 := by
    have : ((i.val + 1 : ℕ) : ℝ) = n := congrArg _ hi
    push_cast at this
    linarith
  have h0 : (n : ℝ) - 1 ≠ 0 := by
    have : (2 : ℝ) ≤ n := by exact_mod_cast hn
    linarith
  rw [if_neg (by omega), e, mul_comm, mul_div_assoc, div_self h0, mul_one]

theorem columns_of {α : Type} {times : ℂ → α → α} {rx ry rz n : ℕ} {period : ℝ × ℝ} {δ : ℝ} {F : Spec.FieldFn α} {cell : List (Block rx ry rz α)}
    (h : Spec.SamplesOf n period F cell) (hq : Spec.QuasiX times period.1 δ F) : Spec.ColumnsClose times δ cell := by
  intro a ha iz iy first last h0 h1 h2
  obtain ⟨k, hk⟩ := List.mem_iff_getElem?.mp ha
  rw [h.value k a hk, h.value k a hk, samplePoint_first _ first h0, samplePoint_last _ last h1 h2, ← hq, zero_add]

theorem rows_of {α : Type} {times : ℂ → α → α} {rx ry rz n : ℕ} {period : ℝ × ℝ} {δ : ℝ} {F : Spec.FieldFn α} {cell : List (Block rx ry rz α)}
    (h : Spec.SamplesOf n period F cell) (hq : Spec.QuasiY times period.2 δ F) : Spec.RowsClose times δ cell := by
  intro a ha iz ix first last h0 h1 h2
  obtain ⟨k, hk⟩ := List.mem_iff_getElem?.mp ha
  rw [h.value k a hk, h.value k a hk, samplePoint_first _ last.rev (by rw [Fin.val_rev]; omega),
    samplePoint_last _ first.rev (by rw [Fin.val_rev]; omega) h2, ← hq, zero_add]

theorem mem_chosen {α : Type} {F G H f : α} {a b c : Bool}
    (h : f ∈ (if a then [F] else []) ++ (if b then [G] else []) ++ (if c then [H] else [])) : f ∈ [F, G, H] := by
  simp only [List.mem_append] at h
  rcases h with (h | h) | h <;> split_ifs at h <;> simp only [List.mem_singleton, List.not_mem_nil] at h <;> rw [h] <;> simp

/-- Opposite edges of the sampled cell match up to the phase the incident wave picks up over the period: the last column repeats the first one,
the first row the last one. -/
theorem C86_edges (la : LinAlg) (s : Settings) (hi : Spec.RealIllumination s.p) (r : Solved s.p.fto.1 s.p.fto.2) (hr : conv_solve la s = .ok r)
    (rx ry rz : ℕ) (sel : Bool × Bool × Bool) (cell : FieldCell rx ry rz) (h : calculate_field s.p r rx ry rz sel = .ok cell) :
    Spec.Closes (-Spec.phaseAlongX s.p, -Spec.phaseAlongY s.p) cell := by
  rcases C86_function la s r hr with ⟨-, e⟩ | ⟨fields, -, hq, hf⟩
  · rw [e] at h; cases h
  · obtain ⟨c, hc, hs⟩ := hf rx ry rz sel
    obtain rfl := Except.ok.inj (h.symm.trans hc)
    have hq := hq hi
    cases fields with
    | tetm F =>
      cases cell with
      | vector c => exact hs.elim
      | tetm c => exact columns_of hs hq.1
    | vector F G H =>
      cases cell with
      | tetm c => exact hs.elim
      | vector c =>
        have hs : List.Forall₂ _ _ c := hs
        intro x hx
        obtain ⟨i, hi, rfl⟩ := List.mem_iff_getElem.mp hx
        have hl := hs.length_eq
        have hv := (List.forall₂_iff_get.mp hs).2 i (hl ▸ hi) hi
        have hm := List.get_mem _ (⟨i, hl ▸ hi⟩ : Fin _)
        have hg := hq _ (mem_chosen hm)
        exact ⟨columns_of hv hg.1, rows_of hv hg.2⟩

/-- With all three inputs selected, the samples for the polarization angle `ψ` are `sin ψ` times those for TE plus `cos ψ` times those for TM. -/
theorem C86_superposition (la : LinAlg) (s : Settings) (r : Solved s.p.fto.1 s.p.fto.2) (hr : conv_solve la s = .ok r) (rx ry rz : ℕ)
    (cells : List (List (Block rx ry rz Field6))) (h : calculate_field s.p r rx ry rz (true, true, true) = .ok (.vector cells)) :
    ∃ c te tm : List (Block rx ry rz Field6), cells = [c, te, tm] ∧ c.length = s.p.thickness.length ∧ te.length = s.p.thickness.length ∧ tm.length = s.p.thickness.length ∧
      ∀ (k : ℕ) (a b d : Block rx ry rz Field6), c[k]? = some a → te[k]? = some b → tm[k]? = some d → ∀ iz iy ix,
        a iz iy ix = Spec.plus6 (Spec.times6 (Complex.sin s.p.psi) (b iz iy ix)) (Spec.times6 (Complex.cos s.p.psi) (d iz iy ix)) := by
  rcases C86_function la s r hr with ⟨-, e⟩ | ⟨fields, hp, -, hf⟩
  · rw [e] at h; cases h
  · obtain ⟨c, hc, hs⟩ := hf rx ry rz (true, true, true)
    obtain rfl := Except.ok.inj (h.symm.trans hc)
    cases fields with
    | tetm F => exact hs.elim
    | vector F G H =>
      have hs : List.Forall₂ _ [F, G, H] cells := hs
      obtain ⟨c, cs, h1, h2, rfl⟩ := List.forall₂_cons_left_iff.mp hs
      obtain ⟨te, cs, h3, h4, rfl⟩ := List.forall₂_cons_left_iff.mp h2
      obtain ⟨tm, cs, h5, h6, rfl⟩ := List.forall₂_cons_left_iff.mp h4
      obtain rfl := List.forall₂_nil_left_iff.mp h6
      refine ⟨c, te, tm, rfl, h1.layers, h3.layers, h5.layers, fun k a b d ha hb hd iz iy ix => ?_⟩
      rw [h1.value k a ha, h3.value k b hb, h5.value k d hd]
      exact hp _ _ _ _

/-- Selecting fewer inputs returns the same arrays: those of the full selection which were asked for. -/
theorem C86_selection (p : Params) (r : Solved p.fto.1 p.fto.2) (rx ry rz : ℕ) (te_tm : FieldCell rx ry rz)
    (h : calculate_field p r rx ry rz (true, true, true) = .ok te_tm) (sel : Bool × Bool × Bool) :
    (∃ cell, te_tm = .tetm cell ∧ calculate_field p r rx ry rz sel = .ok (.tetm cell)) ∨
    ∃ a b c, te_tm = .vector [a, b, c] ∧ calculate_field p r rx ry rz sel =
      .ok (.vector ((if sel.1 then [a] else []) ++ (if sel.2.1 then [b] else []) ++ (if sel.2.2 then [c] else []))) := by
  cases r with
  | conicalSmm => cases h
  | tetm o => exact .inl ⟨_, (Except.ok.inj h).symm, rfl⟩
  | conical o =>
    refine .inr ⟨_, _, _, (Except.ok.inj h).symm, ?_⟩
    obtain ⟨a, b, c⟩ := sel
    cases a <;> cases b <;> cases c <;> rfl
  | twoD o =>
    refine .inr ⟨_, _, _, (Except.ok.inj h).symm, ?_⟩
    obtain ⟨a, b, c⟩ := sel
    cases a <;> cases b <;> cases c <;> rfl

/-! ### PyTorch -/

theorem tConv_solve_cases {la : LinAlg} {s : TSettings} {r : Solved s.p.fto.1 s.p.fto.2} (h : tConv_solve la s = .ok r) :
    ∃ convs, (∃ o, r = .tetm o ∧ tSolve_1d la s.p s.p.wavelength (convs.map Conv.row) = .ok o) ∨ r = .conicalSmm ∨
      (∃ o, r = .conical o ∧ tSolve_1d_conical la s.p s.p.wavelength convs = .ok o) ∨ (∃ o, r = .twoD o ∧ tSolve_2d la s.p s.p.wavelength convs = .ok o) := by
  obtain ⟨convs, -, h⟩ := Except.bind_ok.mp h
  refine ⟨convs, ?_⟩
  unfold tSolve_for_conv at h
  split at h
  · obtain ⟨o, ho, e⟩ := Except.bind_ok.mp h
    exact .inl ⟨o, (Except.ok.inj e).symm, ho⟩
  · cases h
  · obtain ⟨o, ho, e⟩ := Except.bind_ok.mp h
    exact .inr (.inr (.inl ⟨o, (Except.ok.inj e).symm, ho⟩))
  · exact .inr (.inl (Except.ok.inj h).symm)
  · cases h
  · obtain ⟨o, ho, e⟩ := Except.bind_ok.mp h
    exact .inr (.inr (.inr ⟨o, (Except.ok.inj e).symm, ho⟩))
  · cases h

theorem star_cis (δ : ℝ) : star (Complex.exp (((-δ : ℝ) : ℂ) * Complex.I)) = Complex.exp ((δ : ℂ) * Complex.I) := by
  rw [Complex.star_def, ← Complex.exp_conj]
  simp

theorem tSigns_times (c : ℂ) (f : Field6) : tSigns (Spec.times6 c f) = Spec.times6 (star c) (tSigns f) := by
  unfold tSigns Spec.times6
  simp only [star_mul', mul_assoc]

theorem tSigns_plus (f g : Field6) : tSigns (Spec.plus6 f g) = Spec.plus6 (tSigns f) (tSigns g) := by
  unfold tSigns Spec.plus6
  simp only [star_add, add_mul]

theorem tExpand_times (pol : ℝ) (c : ℂ) (f : Field3) : tExpand pol (Spec.times3 c f) = Spec.times6 c (tExpand pol f) := by
  unfold tExpand Spec.times6 Spec.times3
  split_ifs <;> simp only [mul_zero]

theorem neg_times (c : ℂ) (f : Field6) : (Spec.times6 c f).neg = Spec.times6 c f.neg := by
  unfold Field6.neg Spec.times6
  simp only [mul_neg]

/-- Samples after an operation applied to every sample. -/
theorem samples_map {α β : Type} {rx ry rz n : ℕ} {period : ℝ × ℝ} {F : Spec.FieldFn α} {cell : List (Block rx ry rz α)} (g : α → β)
    (h : Spec.SamplesOf n period F cell) : Spec.SamplesOf n period (fun k z y x => g (F k z y x)) (cell.map (Block.map g)) := by
  refine ⟨by rw [List.length_map]; exact h.layers, fun k a ha iz iy ix => ?_⟩
  rw [List.getElem?_map, Option.map_eq_some_iff] at ha
  obtain ⟨b, hb, rfl⟩ := ha
  exact congrArg g (h.value k b hb iz iy ix)

theorem quasiX_signs {period δ : ℝ} {F : Spec.FieldFn Field6} (h : Spec.QuasiX Spec.times6 period (-δ) F) :
    Spec.QuasiX Spec.times6 period δ fun k z y x => tSigns (F k z y x) := by
  intro k z y x
  show tSigns _ = _
  rw [h, tSigns_times, star_cis]

theorem quasiY_signs {period δ : ℝ} {F : Spec.FieldFn Field6} (h : Spec.QuasiY Spec.times6 period (-δ) F) :
    Spec.QuasiY Spec.times6 period δ fun k z y x => tSigns (F k z y x) := by
  intro k z y x
  show tSigns _ = _
  rw [h, tSigns_times, star_cis]

theorem superposed_signs {psi : ℂ} {F G H : Spec.FieldFn Field6} (h : Spec.Superposed psi F G H) :
    Spec.Superposed (star psi) (fun k z y x => tSigns (F k z y x)) (fun k z y x => tSigns (G k z y x)) (fun k z y x => tSigns (H k z y x)) := by
  intro k z y x
  show tSigns _ = _
  rw [h, tSigns_plus, tSigns_times, tSigns_times, Complex.star_def, Complex.sin_conj, Complex.cos_conj]

theorem torch_vector {p : Params} {o : Out4 p.fto.1 p.fto.2} (ho : o.Superposed p.psi) {ls : List (LayerFn (FlatIdx p.fto.1 p.fto.2))} (hl : ∀ L ∈ ls, L.Linear)
    (hn : ls.length = p.thickness.length) :
    let F := fun T k z y x => tSigns (fn6 (2 * Real.pi / p.wavelength) (tileX (tKxVec p p.wavelength)) (tileY (tKyVec p p.wavelength)) ls T k z y x)
    (Spec.Fields.vector (α := Field6) (F o.T1) (F o.T1_te) (F o.T1_tm)).Superpose (star p.psi) ∧
    (Spec.RealIllumination p → (Spec.Fields.vector (F o.T1) (F o.T1_te) (F o.T1_tm)).Quasi Spec.times6 p.period (Spec.phaseAlongX p, Spec.phaseAlongY p)) ∧
    ∀ rx ry rz sel, (Spec.Fields.vector (F o.T1) (F o.T1_te) (F o.T1_tm)).SampledT p p.thickness.length sel (.vector (res_x := rx) (res_y := ry) (res_z := rz)
      (((selectT1 o sel).map (loop6 (2 * Real.pi / p.wavelength) p.period (tileX (tKxVec p p.wavelength)) (tileY (tKyVec p p.wavelength)) rx ry rz ls)).map (List.map (Block.map tSigns)))) := by
  intro F
  refine ⟨superposed_signs (fn6_superposed ho hl), fun h f hf => ?_, fun rx ry rz sel => ?_⟩
  · have key : ∀ T, Spec.QuasiX Spec.times6 p.period.1 (Spec.phaseAlongX p) (F T) ∧ Spec.QuasiY Spec.times6 p.period.2 (Spec.phaseAlongY p) (F T) := by
      intro T
      have q := fn6_period h ls T
      rw [← tKxVec_eq h, ← tKyVec_eq h] at q
      exact ⟨quasiX_signs q.1, quasiY_signs q.2⟩
    simp only [List.mem_cons, List.not_mem_nil, or_false] at hf
    rcases hf with rfl | rfl | rfl <;> exact key _
  · show List.Forall₂ _ _ _
    rw [List.map_map]
    refine sampled_select (F := F) sel fun T => samples_map tSigns ?_
    rw [← hn]
    exact loop6_samples ..

/-- The same for PyTorch, on every structure it accepts, also anisotropic ones. Its fields are conjugated, so they pick up the opposite phase. -/
theorem C86_torch (la : LinAlg) (s : TSettings) (r : Solved s.p.fto.1 s.p.fto.2) (hr : tConv_solve la s = .ok r) :
    (r = .conicalSmm ∧ ∀ rx ry rz sel, tCalculate_field s.p r rx ry rz sel = .error .typeError) ∨
    ∃ fields : Spec.Fields Field6, fields.Superpose (star s.p.psi) ∧
      (Spec.RealIllumination s.p → fields.Quasi Spec.times6 s.p.period (Spec.phaseAlongX s.p, Spec.phaseAlongY s.p)) ∧
      ∀ rx ry rz sel, ∃ cell, tCalculate_field s.p r rx ry rz sel = .ok cell ∧ fields.SampledT s.p s.p.thickness.length sel cell := by
  obtain ⟨convs, ⟨o, rfl, ho⟩ | rfl | ⟨o, rfl, ho⟩ | ⟨o, rfl, ho⟩⟩ := tConv_solve_cases hr
  · right
    have hlen : o.infos.reverse.length = s.p.thickness.length := by
      unfold tSolve_1d at ho
      simp only [Except.bind_ok] at ho
      obtain ⟨x, -, y, hy, z, -, ho⟩ := ho
      obtain rfl := Except.ok.inj ho
      rw [List.length_reverse, layerLoop_count _ hy]
      exact Nat.zero_add _
    have hs : ∀ rx rz, Spec.SamplesOf s.p.thickness.length s.p.period
        (fn1d (2 * Real.pi / s.p.wavelength) s.p.pol (tKxVec s.p s.p.wavelength) o.infos.reverse o.T1) (tField_dist_1d s.p o rx rz) :=
      fun rx rz => ⟨(fieldLoop1d_length ..).trans hlen, fieldLoop1d_value _ _ _ _ _ _ _ _⟩
    have hq : Spec.RealIllumination s.p → Spec.QuasiX Spec.times3 s.p.period.1 (-Spec.phaseAlongX s.p)
        (fn1d (2 * Real.pi / s.p.wavelength) s.p.pol (tKxVec s.p s.p.wavelength) o.infos.reverse o.T1) := by
      intro h
      rw [tKxVec_eq h]
      exact fun k z y x => fn1d_quasi (invFourier1d_period h) _ _ k z y x
    by_cases hpol : s.p.pol = 1
    · refine ⟨.tetm fun k z y x => (tSigns (tExpand s.p.pol (fn1d (2 * Real.pi / s.p.wavelength) s.p.pol (tKxVec s.p s.p.wavelength) o.infos.reverse o.T1 k z y x))).neg, trivial,
        fun h => ⟨fun k z y x => ?_, fun k z y y' x => ?_⟩, fun rx ry rz sel => ⟨_, rfl, ?_⟩⟩
      · show (tSigns (tExpand _ _)).neg = _
        rw [hq h, tExpand_times, tSigns_times, neg_times, star_cis]
      · show (tSigns (tExpand _ _)).neg = _
        rw [fn1d_y]
      · rw [if_pos hpol]
        exact samples_map _ (samples_map (fun f => tSigns (tExpand s.p.pol f)) (hs rx rz))
    · refine ⟨.tetm fun k z y x => tSigns (tExpand s.p.pol (fn1d (2 * Real.pi / s.p.wavelength) s.p.pol (tKxVec s.p s.p.wavelength) o.infos.reverse o.T1 k z y x)), trivial,
        fun h => ⟨fun k z y x => ?_, fun k z y y' x => ?_⟩, fun rx ry rz sel => ⟨_, rfl, ?_⟩⟩
      · show tSigns (tExpand _ _) = _
        rw [hq h, tExpand_times, tSigns_times, star_cis]
      · show tSigns (tExpand _ _) = _
        rw [fn1d_y]
      · rw [if_neg hpol]
        exact samples_map (fun f => tSigns (tExpand s.p.pol f)) (hs rx rz)
  · exact .inl ⟨rfl, fun _ _ _ _ => rfl⟩
  · right
    have hlen : o.infos.reverse.length = s.p.thickness.length ∧ o.out.Superposed s.p.psi := by
      unfold tSolve_1d_conical at ho
      simp only [Except.bind_ok] at ho
      obtain ⟨x, -, y, hy, ho⟩ := ho
      split_ifs at ho
      obtain rfl := Except.ok.inj ho
      refine ⟨?_, tTransfer_2d_4_superposed ..⟩
      rw [List.length_reverse, layerLoop_count _ hy]
      exact Nat.zero_add _
    obtain ⟨h1, h2, h3⟩ := torch_vector hlen.2 (ls := o.infos.reverse.map (layerCon (2 * Real.pi / s.p.wavelength) (tileX (tKxVec s.p s.p.wavelength)) (tileY (tKyVec s.p s.p.wavelength))))
      (by
        intro L hL
        obtain ⟨l, -, rfl⟩ := List.mem_map.mp hL
        exact layerCon_linear ..)
      (by rw [List.length_map]; exact hlen.1)
    refine ⟨_, h1, h2, fun rx ry rz sel => ⟨_, rfl, ?_⟩⟩
    have e := h3 rx ry rz sel
    rw [← show fieldLoopCon (2 * Real.pi / s.p.wavelength) s.p.period (tileX (tKxVec s.p s.p.wavelength)) (tileY (tKyVec s.p s.p.wavelength)) rx ry rz o.infos.reverse = _ from
      funext fun T => fieldLoopCon_loop6 _ _ _ _ _ _ _ _ T] at e
    exact e
  · right
    have hlen : o.infos.reverse.length = s.p.thickness.length ∧ o.out.Superposed s.p.psi := by
      unfold tSolve_2d at ho
      simp only [Except.bind_ok] at ho
      obtain ⟨x, -, y, hy, ho⟩ := ho
      obtain rfl := Except.ok.inj ho
      refine ⟨?_, tTransfer_2d_4_superposed ..⟩
      rw [List.length_reverse, layerLoop_count _ hy]
      exact Nat.zero_add _
    obtain ⟨h1, h2, h3⟩ := torch_vector hlen.2 (ls := o.infos.reverse.map (layer2d (2 * Real.pi / s.p.wavelength) (tileX (tKxVec s.p s.p.wavelength)) (tileY (tKyVec s.p s.p.wavelength))))
      (by
        intro L hL
        obtain ⟨l, -, rfl⟩ := List.mem_map.mp hL
        exact layer2d_linear ..)
      (by rw [List.length_map]; exact hlen.1)
    refine ⟨_, h1, h2, fun rx ry rz sel => ⟨_, rfl, ?_⟩⟩
    have e := h3 rx ry rz sel
    rw [← show fieldLoop2d (2 * Real.pi / s.p.wavelength) s.p.period (tileX (tKxVec s.p s.p.wavelength)) (tileY (tKyVec s.p s.p.wavelength)) rx ry rz o.infos.reverse = _ from
      funext fun T => fieldLoop2d_loop6 _ _ _ _ _ _ _ _ T] at e
    exact e

/-- The same for JAX, on the structures covered by the comparison of the backends. -/
theorem C86_jax (env : Jax.Env) (s : Settings) (hpix : ∀ u, s.ucell = .raster u → 0 < u.ny ∧ 0 < u.nx) (he : Spec.EllipsesSplit s.ucell)
    (hl : s.p.thickness.length ≤ Spec.layerCount s.ucell) (r : Solved s.p.fto.1 s.p.fto.2) (hr : Jax.conv_solve env s = .ok r) :
    (r = .conicalSmm ∧ ∀ rx ry rz sel, Jax.calculate_field s.p r rx ry rz sel = .error .typeError) ∨
    ∃ fields : Spec.Fields Field3, fields.Superpose s.p.psi ∧
      (Spec.RealIllumination s.p → fields.Quasi Spec.times3 s.p.period (-Spec.phaseAlongX s.p, -Spec.phaseAlongY s.p)) ∧
      ∀ rx ry rz sel, ∃ cell, Jax.calculate_field s.p r rx ry rz sel = .ok cell ∧ fields.Sampled s.p s.p.thickness.length sel cell :=
  C86_function env.la s r (C57_jax_to_numpy env s hpix he hl r hr)

/-- Not vacuous: a TE problem at 30° on a cell of one wavelength solves; there the phase over one period is `π`, so that the last
column is minus the first one. -/
example : (∃ o, conv_solve exLA (exSettings 0 none) = .ok (.tetm o)) ∧ Spec.RealIllumination (exSettings 0 none).p ∧ Spec.phaseAlongX (exSettings 0 none).p = Real.pi := by
  refine ⟨exTE_ok, (exSettings_lossless 0 none (by simp)).toRealIllumination, ?_⟩
  unfold Spec.phaseAlongX
  show 2 * Real.pi / 1 * ((1 : ℂ).re * Real.sin ((Real.pi / 6 : ℝ) : ℂ).re * Real.cos (0 : ℂ).re) * 1 = Real.pi
  rw [Complex.ofReal_re, Real.sin_pi_div_six, Complex.one_re, Complex.zero_re, Real.cos_zero]
  ring

/-- A conical problem solves for every polarization angle, on NumPy; five samples and nine samples meet in the middle. -/
example (psi : ℂ) : (∃ o : OutCon 0 0, conv_solve exLA (mixSettings psi) = .ok (.conical o)) ∧ (mixSettings psi).p.psi = psi ∧
    Spec.samplePoint 1 5 2 = Spec.samplePoint 1 9 4 ∧ Spec.samplePoint 1 5 2 = 1 / 2 := by
  refine ⟨?_, rfl, ?_, ?_⟩
  · obtain ⟨o, ho, -⟩ := mix_ok psi
    exact ⟨o, ho⟩
  all_goals norm_num [Spec.samplePoint]

/-- A TE/TM problem solves on PyTorch. -/
example : ∃ o : Out1D 1, tConv_solve exLA (exSettings 0 none).torch = .ok (.tetm o : Solved 0 0) := TObj.exTorch_ok 0 (.inl rfl)

end Meent

#print axioms Meent.C86_function
#print axioms Meent.C86_resolution
#print axioms Meent.C86_edges
#print axioms Meent.C86_superposition
#print axioms Meent.C86_selection
#print axioms Meent.C86_torch
#print axioms Meent.C86_jax
