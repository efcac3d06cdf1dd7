import Verif.Lemmas.FieldMoved
import Verif.Props.C50
import Verif.Spec.TorchFieldFunction

/-!
# The functions of position behind the fields of the PyTorch backend (helper lemmas)
-/

namespace Meent

set_option linter.unusedVariables false

theorem mirrored_torchOf {c : ℂ} {f f' : Field6} (h : Spec.Mirrored c f f') : f' = Spec.torchOf c f := by
  obtain ⟨h1, h2, h3, h4, h5, h6⟩ := h
  cases f'
  simp only at h1 h2 h3 h4 h5 h6
  subst h1 h2 h3 h4 h5 h6
  rfl

theorem samples_torch {rx ry rz n : ℕ} {period : ℝ × ℝ} {c : ℂ} {F : Spec.FieldFn Field6} {cell cell' : List (Block rx ry rz Field6)}
    (h : Spec.SamplesOf n period F cell) (hm : Spec.MirroredCells c cell cell') : Spec.SamplesOf n period (Spec.torchFn c F) cell' := by
  refine ⟨hm.length_eq.symm.trans h.layers, fun k a ha iz iy ix => ?_⟩
  have hk' : k < cell'.length := (List.getElem?_eq_some_iff.mp ha).1
  have hk : k < cell.length := by rw [hm.length_eq]; exact hk'
  have e := hm.get hk hk'
  have ea : cell'.get ⟨k, hk'⟩ = a := by
    rw [List.getElem?_eq_getElem hk'] at ha
    exact Option.some.inj ha
  rw [ea] at e
  rw [mirrored_torchOf (e iz iy ix), h.value k (cell.get ⟨k, hk⟩) (List.getElem?_eq_getElem hk) iz iy ix]
  rfl

theorem forall_torch {rx ry rz n : ℕ} {period : ℝ × ℝ} : ∀ (cf : List ℂ) (fs : List (Spec.FieldFn Field6)) (cells cells' : List (List (Block rx ry rz Field6))),
    List.Forall₂ (fun f cell => Spec.SamplesOf n period f cell) fs cells → cells.length = cf.length → cells'.length = cf.length →
    (∀ (k : ℕ) c' cell cell', cf[k]? = some c' → cells[k]? = some cell → cells'[k]? = some cell' → Spec.MirroredCells c' cell cell') →
    List.Forall₂ (fun f cell => Spec.SamplesOf n period f cell) (List.zipWith Spec.torchFn cf fs) cells'
  | [], fs, cells, cells', h, h1, h2, hm => by
    rw [List.length_eq_zero_iff.mp h2]
    exact .nil
  | c :: cf, fs, [], cells', h, h1, h2, hm => by simp at h1
  | c :: cf, fs, a :: cells, [], h, h1, h2, hm => by simp at h2
  | c :: cf, _, a :: cells, b :: cells', .cons hf h, h1, h2, hm => by
    refine .cons (samples_torch hf (hm 0 c a b rfl rfl rfl)) (forall_torch cf _ cells cells' h (by simpa using h1) (by simpa using h2) ?_)
    exact fun k c' x x' e1 e2 e3 => hm (k + 1) c' x x' e1 e2 e3

theorem sampled_torch {rx ry rz n : ℕ} {p : Params} {pol : ℝ} {c : ℂ} {sel : Bool × Bool × Bool} {fields : Spec.Fields Field3} {cell : FieldCell rx ry rz}
    {cell' : TFieldCell rx ry rz} (h : fields.Sampled p n sel cell) (hs : Spec.SameFields pol c sel cell cell') : (fields.torch pol c).SampledT p n sel cell' := by
  cases hs with
  | @tetm cell cell' hm =>
    cases fields with
    | vector F G H => exact h.elim
    | tetm F =>
      have h : Spec.SamplesOf n p.period F cell := h
      refine samples_torch (F := fun k z y x => Spec.six pol (F k z y x)) ⟨(List.length_map _).trans h.layers, fun k a ha iz iy ix => ?_⟩ hm
      rw [List.getElem?_map] at ha
      obtain ⟨b, hb, rfl⟩ := Option.map_eq_some_iff.mp ha
      exact congrArg (Spec.six pol) (h.value k b hb iz iy ix)
  | @vector cells cells' hl hl' hm =>
    cases fields with
    | tetm F => exact h.elim
    | vector F G H =>
      have := forall_torch _ _ _ _ h hl hl' hm
      have e : List.zipWith Spec.torchFn (Spec.factors c sel) ((if sel.1 then [F] else []) ++ (if sel.2.1 then [G] else []) ++ (if sel.2.2 then [H] else []))
          = (if sel.1 then [Spec.torchFn c F] else []) ++ (if sel.2.1 then [Spec.torchFn (-1) G] else []) ++ (if sel.2.2 then [Spec.torchFn 1 H] else []) := by
        obtain ⟨a, b, d⟩ := sel
        cases a <;> cases b <;> cases d <;> rfl
      rw [e] at this
      exact this

/-- Field arrays with the same solve behind them. -/
theorem torch_sampled_of {la : LinAlg} {s : Settings} {c : ℂ} {fields : Spec.Fields Field3} {S : ∀ {rx ry rz : ℕ}, Bool × Bool × Bool → FieldCell rx ry rz → Prop}
    (hS : ∀ rx ry rz sel, ∃ cell : FieldCell rx ry rz, S sel cell ∧ fields.Sampled s.p s.p.thickness.length sel cell)
    (h : ∀ rx ry rz sel (cell : FieldCell rx ry rz), S sel cell → ∃ (sol' : Solved s.p.fto.1 s.p.fto.2) (cell' : TFieldCell rx ry rz),
      tConv_solve_field la s.torch rx ry rz sel = .ok (sol', cell') ∧ Spec.SameFields s.p.pol c sel cell cell') :
    ∃ sol' : Solved s.p.fto.1 s.p.fto.2, tConv_solve la s.torch = .ok sol' ∧ Spec.TorchSampled s.p sol' (fields.torch s.p.pol c) := by
  have split : ∀ {rx ry rz sel} {sol' : Solved s.p.fto.1 s.p.fto.2} {cell' : TFieldCell rx ry rz}, tConv_solve_field la s.torch rx ry rz sel = .ok (sol', cell') →
      tConv_solve la s.torch = .ok sol' ∧ tCalculate_field s.p sol' rx ry rz sel = .ok cell' := by
    intro rx ry rz sel sol' cell' e
    unfold tConv_solve_field at e
    obtain ⟨r, h1, e⟩ := Except.bind_ok.mp e
    obtain ⟨f, h2, e⟩ := Except.bind_ok.mp e
    obtain ⟨rfl, rfl⟩ := Prod.mk.inj (Except.ok.inj e)
    exact ⟨h1, h2⟩
  obtain ⟨cell0, h0, -⟩ := hS 0 0 0 (true, true, true)
  obtain ⟨sol', _, e0, -⟩ := h _ _ _ _ _ h0
  refine ⟨sol', (split e0).1, fun rx ry rz sel => ?_⟩
  obtain ⟨cell, h1, h2⟩ := hS rx ry rz sel
  obtain ⟨sol1, cell', e1, hs⟩ := h _ _ _ _ _ h1
  obtain rfl := Except.ok.inj ((split e0).1.symm.trans (split e1).1)
  exact ⟨cell', (split e1).2, sampled_torch h2 hs⟩

end Meent
