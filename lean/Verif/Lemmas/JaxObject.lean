import Verif.Lemmas.Object
import Verif.Lemmas.ObjectExample
import Verif.Model.JaxObject
import Verif.Spec.Object

/-!
# Histories of the JAX solver object (helper lemmas)
-/

set_option linter.unusedSimpArgs false
set_option linter.unusedVariables false

namespace Meent

namespace Jax

theorem setPol_in {v : ℝ} (h : 0 ≤ v ∧ v ≤ 1) (o : Obj) :
    setPol v o = ({ o with pol := v, psi := Real.pi / 2 * (1 - v) }, .ok ()) := by
  have h1 : ¬(1 < v ∧ v < 1 + 1 / 10 ^ 6) := fun hh => absurd hh.1 (not_lt.mpr h.2)
  have h2 : ¬(0 - 1 / 10 ^ 6 < v ∧ v < 0) := fun hh => absurd hh.2 (not_lt.mpr h.1)
  unfold setPol
  dsimp only
  rw [if_neg h1, if_neg h2, if_neg (not_not.mpr h)]

/-- Within the room the setter succeeds. -/
theorem setPol_room {v : ℝ} (h : -(1 / 10 ^ 6) < v ∧ v < 1 + 1 / 10 ^ 6) :
    ∃ w, ∀ o, setPol v o = ({ o with pol := w, psi := Real.pi / 2 * (1 - w) }, .ok ()) := by
  unfold setPol
  dsimp only
  by_cases h1 : 1 < v ∧ v < 1 + 1 / 10 ^ 6
  · rw [if_pos h1]; exact ⟨1, fun _ => if_neg (by norm_num)⟩
  · rw [if_neg h1]
    by_cases h2 : 0 - 1 / 10 ^ 6 < v ∧ v < 0
    · rw [if_pos h2]; exact ⟨0, fun _ => if_neg (by norm_num)⟩
    · rw [if_neg h2]
      refine ⟨v, fun _ => if_neg ?_⟩
      rw [not_not]
      constructor
      · by_contra hh
        exact h2 ⟨by linarith [h.1], by linarith⟩
      · by_contra hh
        exact h1 ⟨by linarith, h.2⟩

theorem setPol_cases (v : ℝ) (o : Obj) :
    (setPol v o).1 = o ∨ ∃ w, (setPol v o).1 = { o with pol := w, psi := Real.pi / 2 * (1 - w) } := by
  unfold setPol
  dsimp only
  generalize (if 1 < v ∧ v < 1 + 1 / 10 ^ 6 then (1 : ℝ) else if 0 - 1 / 10 ^ 6 < v ∧ v < 0 then 0 else v) = w
  by_cases h : ¬(0 ≤ w ∧ w ≤ 1)
  · rw [if_pos h]; exact .inl rfl
  · rw [if_neg h]; exact .inr ⟨w, rfl⟩

theorem setUcell_frame (v : UcellArg) (o : Obj) : ∃ x y, (setUcell v o).1 = { o with ucell := x, modeling := y } := by
  unfold setUcell; split <;> exact ⟨_, _, rfl⟩

theorem convSolve_frame (env : Env) (o : Obj) :
    ∃ g st, (convSolve env o).1 = { o with grating := g, stored := st } := by
  unfold convSolve
  split
  · exact ⟨_, _, rfl⟩
  · exact ⟨_, _, rfl⟩
  · dsimp only
    split
    · exact ⟨_, _, rfl⟩
    · split
      · exact ⟨_, _, rfl⟩
      · split
        · exact ⟨_, _, rfl⟩
        · exact ⟨_, _, rfl⟩

@[simp] theorem step_convSolve_fst (env : Env) (o : Obj) : (step env o .convSolve).1 = (convSolve env o).1 := by
  unfold step
  dsimp only
  rcases h : convSolve env o with ⟨o', e | r⟩ <;> rfl

/-- `conv_solve` does not read the grating type, the stored solution or the perturbation. -/
theorem convSolve_congr (env : Env) (o : Obj) (g : Option ℕ) (st : Stored) (pt : ℂ) :
    (convSolve env { o with grating := g, stored := st, perturbation := pt }).2 = (convSolve env o).2 := by
  have h1 : Obj.structure { o with grating := g, stored := st, perturbation := pt } = o.structure := rfl
  have h2 : Obj.orders { o with grating := g, stored := st, perturbation := pt } = o.orders := rfl
  have h3 : Obj.ready { o with grating := g, stored := st, perturbation := pt } = o.ready := rfl
  unfold convSolve
  rw [h1, h2, h3]
  rcases hu : o.structure with e | u
  · rfl
  rcases ho : o.orders with e | ⟨fx, fy⟩
  · rfl
  dsimp only
  have hs : Obj.settings { o with grating := g, stored := st, perturbation := pt } u fx fy = o.settings u fx fy := rfl
  have h4 : convMats env (Obj.settings { o with grating := g, stored := st, perturbation := pt } u fx fy)
    = convMats env (o.settings u fx fy) := rfl
  rcases hc : convMats env (o.settings u fx fy) with e | convs
  · rw [hc] at h4; rw [h4]
  · rw [hc] at h4; rw [h4]
    dsimp only
    rcases hr : o.ready with e | _
    · rfl
    · dsimp only
      have h5 : solve_for_conv env (Obj.settings { o with grating := g, stored := st, perturbation := pt } u fx fy)
        o.wavelength convs = solve_for_conv env (o.settings u fx fy) o.wavelength convs := rfl
      rcases hx : solve_for_conv env (o.settings u fx fy) o.wavelength convs with e | sol
      · rw [hx] at h5; rw [h5]
      · rw [hx] at h5; rw [h5]; rfl

theorem step_congr (env : Env) (o : Obj) (g : Option ℕ) (st : Stored) (pt : ℂ) :
    (step env { o with grating := g, stored := st, perturbation := pt } .convSolve).2 = (step env o .convSolve).2 := by
  have key := convSolve_congr env o g st pt
  unfold step
  dsimp only
  rcases h1 : convSolve env { o with grating := g, stored := st, perturbation := pt } with ⟨o1, e1 | r1⟩ <;>
    rcases h2 : convSolve env o with ⟨o2, e2 | r2⟩ <;> rw [h1, h2] at key <;> cases key <;> rfl

theorem run_induction {env : Env} {P : Obj → Prop} {A : Op → Prop} {o0 : Obj} (h0 : P o0)
    (hs : ∀ o op, A op → P o → P (step env o op).1) (ops : List Op) (ha : ∀ op ∈ ops, A op) : P (run env o0 ops) := by
  unfold run
  induction ops generalizing o0 with
  | nil => exact h0
  | cons op ops ih =>
    exact ih (hs o0 op (ha op (by simp)) h0) (fun x hx => ha x (by simp [hx]))

/-- What every history keeps: `pol` follows `psi`, and `period` never has exactly one entry. -/
def _root_.Meent.Obj.Tidy (o : Obj) : Prop := o.pol = -(2 * o.psi / Real.pi - 1) ∧ o.period.length ≠ 1

theorem tidy_pol {o : Obj} (w : ℝ) (h : o.Tidy) : Obj.Tidy { o with pol := w, psi := Real.pi / 2 * (1 - w) } := by
  refine ⟨?_, h.2⟩
  have := Real.pi_ne_zero
  dsimp only
  field_simp
  ring

theorem setPeriod_len (v : Arg) (o : Obj) (h : o.period.length ≠ 1) : (setPeriod v o).1.period.length ≠ 1 := by
  unfold setPeriod
  split <;> (try dsimp only) <;> (try simp) <;> (try exact h) <;> (intro hl)
  · rename_i l hh
    rcases l with _ | ⟨a, _ | ⟨b, l⟩⟩
    · simp at hl
    · exact absurd rfl (hh a)
    · simp at hl
  · rename_i l hh
    rcases l with _ | ⟨a, _ | ⟨b, l⟩⟩
    · simp at hl
    · exact absurd rfl (hh a)
    · simp at hl

theorem tidy_step {env : Env} {o : Obj} (op : Op) (h : o.Tidy) : (step env o op).1.Tidy := by
  cases op with
  | setTheta v => obtain ⟨x, hx⟩ := setTheta_frame v o; simp only [step, Meent.step, ofSetter_fst, hx]; exact h
  | setFto v => obtain ⟨x, hx⟩ := setFto_frame v o; simp only [step, Meent.step, ofSetter_fst, hx]; exact h
  | setPeriod v =>
    obtain ⟨x, hx⟩ := setPeriod_frame v o
    have := setPeriod_len v o h.2
    simp only [step, Meent.step, ofSetter_fst]
    rw [hx] at this ⊢
    exact ⟨h.1, this⟩
  | setThickness v => obtain ⟨x, hx⟩ := setThickness_frame v o; simp only [step, Meent.step, ofSetter_fst, hx]; exact h
  | setTypeComplex v =>
    obtain ⟨x, y, z, hx⟩ := setTypeComplex_frame v o; simp only [step, Meent.step, ofSetter_fst, hx]; exact h
  | setPsi v =>
    simp only [step, Meent.step, ofSetter_fst]
    cases v with
    | none => exact h
    | some v => exact ⟨rfl, h.2⟩
  | setPol v =>
    simp only [step, ofSetter_fst]
    rcases setPol_cases v o with e | ⟨w, e⟩
    · rw [e]; exact h
    · rw [e]; exact tidy_pol w h
  | setUcell v => obtain ⟨x, y, hx⟩ := setUcell_frame v o; simp only [step, ofSetter_fst, hx]; exact h
  | convSolve =>
    obtain ⟨g, st, hx⟩ := convSolve_frame env o
    rw [step_convSolve_fst, hx]; exact h
  | calculateField rx ry rz sel =>
    have : (step env o (.calculateField rx ry rz sel)).1 = o := by simp [step]
    rw [this]; exact h
  | _ => exact h

theorem setUcell_consistent {v : UcellArg} {o : Obj} (hv : v ≠ .badDtype) (h : o.Consistent) :
    (setUcell v o).1.Consistent := by
  cases v with
  | badDtype => exact absurd rfl hv
  | raster u => exact rfl
  | vector ls => exact rfl
  | none => exact trivial
  | other => exact h

theorem consistent_step {env : Env} {o : Obj} (op : Op) (hop : op ≠ .setUcell .badDtype) (h : o.Consistent) :
    (step env o op).1.Consistent := by
  cases op with
  | setTheta v => obtain ⟨x, hx⟩ := setTheta_frame v o; simp only [step, Meent.step, ofSetter_fst, hx]; exact h
  | setFto v => obtain ⟨x, hx⟩ := setFto_frame v o; simp only [step, Meent.step, ofSetter_fst, hx]; exact h
  | setPeriod v => obtain ⟨x, hx⟩ := setPeriod_frame v o; simp only [step, Meent.step, ofSetter_fst, hx]; exact h
  | setThickness v => obtain ⟨x, hx⟩ := setThickness_frame v o; simp only [step, Meent.step, ofSetter_fst, hx]; exact h
  | setTypeComplex v =>
    obtain ⟨x, y, z, hx⟩ := setTypeComplex_frame v o; simp only [step, Meent.step, ofSetter_fst, hx]; exact h
  | setPsi v =>
    simp only [step, Meent.step, ofSetter_fst]
    cases v with
    | none => exact h
    | some v => exact h
  | setPol v =>
    simp only [step, ofSetter_fst]
    rcases setPol_cases v o with e | ⟨w, e⟩
    · rw [e]; exact h
    · rw [e]; exact h
  | setUcell v =>
    simp only [step, ofSetter_fst]
    exact setUcell_consistent (fun e => hop (by rw [e])) h
  | convSolve =>
    obtain ⟨g, st, hx⟩ := convSolve_frame env o
    rw [step_convSolve_fst, hx]; exact h
  | calculateField rx ry rz sel =>
    have : (step env o (.calculateField rx ry rz sel)).1 = o := by simp [step]
    rw [this]; exact h
  | _ => exact h

/-- What a successful constructor call did. -/
theorem init_ok {k : Kwargs} {o : Obj} (h : init k = .ok o) :
    ∃ a b c d e f g : Obj, (setPol k.pol a) = (b, .ok ()) ∧ setPsi k.psi b = (c, .ok ()) ∧
      setFto k.fto c = (d, .ok ()) ∧ setPeriod k.period d = (e, .ok ()) ∧
      setThickness k.thickness { e with wavelength := k.wavelength } = (f, .ok ()) ∧
      setUcell k.ucell { f with algo := k.algo, stored := .nothing, modeling := none, grating := none, ucell := none }
        = (g, .ok ()) ∧
      o = { g with fourier_type := k.fourier_type, enhanced_dfs := k.enhanced_dfs, use_pinv := k.use_pinv } ∧
      a.period = [] := by
  unfold init at h
  split at h
  · cases h
  simp only [andThen_ok] at h
  obtain ⟨-, -, h3, h4, h5, h6, h7, h8, h⟩ := h
  refine ⟨_, _, _, _, _, _, _, Prod.ext rfl h3, Prod.ext rfl h4, Prod.ext rfl h5, Prod.ext rfl h6,
    Prod.ext rfl h7, Prod.ext rfl h8, (Except.ok.inj h).symm, ?_⟩
  obtain ⟨x, hx⟩ := setTheta_frame k.theta { blank with perturbation := k.perturbation, n_top := k.n_top, n_bot := k.n_bot }
  simp only [setPhi, hx]
  rfl

theorem convSolve_out {env : Env} {o : Obj} {u : Structure} {fx fy : ℕ} (hu : o.structure = .ok u)
    (ho : o.orders = .ok (fx, fy)) (hr : o.ready = .ok ()) :
    (convSolve env o).2 = (match conv_solve env (o.settings u fx fy) with
      | .ok sol => .ok ⟨fx, fy, Solved.result (fx := fx) (fy := fy) sol⟩
      | .error e => .error e) := by
  unfold convSolve conv_solve
  rw [hu, ho]
  dsimp only
  cases hc : convMats env (o.settings u fx fy) with
  | error e => rfl
  | ok convs =>
    rw [hr]
    dsimp only
    show _ = match (solve_for_conv env (o.settings u fx fy) o.wavelength convs) with
      | .ok sol => _
      | .error e => _
    cases solve_for_conv env (o.settings u fx fy) o.wavelength convs <;> rfl

theorem step_convSolve_out (env : Env) (o : Obj) : (step env o .convSolve).2 = (match (convSolve env o).2 with
    | .ok r => .result r
    | .error e => .raised e) := by
  unfold step
  dsimp only
  rcases h : convSolve env o with ⟨o', r⟩
  cases r <;> rfl

theorem result_of {env : Env} {o : Obj} {u : Structure} {fx fy : ℕ} (hu : o.structure = .ok u)
    (ho : o.orders = .ok (fx, fy)) (hr : o.ready = .ok ()) :
    ((∃ sol, conv_solve env (o.settings u fx fy) = .ok sol) → ∃ r, (step env o .convSolve).2 = .result r) ∧
    ((¬∃ sol, conv_solve env (o.settings u fx fy) = .ok sol) → ∃ e, (step env o .convSolve).2 = .raised e) := by
  rw [step_convSolve_out, convSolve_out hu ho hr]
  cases conv_solve env (o.settings u fx fy) with
  | error e => exact ⟨fun ⟨_, h⟩ => (by cases h), fun _ => ⟨e, rfl⟩⟩
  | ok sol => exact ⟨fun _ => ⟨_, rfl⟩, fun h => absurd ⟨sol, rfl⟩ h⟩

theorem setPol_ok_form {v : ℝ} {o o' : Obj} (h : setPol v o = (o', .ok ())) :
    ∃ w, o' = { o with pol := w, psi := Real.pi / 2 * (1 - w) } := by
  unfold setPol at h
  dsimp only at h
  revert h
  generalize (if 1 < v ∧ v < 1 + 1 / 10 ^ 6 then (1 : ℝ) else if 0 - 1 / 10 ^ 6 < v ∧ v < 0 then 0 else v) = w
  intro h
  by_cases hw : ¬(0 ≤ w ∧ w ≤ 1)
  · rw [if_pos hw] at h; cases h
  · rw [if_neg hw] at h; cases h; exact ⟨w, rfl⟩

theorem init_tidy {k : Kwargs} {o : Obj} (h : init k = .ok o) : o.Tidy := by
  obtain ⟨a, b, c, d, e, f, g, e1, e2, e3, e4, e5, e6, rfl, e8⟩ := init_ok h
  have hb : b.Tidy := by
    obtain ⟨w, rfl⟩ := setPol_ok_form e1
    refine ⟨?_, by simp [e8]⟩
    have := Real.pi_ne_zero
    dsimp only
    field_simp
    ring
  have hc : c.Tidy := by
    cases hk : k.psi with
    | none => rw [hk] at e2; cases e2; exact hb
    | some v => rw [hk] at e2; cases e2; exact ⟨rfl, hb.2⟩
  have hd : d.Tidy := by
    obtain ⟨x, hx⟩ := setFto_frame k.fto c
    rw [e3] at hx
    dsimp only at hx
    rw [hx]; exact hc
  have he : e.Tidy := by
    obtain ⟨x, hx⟩ := setPeriod_frame k.period d
    have := setPeriod_len k.period d hd.2
    rw [e4] at hx this
    dsimp only at hx this
    refine ⟨?_, this⟩
    rw [hx]; exact hd.1
  have hf : f.Tidy := by
    obtain ⟨x, hx⟩ := setThickness_frame k.thickness { e with wavelength := k.wavelength }
    rw [e5] at hx
    dsimp only at hx
    rw [hx]; exact he
  obtain ⟨x, y, hx⟩ := setUcell_frame k.ucell { f with algo := k.algo, stored := .nothing, modeling := none, grating := none, ucell := none }
  rw [e6] at hx
  dsimp only at hx
  rw [hx]; exact hf

end Jax

end Meent
