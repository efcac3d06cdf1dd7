import Verif.Lemmas.JaxObject
import Verif.Spec.JaxObject

/-!
# Keyword arguments of the JAX `conv_solve` (helper lemmas)

Each setter that succeeds assigns a value that does not depend on the object.
-/

set_option linter.unusedSimpArgs false
set_option linter.unusedVariables false

namespace Meent

theorem setTheta_form (v : Option ℂ) (o : Obj) :
    setTheta v o = ({ o with theta := v.map fun t => if t = 0 then o.perturbation else t }, .ok ()) := by
  cases v <;> rfl

theorem setFto_form {v : Arg} {o o' : Obj} (h : setFto v o = (o', .ok ())) :
    ∃ x, o' = { o with fto := x } ∧ ∀ q, setFto v q = ({ q with fto := x }, .ok ()) := by
  unfold setFto at h
  split at h <;> cases h <;> exact ⟨_, rfl, fun _ => rfl⟩

theorem setPeriod_form {v : Arg} {o o' : Obj} (h : setPeriod v o = (o', .ok ())) :
    ∃ x, o' = { o with period := x } ∧ ∀ q, setPeriod v q = ({ q with period := x }, .ok ()) := by
  match v with
  | .scalar v => cases h; exact ⟨_, rfl, fun _ => rfl⟩
  | .seq [] => cases h; exact ⟨_, rfl, fun _ => rfl⟩
  | .seq [a] => cases h; exact ⟨_, rfl, fun _ => rfl⟩
  | .seq (a :: b :: l) => cases h; exact ⟨_, rfl, fun _ => rfl⟩
  | .arr [] => cases h; exact ⟨_, rfl, fun _ => rfl⟩
  | .arr [a] => cases h; exact ⟨_, rfl, fun _ => rfl⟩
  | .arr (a :: b :: l) => cases h; exact ⟨_, rfl, fun _ => rfl⟩
  | .arr0 _ => cases h
  | .other => cases h

theorem setThickness_form {v : Arg} {o o' : Obj} (h : setThickness v o = (o', .ok ())) :
    ∃ x, o' = { o with thickness := x } ∧ ∀ q, setThickness v q = ({ q with thickness := x }, .ok ()) := by
  cases v <;> cases h <;> exact ⟨_, rfl, fun _ => rfl⟩

namespace Jax

theorem setPol_form {v : ℝ} {o o' : Obj} (h : setPol v o = (o', .ok ())) :
    ∃ w, o' = { o with pol := w, psi := Real.pi / 2 * (1 - w) } ∧
      ∀ q, setPol v q = ({ q with pol := w, psi := Real.pi / 2 * (1 - w) }, .ok ()) := by
  unfold setPol at h ⊢
  dsimp only at h ⊢
  revert h
  generalize (if 1 < v ∧ v < 1 + 1 / 10 ^ 6 then (1 : ℝ) else if 0 - 1 / 10 ^ 6 < v ∧ v < 0 then 0 else v) = w
  intro h
  by_cases hw : ¬(0 ≤ w ∧ w ≤ 1)
  · rw [if_pos hw] at h; cases h
  · rw [if_neg hw] at h; cases h; exact ⟨w, rfl, fun _ => if_neg hw⟩

theorem setUcell_form {v : UcellArg} {o o' : Obj} (h : setUcell v o = (o', .ok ())) :
    ∃ x y, ∀ q : Obj, q.ucell = none → q.modeling = none →
      setUcell v q = ({ q with ucell := x, modeling := y }, .ok ()) := by
  cases v <;> cases h
  · exact ⟨_, _, fun _ _ _ => rfl⟩
  · exact ⟨none, some .raster, fun q h _ => by simp [setUcell, ← h]⟩
  · exact ⟨_, _, fun _ _ _ => rfl⟩
  · exact ⟨none, none, fun q _ h => by simp [setUcell, ← h]⟩

/-- The object constructed from `k`, given the values the setters compute. -/
noncomputable def built (k : Kwargs) (w : ℝ) (f : FtoVal) (p : List ℝ) (t : ThickVal) (u : Option Structure)
    (m : Option Modeling) : Obj where
  n_top := k.n_top
  n_bot := k.n_bot
  theta := k.theta.map fun t => if t = 0 then k.perturbation else t
  phi := k.phi
  psi := match k.psi with
    | none => Real.pi / 2 * (1 - w)
    | some v => v
  pol := match k.psi with
    | none => w
    | some v => -(2 * v / Real.pi - 1)
  fto := f
  period := p
  wavelength := k.wavelength
  thickness := t
  algo := k.algo
  perturbation := k.perturbation
  use_pinv := k.use_pinv
  fourier_type := k.fourier_type
  enhanced_dfs := k.enhanced_dfs
  ucell := u
  modeling := m
  grating := none
  stored := .nothing

/-- The values the setters compute. -/
structure Computes (k : Kwargs) (w : ℝ) (f : FtoVal) (p : List ℝ) (t : ThickVal) (u : Option Structure)
    (m : Option Modeling) : Prop where
  hc : k.type_complex = .supported
  h1 : ∀ q, setPol k.pol q = ({ q with pol := w, psi := Real.pi / 2 * (1 - w) }, .ok ())
  h2 : ∀ q, setFto k.fto q = ({ q with fto := f }, .ok ())
  h3 : ∀ q, setPeriod k.period q = ({ q with period := p }, .ok ())
  h4 : ∀ q, setThickness k.thickness q = ({ q with thickness := t }, .ok ())
  h5 : ∀ q : Obj, q.ucell = none → q.modeling = none → setUcell k.ucell q = ({ q with ucell := u, modeling := m }, .ok ())

theorem init_intro {k : Kwargs} {w : ℝ} {f : FtoVal} {p : List ℝ} {t : ThickVal} {u : Option Structure}
    {m : Option Modeling} (h : Computes k w f p t u m) : init k = .ok (built k w f p t u m) := by
  obtain ⟨hc, h1, h2, h3, h4, h5⟩ := h
  unfold init andThen
  rw [hc]
  cases hk : k.psi <;> simp only [setTheta_form, setPhi, setPsi, h1, h2, h3, h4, h5, built, hk] <;> rfl

theorem init_form {k : Kwargs} {o : Obj} (h : init k = .ok o) : ∃ w f p t u m, Computes k w f p t u m ∧
    o = built k w f p t u m := by
  have hc : k.type_complex = .supported := by
    unfold init at h
    split at h
    · cases h
    · assumption
  obtain ⟨a, b, c, d, e, f, g, e1, e2, e3, e4, e5, e6, -, -⟩ := init_ok h
  obtain ⟨w, -, h1⟩ := setPol_form e1
  obtain ⟨x1, -, h2⟩ := setFto_form e3
  obtain ⟨x2, -, h3⟩ := setPeriod_form e4
  obtain ⟨x3, -, h4⟩ := setThickness_form e5
  obtain ⟨x, y, h5⟩ := setUcell_form e6
  have hC : Computes k w x1 x2 x3 x y := ⟨hc, h1, h2, h3, h4, h5⟩
  refine ⟨w, x1, x2, x3, x, y, hC, ?_⟩
  have := init_intro hC
  rw [h] at this
  exact Except.ok.inj this

/-- One keyword argument that is accepted: the object is the one constructed with the argument replaced. -/
theorem init_override {env : Env} {k k' : Kwargs} {o o' : Obj} {op : Op} {out : Out} (h : init k = .ok o)
    (hk : Spec.override op k = some k') (hs : step env o op = (o', out)) (hr : ∀ e, out ≠ .raised e) : init k' = .ok o' := by
  obtain ⟨w, f, p, t, u, m, ⟨hc, h1, h2, h3, h4, h5⟩, rfl⟩ := init_form h
  have ofs : ∀ {r : Obj × Res Unit}, Out.ofSetter r = (o', out) → r = (o', .ok ()) := by
    rintro ⟨q, _ | _⟩ e
    · cases e; exact absurd rfl (hr _)
    · cases e; rfl
  cases op with
  | setNTop v => cases hk; cases hs; exact init_intro ⟨hc, h1, h2, h3, h4, h5⟩
  | setNBot v => cases hk; cases hs; exact init_intro ⟨hc, h1, h2, h3, h4, h5⟩
  | setWavelength v => cases hk; cases hs; exact init_intro ⟨hc, h1, h2, h3, h4, h5⟩
  | setAlgo v => cases hk; cases hs; exact init_intro ⟨hc, h1, h2, h3, h4, h5⟩
  | setUsePinv v => cases hk; cases hs; exact init_intro ⟨hc, h1, h2, h3, h4, h5⟩
  | setFourierType v => cases hk; cases hs; exact init_intro ⟨hc, h1, h2, h3, h4, h5⟩
  | setEnhancedDfs v => cases hk; cases hs; exact init_intro ⟨hc, h1, h2, h3, h4, h5⟩
  | setPhi v => cases hk; cases hs; exact init_intro ⟨hc, h1, h2, h3, h4, h5⟩
  | setTheta v =>
    cases hk
    have := ofs hs
    rw [setTheta_form] at this
    cases this
    exact init_intro ⟨hc, h1, h2, h3, h4, h5⟩
  | setPsi v =>
    cases v with
    | none => cases hk
    | some v => cases hk; cases hs; exact init_intro (k := { k with psi := some v }) ⟨hc, h1, h2, h3, h4, h5⟩
  | setPol v =>
    have hp : k.psi = none := by
      by_contra hp
      simp [Spec.override, hp] at hk
    simp only [Spec.override, hp, Option.isNone_none, if_true] at hk
    obtain ⟨w', rfl, h1'⟩ := setPol_form (ofs hs)
    cases hk
    have := init_intro (k := { k with pol := v }) ⟨hc, h1', h2, h3, h4, h5⟩
    simp only [built, hp] at this ⊢
    exact this
  | setFto v =>
    cases hk
    obtain ⟨x, rfl, h2'⟩ := setFto_form (ofs hs)
    exact init_intro (k := { k with fto := v }) ⟨hc, h1, h2', h3, h4, h5⟩
  | setPeriod v =>
    cases hk
    obtain ⟨x, rfl, h3'⟩ := setPeriod_form (ofs hs)
    exact init_intro (k := { k with period := v }) ⟨hc, h1, h2, h3', h4, h5⟩
  | setThickness v =>
    cases hk
    obtain ⟨x, rfl, h4'⟩ := setThickness_form (ofs hs)
    exact init_intro (k := { k with thickness := v }) ⟨hc, h1, h2, h3, h4', h5⟩
  | setUcell v =>
    cases v with
    | raster u =>
      cases hk; cases hs
      exact init_intro (k := { k with ucell := .raster u }) ⟨hc, h1, h2, h3, h4, fun _ _ _ => rfl⟩
    | vector u =>
      cases hk; cases hs
      exact init_intro (k := { k with ucell := .vector u }) ⟨hc, h1, h2, h3, h4, fun _ _ _ => rfl⟩
    | badDtype => cases hk
    | none => cases hk
    | other => cases hk
  | _ => cases hk

theorem init_overrides {env : Env} : ∀ {ops : List Op} {k k' : Kwargs} {o o' : Obj}, init k = .ok o →
    Spec.overrides ops k = some k' → setAttrs env o ops = (o', .ok ()) → init k' = .ok o'
  | [], k, k', o, o', h, hk, hs => by
    cases hk; cases hs; exact h
  | op :: ops, k, k', o, o', h, hk, hs => by
    simp only [Spec.overrides] at hk
    obtain ⟨k1, h1, h2⟩ := Option.bind_eq_some_iff.mp hk
    unfold setAttrs at hs
    split at hs
    · cases hs
    · rename_i q out hne hq
      refine init_overrides (init_override h h1 hq ?_) h2 hs
      rintro e rfl
      exact hne _ rfl

end Jax

end Meent
