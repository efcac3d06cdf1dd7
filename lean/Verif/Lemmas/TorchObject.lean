import Verif.Spec.TorchObject
import Verif.Lemmas.Object

/-!
# The PyTorch solver object (helper lemmas)
-/

set_option linter.unusedSimpArgs false
set_option linter.unusedVariables false

namespace Meent.TObj

/-- What `conv_solve` reads: everything except the grating type and the stored solution. -/
def core (o : TObj) : TObj := { o with grating := none, stored := .nothing }

theorem core_core (o : TObj) : o.core.core = o.core := rfl

/-- `conv_solve` does not read the grating type, the stored solution, the device or the perturbation. -/
theorem convSolve_congr (la : LinAlg) (o : TObj) (g : Option ℕ) (st : Stored) (pt : ℂ) :
    (convSolve la { o with grating := g, stored := st, perturbation := pt }).2 = (convSolve la o).2 := by
  have h1 : struct { o with grating := g, stored := st, perturbation := pt } = o.struct := rfl
  have h2 : orders { o with grating := g, stored := st, perturbation := pt } = o.orders := rfl
  have h3 : ready { o with grating := g, stored := st, perturbation := pt } = o.ready := rfl
  unfold convSolve
  rw [h1, h2, h3]
  rcases hu : o.struct with e | u
  · rfl
  rcases ho : o.orders with e | ⟨fx, fy⟩
  · rfl
  dsimp only
  have h4 : tConvMats la (settings { o with grating := g, stored := st, perturbation := pt } u fx fy)
    = tConvMats la (o.settings u fx fy) := rfl
  rcases hc : tConvMats la (o.settings u fx fy) with e | convs
  · rw [hc] at h4; rw [h4]
  · rw [hc] at h4; rw [h4]
    dsimp only
    rcases hr : o.ready with e | _
    · rfl
    · dsimp only
      have h5 : tSolve_for_conv la (settings { o with grating := g, stored := st, perturbation := pt } u fx fy)
        o.wavelength convs = tSolve_for_conv la (o.settings u fx fy) o.wavelength convs := rfl
      rcases hx : tSolve_for_conv la (o.settings u fx fy) o.wavelength convs with e | sol
      · rw [hx] at h5; rw [h5]
      · rw [hx] at h5; rw [h5]; rfl

theorem convSolve_core (la : LinAlg) (o : TObj) : (convSolve la o.core).2 = (convSolve la o).2 :=
  convSolve_congr la o none .nothing o.perturbation

theorem convSolve_of_core (la : LinAlg) {a b : TObj} (h : a.core = b.core) : (convSolve la a).2 = (convSolve la b).2 := by
  rw [← convSolve_core, h, convSolve_core]

theorem convSolve_frame (la : LinAlg) (o : TObj) : (convSolve la o).1.core = o.core := by
  unfold convSolve
  split
  · rfl
  · rfl
  · dsimp only
    split
    · rfl
    · split
      · rfl
      · split <;> rfl

/-- An assignment other than of the grating type acts on the core. -/
theorem setattr_core (o : TObj) (a : Assign) (ha : ∀ v, a ≠ .grating_type v) :
    setattr o.core a = ((setattr o a).1.core, (setattr o a).2) := by
  cases a with
  | grating_type v => exact absurd rfl (ha v)
  | device v =>
    cases v with
    | num x =>
      simp only [setattr, setDevice]
      by_cases h0 : x = 0
      · simp only [if_pos h0]; rfl
      · simp only [if_neg h0]
        by_cases h1 : x = 1
        · simp only [if_pos h1]; rfl
        · simp only [if_neg h1]
    | _ => rfl
  | theta v => cases v <;> rfl
  | psi v => cases v <;> rfl
  | pol v =>
    simp only [setattr, setPol]
    by_cases h : ¬(0 ≤ v ∧ v ≤ 1)
    · simp only [if_pos h]
    · simp only [if_neg h]; rfl
  | fto v => simp only [setattr]; unfold setFto; split <;> rfl
  | period v => simp only [setattr]; unfold setPeriod; split <;> rfl
  | thickness v => cases v <;> rfl
  | ucell v => cases v <;> rfl
  | type_complex v =>
    cases v with
    | unsupported => rfl
    | supported =>
      have h1 : (setTheta o.core.theta o.core).1 = (setTheta o.theta o).1.core := by
        show (setTheta o.theta o.core).1 = _
        cases o.theta <;> rfl
      simp only [setattr, setTypeComplex, h1]
      generalize (setTheta o.theta o).1 = q
      have h2 : setFto q.core.fto.read q.core = ((setFto q.fto.read q).1.core, (setFto q.fto.read q).2) := by
        show setFto q.fto.read q.core = _
        generalize q.fto.read = v
        unfold setFto; split <;> rfl
      rw [h2]
      dsimp only
      generalize setFto q.fto.read q = r
      rcases r with ⟨r, e | ⟨⟩⟩
      · rfl
      · dsimp only
        show setThickness r.thickness.read r.core = _
        generalize r.thickness.read = v
        cases v <;> rfl
  | _ => rfl

/-! ### Keyword arguments -/

theorem setTheta_form (v : Option ℂ) (o : TObj) :
    setTheta v o = ({ o with theta := v.map fun t => if t = 0 then o.perturbation else t }, .ok ()) := by
  cases v <;> rfl

theorem setFto_form {v : Arg} {o o' : TObj} (h : setFto v o = (o', .ok ())) :
    ∃ x, o' = { o with fto := x } ∧ ∀ q, setFto v q = ({ q with fto := x }, .ok ()) := by
  unfold setFto at h
  split at h <;> cases h <;> exact ⟨_, rfl, fun _ => rfl⟩

theorem setPeriod_form {v : Arg} {o o' : TObj} (h : setPeriod v o = (o', .ok ())) :
    ∃ x, o' = { o with period := x } ∧ ∀ q, setPeriod v q = ({ q with period := x }, .ok ()) := by
  match v with
  | .scalar v => cases h; exact ⟨_, rfl, fun _ => rfl⟩
  | .seq [] => cases h; exact ⟨_, rfl, fun _ => rfl⟩
  | .seq [a] => cases h; exact ⟨_, rfl, fun _ => rfl⟩
  | .seq (a :: b :: l) => cases h; exact ⟨_, rfl, fun _ => rfl⟩
  | .arr [] => cases h; exact ⟨_, rfl, fun _ => rfl⟩
  | .arr [a] => cases h; exact ⟨_, rfl, fun _ => rfl⟩
  | .arr (a :: b :: l) => cases h; exact ⟨_, rfl, fun _ => rfl⟩
  | .arr0 _ => cases h
  | .other => cases h

theorem setThickness_form {v : Arg} {o o' : TObj} (h : setThickness v o = (o', .ok ())) :
    ∃ x, o' = { o with thickness := x } ∧ ∀ q, setThickness v q = ({ q with thickness := x }, .ok ()) := by
  cases v <;> cases h <;> exact ⟨_, rfl, fun _ => rfl⟩

theorem setPol_form {v : ℝ} {o o' : TObj} (h : setPol v o = (o', .ok ())) :
    o' = { o with pol := v, psi := Real.pi / 2 * (1 - v) } ∧
      ∀ q, setPol v q = ({ q with pol := v, psi := Real.pi / 2 * (1 - v) }, .ok ()) := by
  unfold setPol at h ⊢
  by_cases hw : ¬(0 ≤ v ∧ v ≤ 1)
  · rw [if_pos hw] at h; cases h
  · rw [if_neg hw] at h; cases h; exact ⟨rfl, fun _ => if_neg hw⟩

theorem setDevice_form {v : DeviceArg} {o o' : TObj} (h : setDevice v o = (o', .ok ())) :
    ∃ d, o' = { o with device := d } ∧ readDevice v = .ok d ∧ ∀ q, setDevice v q = ({ q with device := d }, .ok ()) := by
  cases v with
  | num x =>
    simp only [setDevice, readDevice] at h ⊢
    by_cases h0 : x = 0
    · simp only [if_pos h0] at h ⊢; cases h; exact ⟨_, rfl, rfl, fun _ => rfl⟩
    · simp only [if_neg h0] at h ⊢
      by_cases h1 : x = 1
      · simp only [if_pos h1] at h ⊢; cases h; exact ⟨_, rfl, rfl, fun _ => rfl⟩
      · simp only [if_neg h1] at h; cases h
  | dev d => cases h; exact ⟨_, rfl, rfl, fun _ => rfl⟩
  | str s => cases h
  | other => cases h

theorem setUcell_form {v : TUcellArg} {o o' : TObj} (h : setUcell v o = (o', .ok ())) :
    ∃ x y, ∀ q : TObj, q.ucell = none → q.modeling = none → setUcell v q = ({ q with ucell := x, modeling := y }, .ok ()) := by
  cases v <;> cases h
  · exact ⟨_, _, fun _ _ _ => rfl⟩
  · exact ⟨_, _, fun _ _ _ => rfl⟩
  · exact ⟨_, _, fun _ _ _ => rfl⟩
  · exact ⟨_, _, fun _ _ _ => rfl⟩
  · exact ⟨none, none, fun q _ h => by simp [setUcell, ← h]⟩

/-- The core of the object constructed from `k`, given the values the setters compute. -/
noncomputable def built (k : Kwargs) (d : String) (f : FtoVal) (p : PeriodVal) (t : ThickVal) (u : Option TStructure)
    (m : Option Modeling) : TObj where
  device := d
  n_top := k.n_top
  n_bot := k.n_bot
  theta := k.theta.map fun t => if t = 0 then k.perturbation else t
  phi := k.phi
  psi := match k.psi with
    | none => Real.pi / 2 * (1 - k.pol)
    | some v => v
  pol := match k.psi with
    | none => k.pol
    | some v => -(2 * v / Real.pi - 1)
  fto := f
  period := p
  wavelength := k.wavelength
  thickness := t
  algo := k.algo
  perturbation := k.perturbation
  use_pinv := k.use_pinv
  fourier_type := k.fourier_type
  enhanced_dfs := k.enhanced_dfs
  ucell := u
  modeling := m
  grating := none
  stored := .nothing

/-- The values the setters compute. -/
structure Computes (k : Kwargs) (d : String) (f : FtoVal) (p : PeriodVal) (t : ThickVal) (u : Option TStructure)
    (m : Option Modeling) : Prop where
  hc : k.type_complex = .supported
  hd : readDevice k.device = .ok d
  hd' : ∀ q, setDevice k.device q = ({ q with device := d }, .ok ())
  h1 : ∀ q, setPol k.pol q = ({ q with pol := k.pol, psi := Real.pi / 2 * (1 - k.pol) }, .ok ())
  h2 : ∀ q, setFto k.fto q = ({ q with fto := f }, .ok ())
  hp : ∃ v, k.period = some v ∧ ∀ q, setPeriod v q = ({ q with period := p }, .ok ())
  h4 : ∀ q, setThickness k.thickness q = ({ q with thickness := t }, .ok ())
  h5 : ∀ q : TObj, q.ucell = none → q.modeling = none → setUcell k.ucell q = ({ q with ucell := u, modeling := m }, .ok ())

theorem andThen_ok {r : TObj × Res Unit} {f : TObj → Res TObj} {o : TObj} :
    andThen r f = .ok o ↔ r.2 = .ok () ∧ f r.1 = .ok o := by
  unfold andThen
  rcases r with ⟨q, e | ⟨⟩⟩
  · simp
  · simp

theorem assign_core (o : TObj) : ∃ g, assignGratingType o = { o with grating := g } := by
  unfold assignGratingType
  split
  · split
    · exact ⟨_, rfl⟩
    · exact ⟨_, rfl⟩
  · exact ⟨_, rfl⟩

theorem init_intro {k : Kwargs} {d : String} {f : FtoVal} {p : PeriodVal} {t : ThickVal} {u : Option TStructure}
    {m : Option Modeling} (h : Computes k d f p t u m) : ∃ o, init k = .ok o ∧ o.core = built k d f p t u m := by
  obtain ⟨hc, hd, hd', h1, h2, ⟨v, hv, hp⟩, h4, h5⟩ := h
  unfold init initRCWA andThen
  rw [hc, hd, hv]
  cases hk : k.psi <;> simp only [Option.getD_some, hd', setTheta_form, setPhi, setPsi, h1, h2, hp, h4, h5, blank]
  · obtain ⟨g, hg⟩ := assign_core _
    refine ⟨_, rfl, ?_⟩
    rw [hg]
    simp only [core, built, hk]
  · obtain ⟨g, hg⟩ := assign_core _
    refine ⟨_, rfl, ?_⟩
    rw [hg]
    simp only [core, built, hk]

theorem init_form {k : Kwargs} {o : TObj} (h : init k = .ok o) : ∃ d f p t u m, Computes k d f p t u m ∧
    o.core = built k d f p t u m := by
  obtain ⟨d, f, p, t, u, m, hC⟩ : ∃ d f p t u m, Computes k d f p t u m := by
    have h' := h
    unfold init at h'
    split at h'
    · cases h'
    · cases h'
    rename_i d hd hc
    rw [andThen_ok, andThen_ok] at h'
    obtain ⟨e0, e1, e2⟩ := h'
    obtain ⟨d', -, hd2, hd3⟩ := setDevice_form (Prod.ext rfl e0)
    obtain rfl : d' = d := by rw [hd] at hd2; cases hd2; rfl
    obtain ⟨v, hv⟩ : ∃ v, k.period = some v := by
      cases hk : k.period with
      | none => rw [hk] at e1; cases e1
      | some v => exact ⟨v, rfl⟩
    rw [hv] at e1
    obtain ⟨p, -, hp⟩ := setPeriod_form (v := v) (Prod.ext rfl e1)
    unfold initRCWA at e2
    rw [hc, hd] at e2
    simp only [andThen_ok] at e2
    obtain ⟨-, -, e3, -, e4, -, e5, e6, -⟩ := e2
    obtain ⟨-, h1⟩ := setPol_form (Prod.ext rfl e3)
    obtain ⟨f, -, h2⟩ := setFto_form (Prod.ext rfl e4)
    obtain ⟨t, -, h4⟩ := setThickness_form (Prod.ext rfl e5)
    obtain ⟨u, m, h5⟩ := setUcell_form (Prod.ext rfl e6)
    exact ⟨d', f, p, t, u, m, hc, hd, hd3, h1, h2, ⟨v, hv, hp⟩, h4, h5⟩
  refine ⟨d, f, p, t, u, m, hC, ?_⟩
  obtain ⟨o', h1, h2⟩ := init_intro hC
  rw [h] at h1
  cases h1
  exact h2

/-- One keyword argument that is accepted: the object is the one constructed with the argument replaced, up to the grating type
and the stored solution. -/
theorem init_override {k k' : Kwargs} {o0 o o' : TObj} {a : Assign} (h : init k = .ok o0) (ho : o0.core = o.core)
    (hk : Spec.torchOverride a k = some k') (hs : setattr o a = (o', .ok ())) : ∃ o1, init k' = .ok o1 ∧ o1.core = o'.core := by
  obtain ⟨d, f, p, t, u, m, ⟨hc, hd, hd', h1, h2, hp, h4, h5⟩, hb⟩ := init_form h
  have hg : ∀ v, a ≠ .grating_type v := by rintro v rfl; cases hk
  have hs' : setattr (built k d f p t u m) a = (o'.core, .ok ()) := by
    rw [← hb, ho, setattr_core o a hg, hs]
  cases a with
  | device v =>
    cases hk
    obtain ⟨d', e, hd1, hd2⟩ := setDevice_form (o := built k d f p t u m) hs'
    rw [e]
    exact init_intro (k := { k with device := v }) ⟨hc, hd1, hd2, h1, h2, hp, h4, h5⟩
  | n_top v => cases hk; obtain ⟨e, -⟩ := Prod.mk.inj hs'; rw [← e]; exact init_intro ⟨hc, hd, hd', h1, h2, hp, h4, h5⟩
  | n_bot v => cases hk; obtain ⟨e, -⟩ := Prod.mk.inj hs'; rw [← e]; exact init_intro ⟨hc, hd, hd', h1, h2, hp, h4, h5⟩
  | wavelength v => cases hk; obtain ⟨e, -⟩ := Prod.mk.inj hs'; rw [← e]; exact init_intro ⟨hc, hd, hd', h1, h2, hp, h4, h5⟩
  | algo v => cases hk; obtain ⟨e, -⟩ := Prod.mk.inj hs'; rw [← e]; exact init_intro ⟨hc, hd, hd', h1, h2, hp, h4, h5⟩
  | use_pinv v => cases hk; obtain ⟨e, -⟩ := Prod.mk.inj hs'; rw [← e]; exact init_intro ⟨hc, hd, hd', h1, h2, hp, h4, h5⟩
  | fourier_type v => cases hk; obtain ⟨e, -⟩ := Prod.mk.inj hs'; rw [← e]; exact init_intro ⟨hc, hd, hd', h1, h2, hp, h4, h5⟩
  | enhanced_dfs v => cases hk; obtain ⟨e, -⟩ := Prod.mk.inj hs'; rw [← e]; exact init_intro ⟨hc, hd, hd', h1, h2, hp, h4, h5⟩
  | phi v => cases hk; obtain ⟨e, -⟩ := Prod.mk.inj hs'; rw [← e]; exact init_intro ⟨hc, hd, hd', h1, h2, hp, h4, h5⟩
  | theta v =>
    cases hk
    simp only [setattr, setTheta_form] at hs'
    obtain ⟨e, -⟩ := Prod.mk.inj hs'; rw [← e]
    exact init_intro (k := { k with theta := v }) ⟨hc, hd, hd', h1, h2, hp, h4, h5⟩
  | psi v =>
    cases v with
    | none => cases hk
    | some v =>
      cases hk
      obtain ⟨e, -⟩ := Prod.mk.inj hs'; rw [← e]
      exact init_intro (k := { k with psi := some v }) ⟨hc, hd, hd', h1, h2, hp, h4, h5⟩
  | pol v =>
    have hps : k.psi = none := by
      by_contra hp
      simp [Spec.torchOverride, hp] at hk
    have hk' : k' = { k with pol := v } := by
      unfold Spec.torchOverride at hk
      dsimp only at hk
      rw [if_pos (by rw [hps]; rfl)] at hk
      exact (Option.some.inj hk).symm
    subst hk'
    obtain ⟨e, h1'⟩ := setPol_form (o := built k d f p t u m) hs'
    rw [e]
    obtain ⟨o1, i1, i2⟩ := init_intro (k := { k with pol := v }) ⟨hc, hd, hd', h1', h2, hp, h4, h5⟩
    refine ⟨o1, i1, i2.trans ?_⟩
    simp only [built, hps]
  | fto v =>
    cases hk
    obtain ⟨x, e, h2'⟩ := setFto_form (o := built k d f p t u m) hs'
    rw [e]
    exact init_intro (k := { k with fto := v }) ⟨hc, hd, hd', h1, h2', hp, h4, h5⟩
  | period v =>
    cases hk
    obtain ⟨x, e, h3'⟩ := setPeriod_form (o := built k d f p t u m) hs'
    rw [e]
    exact init_intro (k := { k with period := some v }) ⟨hc, hd, hd', h1, h2, ⟨v, rfl, h3'⟩, h4, h5⟩
  | thickness v =>
    cases hk
    obtain ⟨x, e, h4'⟩ := setThickness_form (o := built k d f p t u m) hs'
    rw [e]
    exact init_intro (k := { k with thickness := v }) ⟨hc, hd, hd', h1, h2, hp, h4', h5⟩
  | ucell v =>
    cases v with
    | raster w =>
      cases hk; obtain ⟨e, -⟩ := Prod.mk.inj hs'; rw [← e]
      exact init_intro (k := { k with ucell := .raster w }) ⟨hc, hd, hd', h1, h2, hp, h4, fun _ _ _ => rfl⟩
    | aniso w =>
      cases hk; obtain ⟨e, -⟩ := Prod.mk.inj hs'; rw [← e]
      exact init_intro (k := { k with ucell := .aniso w }) ⟨hc, hd, hd', h1, h2, hp, h4, fun _ _ _ => rfl⟩
    | vector w =>
      cases hk; obtain ⟨e, -⟩ := Prod.mk.inj hs'; rw [← e]
      exact init_intro (k := { k with ucell := .vector w }) ⟨hc, hd, hd', h1, h2, hp, h4, fun _ _ _ => rfl⟩
    | avector w =>
      cases hk; obtain ⟨e, -⟩ := Prod.mk.inj hs'; rw [← e]
      exact init_intro (k := { k with ucell := .avector w }) ⟨hc, hd, hd', h1, h2, hp, h4, fun _ _ _ => rfl⟩
    | badShape => cases hk
    | badDtype => cases hk
    | none => cases hk
    | other => cases hk
  | perturbation v => cases hk
  | type_complex v => cases hk
  | grating_type v => cases hk

theorem init_overrides : ∀ {as : List Assign} {k k' : Kwargs} {o0 o o' : TObj}, init k = .ok o0 → o0.core = o.core →
    Spec.torchOverrides as k = some k' → setattrs o as = (o', .ok ()) → ∃ o1, init k' = .ok o1 ∧ o1.core = o'.core
  | [], k, k', o0, o, o', h, ho, hk, hs => by
    cases hk; cases hs; exact ⟨o0, h, ho⟩
  | a :: as, k, k', o0, o, o', h, ho, hk, hs => by
    simp only [Spec.torchOverrides] at hk
    obtain ⟨k1, h1, h2⟩ := Option.bind_eq_some_iff.mp hk
    unfold setattrs at hs
    rcases hq : setattr o a with ⟨q, e | ⟨⟩⟩
    · rw [hq] at hs; cases hs
    · rw [hq] at hs
      obtain ⟨o1, i1, i2⟩ := init_override h ho h1 hq
      exact init_overrides i1 i2 h2 hs

/-! ### Histories -/

/-- `ucell` and the modeling type agree. -/
def Consistent (o : TObj) : Prop :=
  match o.ucell with
  | none => True
  | some (.iso (.raster _)) => o.modeling = some .raster
  | some (.aniso _) => o.modeling = some .raster
  | some (.iso (.vector _)) => o.modeling = some .vector
  | some (.avector _) => o.modeling = some .vector

theorem setattr_consistent {o : TObj} (a : Assign) (ha : ¬ Spec.RejectedUcell a) (h : o.Consistent) : (setattr o a).1.Consistent := by
  have key : ∀ q : TObj, q.ucell = o.ucell → q.modeling = o.modeling → q.Consistent := by
    intro q h1 h2
    unfold Consistent
    rw [h1, h2]
    exact h
  cases a with
  | ucell v =>
    cases v with
    | raster u => exact rfl
    | aniso u => exact rfl
    | vector ls => exact rfl
    | avector ls => exact rfl
    | none => exact trivial
    | other => exact h
    | badShape => exact absurd trivial ha
    | badDtype => exact absurd trivial ha
  | device v =>
    simp only [setattr]
    refine key _ ?_ ?_ <;> unfold setDevice <;> split <;> try rfl
    all_goals split_ifs <;> rfl
  | theta v => cases v <;> exact key _ rfl rfl
  | psi v => cases v <;> exact key _ rfl rfl
  | pol v => simp only [setattr, setPol]; split_ifs <;> exact key _ rfl rfl
  | fto v => simp only [setattr]; unfold setFto; split <;> exact key _ rfl rfl
  | period v => simp only [setattr]; unfold setPeriod; split <;> exact key _ rfl rfl
  | thickness v => cases v <;> exact key _ rfl rfl
  | type_complex v =>
    cases v with
    | unsupported => exact h
    | supported =>
      simp only [setattr, setTypeComplex]
      have h1 : ∃ x, (setTheta o.theta o).1 = { o with theta := x } := by cases o.theta <;> exact ⟨_, rfl⟩
      obtain ⟨x, hx⟩ := h1
      rw [hx]
      have h2 : ∀ v q, ∃ y, (setFto v q).1 = { q with fto := y } := by
        intro v q; unfold setFto; split <;> exact ⟨_, rfl⟩
      obtain ⟨y, hy⟩ := h2 o.fto.read { o with theta := x }
      rcases hr : setFto o.fto.read { o with theta := x } with ⟨r, e | ⟨⟩⟩
      · rw [hr] at hy
        dsimp only at hy ⊢
        rw [hy]; exact key _ rfl rfl
      · rw [hr] at hy
        dsimp only at hy ⊢
        rw [hy]
        generalize ThickVal.read _ = v
        cases v <;> exact key _ rfl rfl
  | n_top v => exact key _ rfl rfl
  | n_bot v => exact key _ rfl rfl
  | phi v => exact key _ rfl rfl
  | wavelength v => exact key _ rfl rfl
  | algo v => exact key _ rfl rfl
  | perturbation v => exact key _ rfl rfl
  | use_pinv v => exact key _ rfl rfl
  | fourier_type v => exact key _ rfl rfl
  | enhanced_dfs v => exact key _ rfl rfl
  | grating_type v => exact key _ rfl rfl

theorem setattrs_consistent : ∀ {as : List Assign} {o : TObj}, (∀ a ∈ as, ¬ Spec.RejectedUcell a) → o.Consistent →
    (setattrs o as).1.Consistent
  | [], o, _, h => h
  | a :: as, o, ha, h => by
    have h1 := setattr_consistent a (ha a List.mem_cons_self) h
    unfold setattrs
    rcases hq : setattr o a with ⟨q, e | ⟨⟩⟩
    · rw [hq] at h1; exact h1
    · rw [hq] at h1
      exact setattrs_consistent (fun b hb => ha b (List.mem_cons_of_mem _ hb)) h1

theorem consistent_core {o : TObj} : o.core.Consistent ↔ o.Consistent := Iff.rfl

theorem convSolve_consistent {la : LinAlg} {o : TObj} (h : o.Consistent) : (convSolve la o).1.Consistent := by
  rw [← consistent_core, convSolve_frame, consistent_core]
  exact h

theorem convSolveKw_consistent {la : LinAlg} {o : TObj} {kws : List Assign} (ha : ∀ a ∈ kws, ¬ Spec.RejectedUcell a)
    (h : o.Consistent) : (convSolveKw la o kws).1.Consistent := by
  have h1 := setattrs_consistent ha h
  unfold convSolveKw
  rcases hq : setattrs o kws with ⟨q, e | ⟨⟩⟩
  · rw [hq] at h1; exact h1
  · rw [hq] at h1; exact convSolve_consistent h1

theorem convSolveField_fst (la : LinAlg) (o : TObj) (rx ry rz : ℕ) (sel : Bool × Bool × Bool) (kws : List Assign) :
    (convSolveField la o rx ry rz sel kws).1 = (convSolveKw la o kws).1 := by
  unfold convSolveField convSolveKw
  rcases hq : setattrs o kws with ⟨q, e | ⟨⟩⟩
  · rfl
  · dsimp only
    rcases hr : convSolve la q with ⟨r, e | x⟩
    · rfl
    · dsimp only
      split <;> rfl

theorem step_consistent {la : LinAlg} {o : TObj} {op : Op} (ha : ∀ a ∈ Spec.assignments op, ¬ Spec.RejectedUcell a)
    (h : o.Consistent) : (step la o op).Consistent := by
  cases op with
  | assign a => exact setattr_consistent a (ha a (List.mem_singleton.mpr rfl)) h
  | convSolve kws => exact convSolveKw_consistent ha h
  | calculateField _ _ _ _ => exact h
  | convSolveField rx ry rz sel kws =>
    show (convSolveField la o rx ry rz sel kws).1.Consistent
    rw [convSolveField_fst]
    exact convSolveKw_consistent ha h

theorem run_consistent {la : LinAlg} : ∀ {ops : List Op} {o : TObj}, Spec.TorchNoRejected ops → o.Consistent → (run la o ops).Consistent
  | [], o, _, h => h
  | op :: ops, o, hn, h => by
    show (run la (step la o op) ops).Consistent
    exact run_consistent (fun q hq => hn q (List.mem_cons_of_mem _ hq)) (step_consistent (hn op List.mem_cons_self) h)

theorem init_consistent {k : Kwargs} {o : TObj} (h : init k = .ok o) : o.Consistent := by
  obtain ⟨d, f, p, t, u, m, hC, hb⟩ := init_form h
  rw [← consistent_core, hb]
  have h5 := hC.h5 blank rfl rfl
  cases hk : k.ucell <;> rw [hk] at h5 <;> obtain ⟨e, e'⟩ := Prod.mk.inj h5 <;> try cases e'
  all_goals
    have e1 := congrArg TObj.ucell e
    have e2 := congrArg TObj.modeling e
    dsimp only [blank] at e1 e2
    subst e1 e2
    first | rfl | trivial

theorem consistent_of_history {la : LinAlg} {k : Kwargs} {ops : List Op} {o : TObj} (hh : Spec.TorchHistory la k ops o)
    (hn : Spec.TorchNoRejected ops) : o.Consistent := by
  obtain ⟨o0, h0, rfl⟩ := hh
  exact run_consistent hn (init_consistent h0)

theorem run_core {la : LinAlg} : ∀ {ops : List Op} {o : TObj}, Spec.SolvesOnly ops → (run la o ops).core = o.core
  | [], o, _ => rfl
  | op :: ops, o, h => by
    show (run la (step la o op) ops).core = o.core
    rw [run_core (fun q hq => h q (List.mem_cons_of_mem _ hq))]
    obtain ⟨h1, h2⟩ := h op List.mem_cons_self
    cases op with
    | assign a => exact absurd rfl (h2 a)
    | convSolve kws => obtain rfl : kws = [] := h1; exact convSolve_frame la o
    | calculateField _ _ _ _ => rfl
    | convSolveField rx ry rz sel kws =>
      obtain rfl : kws = [] := h1
      show (convSolveField la o rx ry rz sel []).1.core = o.core
      rw [convSolveField_fst]
      exact convSolve_frame la o

/-! ### Solves -/

theorem struct_ok {o : TObj} {u : TStructure} (h : o.struct = .ok u) : o.ucell = some u := by
  unfold struct at h
  split at h
  · cases h
  · split at h
    · split at h <;> cases h <;> assumption
    · cases h
  · split at h <;> cases h; assumption
  · split at h <;> cases h; assumption
  · cases h

theorem ready_ok {o : TObj} (h : o.ready = .ok ()) : ∃ θ a b rest l, o.theta = some θ ∧ o.period = .list (a :: b :: rest) ∧ o.thickness = .list l := by
  unfold ready anglesReady at h
  rcases ht : o.theta with _ | θ
  · rw [ht] at h; cases h
  · rw [ht] at h
    dsimp only at h
    unfold periods at h
    rcases hp : o.period with (_ | ⟨a, _ | ⟨b, rest⟩⟩) | x
    · rw [hp] at h; cases h
    · rw [hp] at h; cases h
    · rcases hl : o.thickness with l | x
      · exact ⟨θ, a, b, rest, l, rfl, rfl, rfl⟩
      · rw [hp, hl] at h; cases h
    · rw [hp] at h; cases h

theorem reads_settings {o : TObj} {u : TStructure} {fx fy : ℕ} (hu : o.struct = .ok u) (ho : o.orders = .ok (fx, fy))
    (hr : o.ready = .ok ()) : Spec.TorchReads o (o.settings u fx fy) := by
  obtain ⟨θ, a, b, rest, l, h1, h2, h3⟩ := ready_ok hr
  constructor <;> simp [settings, params, periods, h1, h2, h3, struct_ok hu, ho]

theorem convSolve_ok {la : LinAlg} {o o' : TObj} {r : AnyResult} (h : convSolve la o = (o', .ok r)) :
    ∃ u fx fy, ∃ sol : Solved fx fy, o.struct = .ok u ∧ o.orders = .ok (fx, fy) ∧ o.ready = .ok () ∧
      tConv_solve la (o.settings u fx fy) = .ok sol ∧
      o' = { o with grating := some (tGratingType (o.settings u fx fy)), stored := .solved fx fy sol } ∧ r = ⟨fx, fy, sol.result⟩ := by
  unfold convSolve at h
  rcases hu : o.struct with e | u
  · rw [hu] at h; cases h
  rcases ho : o.orders with e | ⟨fx, fy⟩
  · rw [hu, ho] at h; cases h
  rw [hu, ho] at h
  dsimp only at h
  rcases hc : tConvMats la (o.settings u fx fy) with e | cs
  · rw [hc] at h; cases h
  rw [hc] at h
  dsimp only at h
  rcases hr : o.ready with e | ⟨⟩
  · rw [hr] at h; cases h
  rw [hr] at h
  dsimp only at h
  rcases hs : tSolve_for_conv la (o.settings u fx fy) o.wavelength cs with e | sol
  · rw [hs] at h; cases h
  rw [hs] at h
  obtain ⟨rfl, h2⟩ := Prod.mk.inj h
  cases h2
  exact ⟨u, fx, fy, sol, rfl, rfl, rfl, Except.bind_ok.mpr ⟨cs, hc, hs⟩, rfl, rfl⟩

theorem convSolve_intro {la : LinAlg} {o : TObj} {u : TStructure} {fx fy : ℕ} {sol : Solved fx fy} (hu : o.struct = .ok u)
    (ho : o.orders = .ok (fx, fy)) (hr : o.ready = .ok ()) (hs : tConv_solve la (o.settings u fx fy) = .ok sol) :
    convSolve la o = ({ o with grating := some (tGratingType (o.settings u fx fy)), stored := .solved fx fy sol },
      .ok ⟨fx, fy, sol.result⟩) := by
  obtain ⟨cs, h1, h2⟩ := Except.bind_ok.mp hs
  have h2' : tSolve_for_conv la (o.settings u fx fy) o.wavelength cs = .ok sol := h2
  unfold convSolve
  rw [hu, ho]
  dsimp only
  rw [h1, hr]
  dsimp only
  rw [h2']
  rfl

theorem calculateField_intro {o : TObj} {fx fy : ℕ} {r : Solved fx fy} {rx ry rz : ℕ} {sel : Bool × Bool × Bool}
    {c : TFieldCell rx ry rz} (ha : o.anglesReady = .ok ()) (hs : o.stored = .solved fx fy r) (ho : o.orders = .ok (fx, fy))
    (hg : o.grating = some r.grating) (hc : tCalculate_field (o.params fx fy) r rx ry rz sel = .ok c) :
    calculateField o rx ry rz sel = .ok ⟨rx, ry, rz, c⟩ := by
  unfold calculateField
  rw [ha, hs]
  dsimp only
  rw [if_pos ⟨ho, hg⟩, hc]

end Meent.TObj
