import Verif.Spec.Script
import Verif.Lemmas.TorchObject
import Verif.Lemmas.JaxKwargs

/-!
# The same script on the three backends (helper lemmas)
-/

set_option linter.unusedSimpArgs false
set_option linter.unusedVariables false

namespace Meent

/-- Everything except the grating type and the stored solution. -/
def Obj.core (o : Obj) : Obj := { o with grating := none, stored := .nothing }

/-- The PyTorch object with the same attributes. -/
def Obj.toT (o : Obj) : TObj where
  device := "cpu"
  n_top := o.n_top
  n_bot := o.n_bot
  theta := o.theta
  phi := o.phi
  psi := o.psi
  pol := o.pol
  fto := o.fto
  period := .list o.period
  wavelength := o.wavelength
  thickness := o.thickness
  algo := o.algo
  perturbation := o.perturbation
  use_pinv := o.use_pinv
  fourier_type := o.fourier_type
  enhanced_dfs := o.enhanced_dfs
  ucell := o.ucell.map .iso
  modeling := o.modeling
  grating := none
  stored := .nothing

theorem same_of_core {o : Obj} {t : TObj} {d : String} (h : t.core = { o.toT with device := d }) : Spec.SameAttributes o t := by
  constructor
  · exact congrArg TObj.n_top h
  · exact congrArg TObj.n_bot h
  · exact congrArg TObj.theta h
  · exact congrArg TObj.phi h
  · exact congrArg TObj.psi h
  · exact congrArg TObj.pol h
  · exact congrArg TObj.fto h
  · exact congrArg TObj.period h
  · exact congrArg TObj.wavelength h
  · exact congrArg TObj.thickness h
  · exact congrArg TObj.algo h
  · exact congrArg TObj.perturbation h
  · exact congrArg TObj.use_pinv h
  · exact congrArg TObj.fourier_type h
  · exact congrArg TObj.enhanced_dfs h
  · exact congrArg TObj.ucell h
  · exact congrArg TObj.modeling h

theorem core_of_same {o : Obj} {t : TObj} (h : Spec.SameAttributes o t) : t.core = { o.toT with device := t.device } := by
  obtain ⟨h1, h2, h3, h4, h5, h6, h7, h8, h9, h10, h11, h12, h13, h14, h15, h16, h17⟩ := h
  rcases t with ⟨⟩
  dsimp only at h1 h2 h3 h4 h5 h6 h7 h8 h9 h10 h11 h12 h13 h14 h15 h16 h17
  subst h1 h2 h3 h4 h5 h6 h7 h8 h9 h10 h11 h12 h13 h14 h15 h16 h17
  rfl

/-! ### NumPy and PyTorch -/

theorem toT_core (o : Obj) : o.core.toT = o.toT := rfl

theorem torch_setFto (v : Arg) (o : Obj) (d : String) :
    TObj.setFto v { o.toT with device := d } = ({ (setFto v o).1.toT with device := d }, (setFto v o).2) := by
  match v with
  | .scalar v => rfl
  | .seq [] => rfl
  | .seq [a] => rfl
  | .seq [a, b] => rfl
  | .seq (a :: b :: c :: l) => rfl
  | .arr [] => rfl
  | .arr [a] => rfl
  | .arr [a, b] => rfl
  | .arr (a :: b :: c :: l) => rfl
  | .arr0 x => rfl
  | .other => rfl

theorem torch_setThickness (v : Arg) (o : Obj) (d : String) :
    TObj.setThickness v { o.toT with device := d } = ({ (setThickness v o).1.toT with device := d }, (setThickness v o).2) := by
  cases v <;> rfl

theorem torch_setTheta (v : Option ℂ) (o : Obj) (d : String) :
    TObj.setTheta v { o.toT with device := d } = ({ (setTheta v o).1.toT with device := d }, (setTheta v o).2) := by
  cases v <;> rfl

theorem torch_setPol (v : ℝ) (o : Obj) (d : String) :
    TObj.setPol v { o.toT with device := d } = ({ (setPol v o).1.toT with device := d }, (setPol v o).2) := by
  unfold setPol TObj.setPol
  by_cases h : ¬(0 ≤ v ∧ v ≤ 1)
  · rw [if_pos h, if_pos h]
  · rw [if_neg h, if_neg h]; rfl

theorem torch_setPsi (v : Option ℝ) (o : Obj) (d : String) :
    TObj.setPsi v { o.toT with device := d } = ({ (setPsi v o).1.toT with device := d }, (setPsi v o).2) := by
  cases v <;> rfl

theorem torch_setPeriod (v : Arg) (hv : ∀ x, v ≠ .arr0 x) (o : Obj) (d : String) :
    TObj.setPeriod v { o.toT with device := d } = ({ (setPeriod v o).1.toT with device := d }, (setPeriod v o).2) := by
  match v with
  | .scalar v => rfl
  | .seq [] => rfl
  | .seq [a] => rfl
  | .seq (a :: b :: l) => rfl
  | .arr [] => rfl
  | .arr [a] => rfl
  | .arr (a :: b :: l) => rfl
  | .arr0 x => exact absurd rfl (hv x)
  | .other => rfl

theorem torch_setUcell (v : UcellArg) (o : Obj) (d : String) :
    (TObj.setUcell (Spec.torchUcell v) { o.toT with device := d }).1 = { (setUcell v o).1.toT with device := d } := by
  cases v <;> rfl

theorem torch_setTypeComplex (v : TypeArg) (o : Obj) (d : String) :
    TObj.setTypeComplex v { o.toT with device := d } =
      ({ (setTypeComplex v o).1.toT with device := d }, (setTypeComplex v o).2) := by
  cases v with
  | unsupported => rfl
  | supported =>
    unfold setTypeComplex TObj.setTypeComplex
    dsimp only
    have e1 : TObj.setTheta ({ o.toT with device := d } : TObj).theta { o.toT with device := d } = _ := torch_setTheta o.theta o d
    rw [e1]
    dsimp only
    have e2 : TObj.setFto (FtoVal.read ({ (setTheta o.theta o).1.toT with device := d } : TObj).fto)
      { (setTheta o.theta o).1.toT with device := d } = _ := torch_setFto ((setTheta o.theta o).1.fto.read) (setTheta o.theta o).1 d
    rw [e2]
    rcases hr : setFto (setTheta o.theta o).1.fto.read (setTheta o.theta o).1 with ⟨r, e | ⟨⟩⟩
    · rfl
    · exact torch_setThickness r.thickness.read r d

/-- An assignment, on the NumPy object and on the PyTorch object with the same attributes. -/
theorem torch_step (la la' : LinAlg) (op : Op) (hp : Spec.Portable op) (o : Obj) (d : String) :
    (TObj.step la' { o.toT with device := d } (Spec.torchOp op)).core = { (step la o op).1.toT with device := d } := by
  have hs : ∀ (x : Obj × Res Unit), (Out.ofSetter x).1 = x.1 := by rintro ⟨q, e | ⟨⟩⟩ <;> rfl
  cases op with
  | setTheta v => simp only [step, hs]; exact congrArg (fun x => TObj.core (Prod.fst x)) (torch_setTheta v o d)
  | setPhi v => rfl
  | setPsi v => simp only [step, hs]; exact congrArg (fun x => TObj.core (Prod.fst x)) (torch_setPsi v o d)
  | setPol v => simp only [step, hs]; exact congrArg (fun x => TObj.core (Prod.fst x)) (torch_setPol v o d)
  | setFto v => simp only [step, hs]; exact congrArg (fun x => TObj.core (Prod.fst x)) (torch_setFto v o d)
  | setPeriod v =>
    simp only [step, hs]
    exact congrArg (fun x => TObj.core (Prod.fst x)) (torch_setPeriod v (by rintro x rfl; exact hp) o d)
  | setThickness v => simp only [step, hs]; exact congrArg (fun x => TObj.core (Prod.fst x)) (torch_setThickness v o d)
  | setTypeComplex v => simp only [step, hs]; exact congrArg (fun x => TObj.core (Prod.fst x)) (torch_setTypeComplex v o d)
  | setUcell v => simp only [step, hs]; exact congrArg TObj.core (torch_setUcell v o d)
  | setNTop v => rfl
  | setNBot v => rfl
  | setWavelength v => rfl
  | setAlgo v => rfl
  | setPerturbation v => rfl
  | setUsePinv v => rfl
  | setFourierType v => rfl
  | setEnhancedDfs v => rfl
  | setGratingType v => rfl
  | convSolve =>
    show (TObj.convSolve la' _).1.core = _
    rw [TObj.convSolve_frame]
    obtain ⟨g, st, h⟩ := convSolve_frame la o
    have : (step la o .convSolve).1 = (convSolve la o).1 := by
      unfold step; dsimp only
      rcases convSolve la o with ⟨q, e | r⟩ <;> rfl
    rw [this, h]
    rfl
  | calculateField rx ry rz sel =>
    have : (step la o (.calculateField rx ry rz sel)).1 = o := by
      unfold step; dsimp only
      split <;> rfl
    rw [this]
    rfl

/-- One operation acts on the core. -/
theorem TObj.step_core (la la' : LinAlg) (a b : TObj) (h : a.core = b.core) (op : Meent.Op) :
    (TObj.step la a (Spec.torchOp op)).core = (TObj.step la' b (Spec.torchOp op)).core := by
  have key : ∀ w : Assign, (setattr a w).1.core = (setattr b w).1.core := by
    intro w
    by_cases hg : ∃ v, w = .grating_type v
    · obtain ⟨v, rfl⟩ := hg
      exact h
    · push Not at hg
      have ha := congrArg Prod.fst (setattr_core a w hg)
      have hb := congrArg Prod.fst (setattr_core b w hg)
      rw [h] at ha
      exact ha.symm.trans hb
  cases op <;> first
    | exact key _
    | skip
  · show (convSolve la a).1.core = (convSolve la' b).1.core
    rw [TObj.convSolve_frame, TObj.convSolve_frame, h]
  · exact h

theorem torch_run (la la' : LinAlg) : ∀ (ops : List Op) (hp : ∀ op ∈ ops, Spec.Portable op) (o : Obj) (t : TObj) (d : String),
    t.core = { o.toT with device := d } → (TObj.run la' t (ops.map Spec.torchOp)).core = { (run la o ops).toT with device := d }
  | [], _, o, t, d, h => h
  | op :: ops, hp, o, t, d, h => by
    show (TObj.run la' (TObj.step la' t (Spec.torchOp op)) (ops.map Spec.torchOp)).core = { (run la (step la o op).1 ops).toT with device := d }
    refine torch_run la la' ops (fun q hq => hp q (List.mem_cons_of_mem _ hq)) _ _ d ?_
    rw [TObj.step_core la' la' t { o.toT with device := d } h, torch_step la la' op (hp op List.mem_cons_self)]

/-! ### NumPy and JAX -/

theorem Obj.step_core (la : LinAlg) (o : Obj) (op : Op) : (step la o.core op).1.core = (step la o op).1.core := by
  have hs : ∀ (x : Obj × Res Unit), (Out.ofSetter x).1 = x.1 := by rintro ⟨q, e | ⟨⟩⟩ <;> rfl
  have hc : ∀ q : Obj, (step la q .convSolve).1.core = q.core := by
    intro q
    obtain ⟨g, st, h⟩ := convSolve_frame la q
    have : (step la q .convSolve).1 = (convSolve la q).1 := by
      unfold step; dsimp only
      rcases convSolve la q with ⟨q, e | r⟩ <;> rfl
    rw [this, h]
    rfl
  have hf : ∀ (q : Obj) rx ry rz sel, (step la q (.calculateField rx ry rz sel)).1 = q := by
    intro q rx ry rz sel
    unfold step; dsimp only
    split <;> rfl
  cases op with
  | setTheta v => simp only [step, hs]; cases v <;> rfl
  | setPhi v => rfl
  | setPsi v => simp only [step, hs]; cases v <;> rfl
  | setPol v =>
    simp only [step, hs]
    unfold setPol
    by_cases h : ¬(0 ≤ v ∧ v ≤ 1)
    · rw [if_pos h, if_pos h]; rfl
    · rw [if_neg h, if_neg h]; rfl
  | setFto v =>
    simp only [step, hs]
    match v with
    | .scalar v => rfl
    | .seq [] => rfl
    | .seq [a] => rfl
    | .seq [a, b] => rfl
    | .seq (a :: b :: c :: l) => rfl
    | .arr [] => rfl
    | .arr [a] => rfl
    | .arr [a, b] => rfl
    | .arr (a :: b :: c :: l) => rfl
    | .arr0 x => rfl
    | .other => rfl
  | setPeriod v =>
    simp only [step, hs]
    match v with
    | .scalar v => rfl
    | .seq [] => rfl
    | .seq [a] => rfl
    | .seq [a, b] => rfl
    | .seq (a :: b :: c :: l) => rfl
    | .arr [] => rfl
    | .arr [a] => rfl
    | .arr [a, b] => rfl
    | .arr (a :: b :: c :: l) => rfl
    | .arr0 x => rfl
    | .other => rfl
  | setThickness v => simp only [step, hs]; cases v <;> rfl
  | setTypeComplex v =>
    simp only [step, hs]
    cases v with
    | unsupported => rfl
    | supported =>
      unfold setTypeComplex
      dsimp only
      have f1 : ∀ (v : Option ℂ) (q : Obj), setTheta v q.core = ((setTheta v q).1.core, (setTheta v q).2) := by
        intro v q; cases v <;> rfl
      have f2 : ∀ (v : Arg) (q : Obj), setFto v q.core = ((setFto v q).1.core, (setFto v q).2) := by
        intro v q
        match v with
        | .scalar v => rfl
        | .seq [] => rfl
        | .seq [a] => rfl
        | .seq [a, b] => rfl
        | .seq (a :: b :: c :: l) => rfl
        | .arr [] => rfl
        | .arr [a] => rfl
        | .arr [a, b] => rfl
        | .arr (a :: b :: c :: l) => rfl
        | .arr0 x => rfl
        | .other => rfl
      have f3 : ∀ (v : Arg) (q : Obj), setThickness v q.core = ((setThickness v q).1.core, (setThickness v q).2) := by
        intro v q; cases v <;> rfl
      have e1 : setTheta o.core.theta o.core = _ := f1 o.theta o
      rw [e1]
      dsimp only
      have e2 : setFto (setTheta o.theta o).1.core.fto.read (setTheta o.theta o).1.core = _ :=
        f2 (setTheta o.theta o).1.fto.read (setTheta o.theta o).1
      rw [e2]
      rcases hr : setFto (setTheta o.theta o).1.fto.read (setTheta o.theta o).1 with ⟨r, e | ⟨⟩⟩
      · rfl
      · show (setThickness r.thickness.read r.core).1.core = (setThickness r.thickness.read r).1.core
        rw [f3]
        rfl
  | setUcell v => simp only [step, hs]; cases v <;> rfl
  | setNTop v => rfl
  | setNBot v => rfl
  | setWavelength v => rfl
  | setAlgo v => rfl
  | setPerturbation v => rfl
  | setUsePinv v => rfl
  | setFourierType v => rfl
  | setEnhancedDfs v => rfl
  | setGratingType v => rfl
  | convSolve => rw [hc, hc]; rfl
  | calculateField rx ry rz sel => rw [hf, hf]; rfl

theorem jax_pol {v : ℝ} (hr : Spec.InRange (.setPol v)) : Jax.setPol v = setPol v := by
  obtain ⟨h1, h2⟩ := hr
  funext o
  unfold Jax.setPol setPol
  dsimp only
  have h2' : ¬(0 - 1 / 10 ^ 6 < v ∧ v < 0) := by rwa [zero_sub]
  simp only [if_neg h1, if_neg h2']

theorem jax_step (env : Jax.Env) (op : Op) (hr : Spec.InRange op) (o : Obj) :
    (Jax.step env o op).1.core = (step env.la o op).1.core := by
  have hs : ∀ (x : Obj × Res Unit), (Out.ofSetter x).1 = x.1 := by rintro ⟨q, e | ⟨⟩⟩ <;> rfl
  cases op with
  | setPol v => simp only [Jax.step, step, hs, jax_pol hr]
  | setUcell v => simp only [Jax.step, step, hs]; cases v <;> rfl
  | convSolve =>
    obtain ⟨g, st, h⟩ := convSolve_frame env.la o
    have h1 : (step env.la o .convSolve).1 = (convSolve env.la o).1 := by
      unfold step; dsimp only
      rcases convSolve env.la o with ⟨q, e | r⟩ <;> rfl
    have h2 : (Jax.step env o .convSolve).1 = (Jax.convSolve env o).1 := by
      unfold Jax.step; dsimp only
      rcases Jax.convSolve env o with ⟨q, e | r⟩ <;> rfl
    rw [h1, h2, h]
    unfold Jax.convSolve
    split
    · rfl
    · rfl
    · dsimp only
      split
      · rfl
      · split
        · rfl
        · split <;> rfl
  | _ => rfl

theorem jax_run (env : Jax.Env) : ∀ (ops : List Op) (hr : ∀ op ∈ ops, Spec.InRange op) (a b : Obj), a.core = b.core →
    (Jax.run env a ops).core = (run env.la b ops).core
  | [], _, a, b, h => h
  | op :: ops, hr, a, b, h => by
    show (Jax.run env (Jax.step env a op).1 ops).core = (run env.la (step env.la b op).1 ops).core
    refine jax_run env ops (fun q hq => hr q (List.mem_cons_of_mem _ hq)) _ _ ?_
    rw [jax_step env op (hr op List.mem_cons_self), ← Obj.step_core, h, Obj.step_core]

theorem sameJax_of_core {a b : Obj} (h : a.core = b.core) : Spec.SameAttributesJax a b := by
  constructor
  · exact (congrArg Obj.n_top h :)
  · exact (congrArg Obj.n_bot h :)
  · exact (congrArg Obj.theta h :)
  · exact (congrArg Obj.phi h :)
  · exact (congrArg Obj.psi h :)
  · exact (congrArg Obj.pol h :)
  · exact (congrArg Obj.fto h :)
  · exact (congrArg Obj.period h :)
  · exact (congrArg Obj.wavelength h :)
  · exact (congrArg Obj.thickness h :)
  · exact (congrArg Obj.algo h :)
  · exact (congrArg Obj.perturbation h :)
  · exact (congrArg Obj.use_pinv h :)
  · exact (congrArg Obj.fourier_type h :)
  · exact (congrArg Obj.enhanced_dfs h :)
  · exact (congrArg Obj.ucell h :)
  · exact (congrArg Obj.modeling h :)

/-! ### Constructors -/

theorem jax_init_eq {k : Kwargs} (hr : Spec.InRange (.setPol k.pol)) (hu : k.ucell ≠ .badDtype) : Jax.init k = init k := by
  unfold Jax.init init initFrom
  rw [jax_pol hr]
  have : Jax.setUcell k.ucell = setUcell k.ucell := by
    cases hk : k.ucell <;> first
      | rfl
      | exact absurd hk hu
  rw [this]
  rfl

theorem init_pol {k : Kwargs} {o : Obj} (h : init k = .ok o) : 0 ≤ k.pol ∧ k.pol ≤ 1 := by
  obtain ⟨a, b, c, d, e, f, g, e1, -⟩ := init_ok h
  by_contra hc
  unfold setPol at e1
  rw [if_pos hc] at e1
  cases e1

theorem init_ucell {k : Kwargs} {o : Obj} (h : init k = .ok o) : k.ucell ≠ .badDtype := by
  obtain ⟨a, b, c, d, e, f, g, -, -, -, -, -, e6, -⟩ := init_ok h
  intro hc
  rw [hc] at e6
  cases e6

theorem inRange_of {v : ℝ} (h : 0 ≤ v ∧ v ≤ 1) : Spec.InRange (.setPol v) :=
  ⟨fun h' => absurd h'.1 (not_lt.mpr h.2), fun h' => absurd h'.2 (not_lt.mpr h.1)⟩

theorem jax_init {k : Kwargs} {o : Obj} (h : init k = .ok o) : Jax.init k = .ok o := by
  rw [jax_init_eq (inRange_of (init_pol h)) (init_ucell h), h]

theorem torch_init {k : Kwargs} {o : Obj} (h : init k = .ok o) :
    ∃ t, TObj.init (Spec.torchArgs k) = .ok t ∧ t.core = { o.toT with device := "cpu" } := by
  have hp := init_pol h
  have hu := init_ucell h
  obtain ⟨w, f, p, t, u, m, ⟨hc, h1, h2, h3, h4, h5⟩, rfl⟩ := Jax.init_form (jax_init h)
  have e1 := h1 blank
  rw [jax_pol (inRange_of hp)] at e1
  have hw : w = k.pol := by
    unfold setPol at e1
    rw [if_neg (not_not.mpr hp)] at e1
    exact (congrArg (fun x => x.1.pol) e1).symm
  subst hw
  have e2 := h2 blank
  have e3 := h3 blank
  have e4 := h4 blank
  have e5 := h5 blank rfl rfl
  have g2 : ∀ q, TObj.setFto k.fto q = ({ q with fto := f }, .ok ()) := by
    intro q
    match hk : k.fto with
    | .scalar v => rw [hk] at e2; rw [show f = _ from (congrArg (fun x => x.1.fto) e2).symm]; rfl
    | .seq [] => rw [hk] at e2; cases congrArg Prod.snd e2
    | .seq [a] => rw [hk] at e2; rw [show f = _ from (congrArg (fun x => x.1.fto) e2).symm]; rfl
    | .seq [a, b] => rw [hk] at e2; rw [show f = _ from (congrArg (fun x => x.1.fto) e2).symm]; rfl
    | .seq (a :: b :: c :: l) => rw [hk] at e2; cases congrArg Prod.snd e2
    | .arr [] => rw [hk] at e2; cases congrArg Prod.snd e2
    | .arr [a] => rw [hk] at e2; rw [show f = _ from (congrArg (fun x => x.1.fto) e2).symm]; rfl
    | .arr [a, b] => rw [hk] at e2; rw [show f = _ from (congrArg (fun x => x.1.fto) e2).symm]; rfl
    | .arr (a :: b :: c :: l) => rw [hk] at e2; cases congrArg Prod.snd e2
    | .arr0 x => rw [hk] at e2; rw [show f = _ from (congrArg (fun x => x.1.fto) e2).symm]; rfl
    | .other => rw [hk] at e2; cases congrArg Prod.snd e2
  have g3 : ∀ q, TObj.setPeriod k.period q = ({ q with period := .list p }, .ok ()) := by
    intro q
    match hk : k.period with
    | .scalar v => rw [hk] at e3; rw [show p = _ from (congrArg (fun x => x.1.period) e3).symm]; rfl
    | .seq [] => rw [hk] at e3; rw [show p = _ from (congrArg (fun x => x.1.period) e3).symm]; rfl
    | .seq [a] => rw [hk] at e3; rw [show p = _ from (congrArg (fun x => x.1.period) e3).symm]; rfl
    | .seq (a :: b :: l) => rw [hk] at e3; rw [show p = _ from (congrArg (fun x => x.1.period) e3).symm]; rfl
    | .arr [] => rw [hk] at e3; rw [show p = _ from (congrArg (fun x => x.1.period) e3).symm]; rfl
    | .arr [a] => rw [hk] at e3; rw [show p = _ from (congrArg (fun x => x.1.period) e3).symm]; rfl
    | .arr (a :: b :: l) => rw [hk] at e3; rw [show p = _ from (congrArg (fun x => x.1.period) e3).symm]; rfl
    | .arr0 x => rw [hk] at e3; cases congrArg Prod.snd e3
    | .other => rw [hk] at e3; cases congrArg Prod.snd e3
  have g4 : ∀ q, TObj.setThickness k.thickness q = ({ q with thickness := t }, .ok ()) := by
    intro q
    cases hk : k.thickness with
    | other => rw [hk] at e4; cases congrArg Prod.snd e4
    | _ => rw [hk] at e4; rw [show t = _ from (congrArg (fun x => x.1.thickness) e4).symm]; rfl
  have g5 : ∀ q : TObj, q.ucell = none → q.modeling = none →
      TObj.setUcell (Spec.torchUcell k.ucell) q = ({ q with ucell := u.map .iso, modeling := m }, .ok ()) := by
    intro q q1 q2
    cases hk : k.ucell with
    | badDtype => exact absurd hk hu
    | other => rw [hk] at e5; cases congrArg Prod.snd e5
    | none =>
      rw [hk] at e5
      rw [show u = _ from (congrArg (fun x => x.1.ucell) e5).symm, show m = _ from (congrArg (fun x => x.1.modeling) e5).symm]
      simp [TObj.setUcell, Spec.torchUcell, Jax.setUcell, blank, ← q2]
    | _ =>
      rw [hk] at e5
      rw [show u = _ from (congrArg (fun x => x.1.ucell) e5).symm, show m = _ from (congrArg (fun x => x.1.modeling) e5).symm]
      rfl
  obtain ⟨o, i1, i2⟩ := TObj.init_intro (k := Spec.torchArgs k) (d := "cpu") (f := f) (p := .list p) (t := t) (u := u.map .iso) (m := m)
    { hc := hc
      hd := by simp [Spec.torchArgs, TObj.readDevice]
      hd' := by simp [Spec.torchArgs, TObj.setDevice]
      h1 := fun q => by
        show TObj.setPol k.pol q = _
        unfold TObj.setPol; rw [if_neg (not_not.mpr hp)]; rfl
      h2 := g2
      hp := ⟨_, rfl, g3⟩
      h4 := g4
      h5 := g5 }
  refine ⟨o, i1, i2.trans ?_⟩
  rfl

/-! ### Solves -/

theorem toT_orders (o : Obj) (d : String) : ({ o.toT with device := d } : TObj).orders = o.orders := rfl

theorem toT_struct {o : Obj} {u : Structure} (d : String) (h : o.structure = .ok u) :
    ({ o.toT with device := d } : TObj).struct = .ok (.iso u) := by
  unfold Obj.structure at h
  rcases o with ⟨n_top, n_bot, theta, phi, psi, pol, fto, period, wavelength, thickness, algo, perturbation, use_pinv, fourier_type,
    enhanced_dfs, ucell, modeling, grating, stored⟩
  dsimp only at h
  match modeling, ucell, h with
  | some .raster, some (.raster c), h =>
    dsimp only at h
    split at h
    · rename_i hf
      cases h
      simp only [TObj.struct, Obj.toT, Option.map_some]
      exact if_pos hf
    · cases h
  | some .raster, some (.vector ls), h => dsimp only at h; split at h <;> cases h
  | some .raster, none, h => dsimp only at h; split at h <;> cases h
  | some .vector, some (.vector ls), h =>
    dsimp only at h
    split at h
    · cases h
    · rename_i hl
      cases h
      match period, hl with
      | a :: b :: l, _ => simp [TObj.struct, Obj.toT, TObj.periods]
      | [a], hl => simp at hl
      | [], hl => simp at hl
  | some .vector, some (.raster _), h => cases h
  | some .vector, none, h => cases h
  | none, _, h => cases h

theorem toT_ready {o : Obj} (d : String) (h : o.ready = .ok ()) : ({ o.toT with device := d } : TObj).ready = .ok () ∧
    ∃ a b l, o.period = a :: b :: l := by
  unfold Obj.ready Obj.anglesReady at h
  rcases ht : o.theta with _ | θ
  · rw [ht] at h; cases h
  rw [ht] at h
  dsimp only at h
  by_cases hl : o.period.length < 2
  · rw [if_pos hl] at h; cases h
  rw [if_neg hl] at h
  match hp : o.period, hl with
  | a :: b :: l, _ =>
    refine ⟨?_, a, b, l, rfl⟩
    rcases hk : o.thickness with x | x
    · simp [TObj.ready, TObj.anglesReady, TObj.periods, Obj.toT, ht, hp, hk]
    · rw [hk] at h; cases h
  | [a], hl => simp at hl
  | [], hl => simp at hl

theorem toT_settings {o : Obj} (d : String) (u : Structure) (fx fy : ℕ) (h : ∃ a b l, o.period = a :: b :: l) :
    ({ o.toT with device := d } : TObj).settings (.iso u) fx fy = (o.settings u fx fy).torch := by
  obtain ⟨a, b, l, h⟩ := h
  simp [TObj.settings, TObj.params, TObj.periods, Obj.toT, Settings.torch, Obj.settings, Obj.params, h]
  cases o.thickness <;> rfl

/-- A solve of the PyTorch object with the attributes of `o`. -/
theorem torch_convSolve {la : LinAlg} {o : Obj} {t : TObj} {d : String} (ht : t.core = { o.toT with device := d }) {u : Structure}
    {fx fy : ℕ} {sol : Solved fx fy} (hu : o.structure = .ok u) (ho : o.orders = .ok (fx, fy)) (hr : o.ready = .ok ())
    (hs : tConv_solve la (o.settings u fx fy).torch = .ok sol) : (TObj.convSolve la t).2 = .ok ⟨fx, fy, sol.result⟩ := by
  rw [TObj.convSolve_of_core la (b := { o.toT with device := d }) ht]
  obtain ⟨h1, h2⟩ := toT_ready d hr
  have hs' : ∃ sol' : Solved fx fy, tConv_solve la (({ o.toT with device := d } : TObj).settings (.iso u) fx fy) = .ok sol' ∧
      sol' = sol := by
    have := toT_settings d u fx fy h2
    have key : ∀ s : TSettings, (hp : s.p.fto = (fx, fy)) → s = (o.settings u fx fy).torch → ∃ sol' : Solved s.p.fto.1 s.p.fto.2,
        tConv_solve la s = .ok sol' ∧ HEq sol' sol := by
      rintro s - rfl
      exact ⟨sol, hs, HEq.rfl⟩
    obtain ⟨sol', a1, a2⟩ := key _ rfl this
    exact ⟨sol', a1, eq_of_heq a2⟩
  obtain ⟨sol', a1, rfl⟩ := hs'
  rw [TObj.convSolve_intro (toT_struct d hu) (toT_orders o d ▸ ho) h1 a1]

/-- The settings of a solve are determined by the object. -/
theorem reads_unique {o : Obj} {s s' : Settings} (h : Spec.Reads o s) (h' : Spec.Reads o s') : s = s' := by
  obtain ⟨⟨p1, p2, p3, p4, p5, p6, p7, ⟨p8, p8'⟩, p9, p10, p11⟩, s2, s3, s4, s5⟩ := s
  obtain ⟨⟨q1, q2, q3, q4, q5, q6, q7, ⟨q8, q8'⟩, q9, q10, q11⟩, t2, t3, t4, t5⟩ := s'
  obtain ⟨a1, a2, a3, a4, a5, a6, a7, a8, ⟨r, a9⟩, a10, a11, a12, a13, a14, a15⟩ := h
  obtain ⟨b1, b2, b3, b4, b5, b6, b7, b8, ⟨r', b9⟩, b10, b11, b12, b13, b14, b15⟩ := h'
  rw [a1] at b1; rw [a4] at b4; rw [a8] at b8; rw [a9] at b9; rw [a11] at b11
  dsimp only at *
  cases b1; cases b4; cases b8; cases b9; cases b11
  subst a2 a3 a5 a6 a7 a10 a12 a13 a14 a15 b2 b3 b5 b6 b7 b10 b12 b13 b14 b15
  rfl

theorem Jax.convSolve_core (env : Jax.Env) {a b : Obj} (h : a.core = b.core) : (Jax.convSolve env a).2 = (Jax.convSolve env b).2 := by
  have e : ∀ o : Obj, (Jax.convSolve env o.core).2 = (Jax.convSolve env o).2 := fun o =>
    Jax.convSolve_congr env o o.core.grating o.core.stored o.core.perturbation
  rw [← e a, h, e b]

end Meent
