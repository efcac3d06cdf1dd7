import Verif.Spec.Object
import Verif.Lemmas.Dispatch

/-!
# The object as a state machine (helper lemmas)
-/

namespace Meent

theorem ready_ok {o : Obj} (h : o.ready = .ok ()) :
    ∃ t a b rest l, o.theta = some t ∧ o.period = a :: b :: rest ∧ o.thickness = .list l := by
  unfold Obj.ready Obj.anglesReady at h
  split at h
  · cases h
  · rename_i l h1 h2
    split at h1
    · cases h1
    · rename_i t ht
      split at h1
      · cases h1
      · rename_i hl
        match hp : o.period, hl with
        | [], hl => simp at hl
        | [_], hl => simp at hl
        | a :: b :: rest, _ => exact ⟨t, a, b, rest, l, ht, rfl, h2⟩
  · cases h

theorem structure_ok {o : Obj} {u : Structure} (h : o.structure = .ok u) : o.ucell = some u := by
  unfold Obj.structure at h
  split at h
  · cases h
  · rename_i x hm
    split at h
    · split at h
      · cases h; rename_i h; exact h
      · cases h
    · cases h
  · rename_i ls hm hu
    split at h
    · cases h
    · cases h; exact hu
  · cases h

/-- What a successful `conv_solve` did. -/
theorem convSolve_ok {la : LinAlg} {o o' : Obj} {r : AnyResult} (h : convSolve la o = (o', .ok r)) :
    ∃ u fx fy, ∃ sol : Solved fx fy, o.structure = .ok u ∧ o.orders = .ok (fx, fy) ∧ o.ready = .ok () ∧
      conv_solve la (o.settings u fx fy) = .ok sol ∧
      o' = { o with grating := some (gratingType (o.settings u fx fy)), stored := .solved fx fy sol } ∧
      r = ⟨fx, fy, sol.result⟩ := by
  unfold convSolve at h
  split at h
  · cases h
  · cases h
  · rename_i u fx fy hu ho
    dsimp only at h
    split at h
    · cases h
    · rename_i convs hc
      split at h
      · cases h
      · rename_i hr
        split at h
        · cases h
        · rename_i sol hs
          obtain ⟨rfl, h2⟩ := Prod.mk.inj h
          refine ⟨u, fx, fy, sol, hu, ho, hr, ?_, rfl, (Except.ok.inj h2).symm⟩
          exact conv_solve_ok.mpr ⟨convs, hc, hs⟩

theorem convSolve_intro {la : LinAlg} {o : Obj} {u : Structure} {fx fy : ℕ} {sol : Solved fx fy}
    (hu : o.structure = .ok u) (ho : o.orders = .ok (fx, fy)) (hr : o.ready = .ok ())
    (hs : conv_solve la (o.settings u fx fy) = .ok sol) :
    convSolve la o = ({ o with grating := some (gratingType (o.settings u fx fy)), stored := .solved fx fy sol },
      .ok ⟨fx, fy, sol.result⟩) := by
  obtain ⟨convs, hc, hs⟩ := conv_solve_ok.mp hs
  unfold convSolve
  rw [hu, ho]
  dsimp only
  rw [hc, hr]
  dsimp only
  have : solve_for_conv la (o.settings u fx fy) o.wavelength convs = .ok sol := hs
  rw [this]
  rfl

theorem reads_settings {o : Obj} {u : Structure} {fx fy : ℕ} (hu : o.structure = .ok u)
    (ho : o.orders = .ok (fx, fy)) (hr : o.ready = .ok ()) : Spec.Reads o (o.settings u fx fy) := by
  obtain ⟨t, a, b, rest, l, ht, hp, hl⟩ := ready_ok hr
  refine ⟨structure_ok hu, rfl, rfl, ?_, rfl, rfl, rfl, ho, ⟨rest, ?_⟩, rfl, ?_, rfl, rfl, rfl, rfl⟩
  · simp [Obj.settings, Obj.params, ht]
  · simp [Obj.settings, Obj.params, hp]
  · simp [Obj.settings, Obj.params, hl]

theorem gratingType_expected {s : Settings} :
    gratingType s = (Spec.expected s.ucell s.p.pol s.p.phi s.p.fto.2).code := by
  unfold gratingType Spec.expected
  cases s.ucell with
  | vector ls => rfl
  | raster u =>
    dsimp only
    by_cases h : u.ny = 1
    · simp only [h, ne_eq, not_true_eq_false, if_true, if_false]
      split_ifs <;> rfl
    · simp [h, Spec.Formulation.code]

theorem returnedBy {la : LinAlg} {s : Settings} {sol : Solved s.p.fto.1 s.p.fto.2} (h : conv_solve la s = .ok sol) :
    Spec.ReturnedBy la s (Spec.expected s.ucell s.p.pol s.p.phi s.p.fto.2) sol.result := by
  obtain ⟨convs, hc, hs⟩ := conv_solve_ok.mp h
  refine ⟨convs, hc, ?_⟩
  have hg := gratingType_expected (s := s)
  cases sol with
  | tetm o =>
    obtain ⟨g, a, ho⟩ := solve_for_conv_tetm.mp hs
    rw [g] at hg
    generalize Spec.expected s.ucell s.p.pol s.p.phi s.p.fto.2 = f at hg ⊢
    cases f <;> first | exact ⟨a, o, ho, rfl⟩ | exact absurd hg (by decide)
  | conical o =>
    obtain ⟨g, a, ho⟩ := solve_for_conv_conical.mp hs
    rw [g] at hg
    generalize Spec.expected s.ucell s.p.pol s.p.phi s.p.fto.2 = f at hg ⊢
    cases f <;> first | exact .inl ⟨a, o, ho, rfl⟩ | exact absurd hg (by decide)
  | conicalSmm =>
    obtain ⟨g, a⟩ := solve_for_conv_smm.mp hs
    rw [g] at hg
    generalize Spec.expected s.ucell s.p.pol s.p.phi s.p.fto.2 = f at hg ⊢
    cases f <;> first | exact .inr ⟨a, rfl⟩ | exact absurd hg (by decide)
  | twoD o =>
    obtain ⟨g, a, ho⟩ := solve_for_conv_twoD.mp hs
    rw [g] at hg
    generalize Spec.expected s.ucell s.p.pol s.p.phi s.p.fto.2 = f at hg ⊢
    cases f <;> first | exact ⟨a, o, ho, rfl⟩ | exact absurd hg (by decide)

/-- A property of objects that the constructor establishes and every allowed operation keeps holds after every
history of allowed operations. -/
theorem run_induction {la : LinAlg} {P : Obj → Prop} {A : Op → Prop} {o0 : Obj} (h0 : P o0)
    (hs : ∀ o op, A op → P o → P (step la o op).1) (ops : List Op) (ha : ∀ op ∈ ops, A op) : P (run la o0 ops) := by
  induction ops generalizing o0 with
  | nil => exact h0
  | cons op ops ih => exact ih (hs _ _ (ha _ (by simp)) h0) fun op h => ha op (by simp [h])

theorem run_append (la : LinAlg) (o : Obj) (a b : List Op) : run la o (a ++ b) = run la (run la o a) b :=
  List.foldl_append

@[simp] theorem ofSetter_fst (r : Obj × Res Unit) : (Out.ofSetter r).1 = r.1 := by
  rcases r with ⟨o, _ | _⟩ <;> rfl

@[simp] theorem step_convSolve_fst (la : LinAlg) (o : Obj) : (step la o .convSolve).1 = (convSolve la o).1 := by
  unfold step
  dsimp only
  rcases convSolve la o with ⟨o', _ | _⟩ <;> rfl

@[simp] theorem step_field_fst (la : LinAlg) (o : Obj) (rx ry rz : ℕ) (sel : Bool × Bool × Bool) :
    (step la o (.calculateField rx ry rz sel)).1 = o := by
  unfold step
  dsimp only
  rcases calculateField o rx ry rz sel with _ | _ <;> rfl

/-- A solve changes nothing but the grating type and the stored solution. -/
theorem convSolve_frame (la : LinAlg) (o : Obj) :
    ∃ g st, (convSolve la o).1 = { o with grating := g, stored := st } := by
  unfold convSolve
  split
  · exact ⟨_, _, rfl⟩
  · exact ⟨_, _, rfl⟩
  · dsimp only
    split
    · exact ⟨_, _, rfl⟩
    · split
      · exact ⟨_, _, rfl⟩
      · split <;> exact ⟨_, _, rfl⟩

/-- The result of a solve does not depend on the grating type, the stored solution and the perturbation. -/
theorem convSolve_congr (la : LinAlg) (o : Obj) (g : Option ℕ) (st : Stored) (pt : ℂ) :
    (convSolve la { o with grating := g, stored := st, perturbation := pt }).2 = (convSolve la o).2 := by
  generalize ho' : { o with grating := g, stored := st, perturbation := pt } = o'
  have h1 : o'.structure = o.structure := by subst ho'; rfl
  have h2 : o'.orders = o.orders := by subst ho'; rfl
  have h3 : o'.ready = o.ready := by subst ho'; rfl
  have h4 : ∀ u fx fy, o'.settings u fx fy = o.settings u fx fy := fun _ _ _ => by subst ho'; rfl
  have h5 : o'.wavelength = o.wavelength := by subst ho'; rfl
  unfold convSolve
  rw [h1, h2, h3, h5]
  rcases o.structure with e | u
  · rfl
  rcases o.orders with e | ⟨fx, fy⟩
  · rfl
  dsimp only
  have h6 := h4 u fx fy
  subst ho'
  rcases hc : convMats la (o.settings u fx fy) with e | convs
  · have hc' : convMats la (Obj.settings { o with grating := g, stored := st, perturbation := pt } u fx fy) = .error e := hc
    rw [hc']
  · have hc' : convMats la (Obj.settings { o with grating := g, stored := st, perturbation := pt } u fx fy) = .ok convs := hc
    rw [hc']
    dsimp only
    rcases o.ready with e | _
    · rfl
    dsimp only
    rcases hs : solve_for_conv la (o.settings u fx fy) o.wavelength convs with e | sol
    · have hs' : solve_for_conv la (Obj.settings { o with grating := g, stored := st, perturbation := pt } u fx fy) o.wavelength convs
        = .error e := hs
      rw [hs']
    · have hs' : solve_for_conv la (Obj.settings { o with grating := g, stored := st, perturbation := pt } u fx fy) o.wavelength convs
        = .ok sol := hs
      rw [hs']
      rfl

theorem andThen_ok {r : Obj × Res Unit} {f : Obj → Res Obj} {o : Obj} :
    andThen r f = .ok o ↔ r.2 = .ok () ∧ f r.1 = .ok o := by
  unfold andThen
  rcases r with ⟨o', _ | _⟩ <;> simp

/-- What a successful constructor call did, last assignments first. -/
theorem init_ok {k : Kwargs} {o : Obj} (h : init k = .ok o) :
    ∃ a b c d e f g : Obj, (setPol k.pol a) = (b, .ok ()) ∧ setPsi k.psi b = (c, .ok ()) ∧
      setFto k.fto c = (d, .ok ()) ∧ setPeriod k.period d = (e, .ok ()) ∧
      setThickness k.thickness { e with wavelength := k.wavelength } = (f, .ok ()) ∧
      setUcell k.ucell { f with algo := k.algo, stored := .nothing, modeling := none, grating := none, ucell := none }
        = (g, .ok ()) ∧
      o = { g with fourier_type := k.fourier_type, enhanced_dfs := k.enhanced_dfs, use_pinv := k.use_pinv } := by
  unfold init initFrom at h
  split at h
  · cases h
  simp only [andThen_ok] at h
  obtain ⟨-, -, h3, h4, h5, h6, h7, h8, h⟩ := h
  refine ⟨_, _, _, _, _, _, _, Prod.ext rfl h3, Prod.ext rfl h4, Prod.ext rfl h5, Prod.ext rfl h6,
    Prod.ext rfl h7, Prod.ext rfl h8, (Except.ok.inj h).symm⟩

theorem setFto_frame (v : Arg) (o : Obj) : ∃ x, (setFto v o).1 = { o with fto := x } := by
  unfold setFto; split <;> exact ⟨_, rfl⟩

theorem setPeriod_frame (v : Arg) (o : Obj) : ∃ x, (setPeriod v o).1 = { o with period := x } := by
  unfold setPeriod; split <;> exact ⟨_, rfl⟩

theorem setThickness_frame (v : Arg) (o : Obj) : ∃ x, (setThickness v o).1 = { o with thickness := x } := by
  unfold setThickness; split <;> exact ⟨_, rfl⟩

theorem setTheta_frame (v : Option ℂ) (o : Obj) : ∃ x, (setTheta v o).1 = { o with theta := x } := by
  unfold setTheta; split <;> exact ⟨_, rfl⟩

theorem setUcell_frame (v : UcellArg) (o : Obj) : ∃ x y, (setUcell v o).1 = { o with ucell := x, modeling := y } := by
  unfold setUcell; split <;> exact ⟨_, _, rfl⟩

theorem setTypeComplex_frame (v : TypeArg) (o : Obj) :
    ∃ x y z, (setTypeComplex v o).1 = { o with theta := x, fto := y, thickness := z } := by
  unfold setTypeComplex
  split
  · exact ⟨_, _, _, rfl⟩
  · dsimp only
    obtain ⟨x, hx⟩ := setTheta_frame o.theta o
    rw [hx]
    obtain ⟨y, hy⟩ := setFto_frame ({ o with theta := x } : Obj).fto.read { o with theta := x }
    split
    · exact ⟨_, _, _, hy⟩
    · obtain ⟨z, hz⟩ := setThickness_frame
        (setFto ({ o with theta := x } : Obj).fto.read { o with theta := x }).1.thickness.read
        (setFto ({ o with theta := x } : Obj).fto.read { o with theta := x }).1
      refine ⟨x, y, z, hz.trans ?_⟩
      rw [hy]

theorem step_solve {la : LinAlg} {o o' : Obj} {r : AnyResult} :
    step la o .convSolve = (o', .result r) ↔ convSolve la o = (o', .ok r) := by
  unfold step
  dsimp only
  rcases convSolve la o with ⟨o1, e | r1⟩ <;> simp

theorem step_solve_error {la : LinAlg} {o o' : Obj} {e : Err} :
    step la o .convSolve = (o', .raised e) ↔ convSolve la o = (o', .error e) := by
  unfold step
  dsimp only
  rcases convSolve la o with ⟨o1, e | r1⟩ <;> simp

theorem step_field {la : LinAlg} {o o' : Obj} {rx ry rz : ℕ} {sel : Bool × Bool × Bool} {f : AnyField} :
    step la o (.calculateField rx ry rz sel) = (o', .field f) ↔ o' = o ∧ calculateField o rx ry rz sel = .ok f := by
  unfold step
  dsimp only
  rcases calculateField o rx ry rz sel with e | f <;> simp [eq_comm]

theorem convSolve_structure_error {la : LinAlg} {o : Obj} {e : Err} (h : o.structure = .error e) :
    convSolve la o = (o, .error e) := by
  unfold convSolve
  rw [h]

/-- Only `pol` and `psi` assignments touch `pol` and `psi`. -/
theorem step_pol (la : LinAlg) (o : Obj) (op : Op) (h1 : ∀ v, op ≠ .setPol v) (h2 : ∀ v, op ≠ .setPsi v) :
    (step la o op).1.pol = o.pol ∧ (step la o op).1.psi = o.psi := by
  cases op with
  | setTheta v => obtain ⟨x, hx⟩ := setTheta_frame v o; simp [step, hx]
  | setFto v => obtain ⟨x, hx⟩ := setFto_frame v o; simp [step, hx]
  | setPeriod v => obtain ⟨x, hx⟩ := setPeriod_frame v o; simp [step, hx]
  | setThickness v => obtain ⟨x, hx⟩ := setThickness_frame v o; simp [step, hx]
  | setTypeComplex v => obtain ⟨x, y, z, hx⟩ := setTypeComplex_frame v o; simp [step, hx]
  | setPsi v => exact absurd rfl (h2 v)
  | setPol v => exact absurd rfl (h1 v)
  | setUcell v => obtain ⟨x, y, hx⟩ := setUcell_frame v o; simp [step, hx]
  | convSolve =>
    obtain ⟨g, st, hx⟩ := convSolve_frame la o
    simp [hx]
  | calculateField rx ry rz sel => simp
  | _ => exact ⟨rfl, rfl⟩

/-- Only `period` assignments touch `period`. -/
theorem step_period (la : LinAlg) (o : Obj) (op : Op) (h1 : ∀ v, op ≠ .setPeriod v) :
    (step la o op).1.period = o.period := by
  cases op with
  | setTheta v => obtain ⟨x, hx⟩ := setTheta_frame v o; simp [step, hx]
  | setFto v => obtain ⟨x, hx⟩ := setFto_frame v o; simp [step, hx]
  | setPeriod v => exact absurd rfl (h1 v)
  | setThickness v => obtain ⟨x, hx⟩ := setThickness_frame v o; simp [step, hx]
  | setTypeComplex v => obtain ⟨x, y, z, hx⟩ := setTypeComplex_frame v o; simp [step, hx]
  | setPsi v => cases v <;> simp [step, setPsi]
  | setPol v => unfold step; simp only [ofSetter_fst, setPol]; split <;> simp
  | setUcell v => obtain ⟨x, y, hx⟩ := setUcell_frame v o; simp [step, hx]
  | convSolve =>
    obtain ⟨g, st, hx⟩ := convSolve_frame la o
    simp [hx]
  | calculateField rx ry rz sel => simp
  | _ => rfl

theorem setTypeComplex_fto {v : TypeArg} {o : Obj} {x y : ℤ} (h : o.fto = .pair x y) :
    (setTypeComplex v o).1.fto = .pair x y := by
  unfold setTypeComplex
  split
  · exact h
  · obtain ⟨t, ht⟩ := setTheta_frame o.theta o
    dsimp only
    rw [ht]
    have e : setFto ({ o with theta := t } : Obj).fto.read { o with theta := t }
        = ({ o with theta := t, fto := .pair x y }, .ok ()) := by
      simp only [h, FtoVal.read, setFto, Num.toInt]
    rw [e]
    dsimp only
    obtain ⟨z, hz⟩ := setThickness_frame o.thickness.read { o with theta := t, fto := .pair x y }
    rw [hz]

/-- Only `fto` and `type_complex` assignments touch `fto`. -/
theorem step_fto (la : LinAlg) (o : Obj) (op : Op) (h1 : ∀ v, op ≠ .setFto v) (h2 : ∀ v, op ≠ .setTypeComplex v) :
    (step la o op).1.fto = o.fto := by
  cases op with
  | setTheta v => obtain ⟨x, hx⟩ := setTheta_frame v o; simp [step, hx]
  | setFto v => exact absurd rfl (h1 v)
  | setPeriod v => obtain ⟨x, hx⟩ := setPeriod_frame v o; simp [step, hx]
  | setThickness v => obtain ⟨x, hx⟩ := setThickness_frame v o; simp [step, hx]
  | setTypeComplex v => exact absurd rfl (h2 v)
  | setPsi v => cases v <;> simp [step, setPsi]
  | setPol v => unfold step; simp only [ofSetter_fst, setPol]; split <;> simp
  | setUcell v => obtain ⟨x, y, hx⟩ := setUcell_frame v o; simp [step, hx]
  | convSolve =>
    obtain ⟨g, st, hx⟩ := convSolve_frame la o
    simp [hx]
  | calculateField rx ry rz sel => simp
  | _ => rfl

/-- Only `ucell` assignments touch `ucell` and the modeling type. -/
theorem step_ucell (la : LinAlg) (o : Obj) (op : Op) (h1 : ∀ v, op ≠ .setUcell v) :
    (step la o op).1.ucell = o.ucell ∧ (step la o op).1.modeling = o.modeling := by
  cases op with
  | setTheta v => obtain ⟨x, hx⟩ := setTheta_frame v o; simp [step, hx]
  | setFto v => obtain ⟨x, hx⟩ := setFto_frame v o; simp [step, hx]
  | setPeriod v => obtain ⟨x, hx⟩ := setPeriod_frame v o; simp [step, hx]
  | setThickness v => obtain ⟨x, hx⟩ := setThickness_frame v o; simp [step, hx]
  | setTypeComplex v => obtain ⟨x, y, z, hx⟩ := setTypeComplex_frame v o; simp [step, hx]
  | setPsi v => cases v <;> simp [step, setPsi]
  | setPol v => unfold step; simp only [ofSetter_fst, setPol]; split <;> simp
  | setUcell v => exact absurd rfl (h1 v)
  | convSolve =>
    obtain ⟨g, st, hx⟩ := convSolve_frame la o
    simp [hx]
  | calculateField rx ry rz sel => simp
  | _ => exact ⟨rfl, rfl⟩

/-- `ucell` and the modeling type agree. -/
def Obj.Consistent (o : Obj) : Prop :=
  match o.ucell with
  | none => True
  | some (.raster _) => o.modeling = some .raster
  | some (.vector _) => o.modeling = some .vector

theorem setUcell_consistent {v : UcellArg} {o : Obj} (hv : v ≠ .badDtype) (h : o.Consistent) :
    (setUcell v o).1.Consistent := by
  cases v with
  | badDtype => exact absurd rfl hv
  | raster u => exact rfl
  | vector ls => exact rfl
  | none => exact trivial
  | other => exact h

theorem consistent_of_history {la : LinAlg} {k : Kwargs} {ops : List Op} {o : Obj} (hh : Spec.History la k ops o)
    (hn : Spec.NoRejectedArray ops) : o.Consistent := by
  obtain ⟨o0, h0, rfl⟩ := hh
  refine run_induction (A := fun op => op ≠ .setUcell .badDtype) ?_ ?_ ops ?_
  · obtain ⟨_, _, _, _, _, f, g, -, -, -, -, -, hu, rfl⟩ := init_ok h0
    have hb : k.ucell ≠ .badDtype := by rintro e; rw [e] at hu; cases hu
    have := setUcell_consistent (o := { f with algo := k.algo, stored := .nothing, modeling := none, grating := none, ucell := none })
      hb trivial
    rw [hu] at this
    exact this
  · intro o op ha h
    by_cases hop : ∃ v, op = .setUcell v
    · obtain ⟨v, rfl⟩ := hop
      simp only [step, ofSetter_fst]
      exact setUcell_consistent (fun e => ha (by rw [e])) h
    · push Not at hop
      obtain ⟨e1, e2⟩ := step_ucell la o op hop
      unfold Obj.Consistent
      rw [e1, e2]
      exact h
  · intro op hop e
    exact hn (e ▸ hop)

end Meent
