import Verif.Lemmas.Script
import Verif.Lemmas.ObjectExample

/-!
# C64: the three constructors

What the NumPy constructor accepts, the JAX constructor accepts, and so does the PyTorch constructor if `period` is passed and
`device` is a number or a `torch.device`; all attributes then have the same values.  Fails for the defaults: without `period` the
PyTorch constructor raises, with a documented device name it raises, and its default perturbation is a different one.
-/

namespace Meent

/-- **C64.** The same arguments, all passed by name: if the NumPy constructor returns, so do the others, and the attributes
agree. -/
theorem C64_partial (k : Kwargs) (o : Obj) (h : init k = .ok o) : Jax.init k = .ok o ∧
    ∃ t, TObj.init (Spec.torchArgs k) = .ok t ∧ Spec.SameAttributes o t := by
  obtain ⟨t, h1, h2⟩ := torch_init h
  exact ⟨jax_init h, t, h1, same_of_core h2⟩

/-- The example grating. -/
example : ∃ o, init (exKwargs 0 none) = .ok o := ⟨_, exObj_init ⟨le_rfl, zero_le_one⟩ none⟩

/-- **C64, converse.** What the PyTorch constructor accepts, the others accept. -/
theorem C64_converse_partial (k : Kwargs) (t : TObj) (h : TObj.init (Spec.torchArgs k) = .ok t) : ∃ o, init k = .ok o := by
  obtain ⟨d, f, p, x, u, m, ⟨hc, -, -, h1, h2, ⟨v, hv, h3⟩, h4, h5⟩, -⟩ := TObj.init_form h
  have hc : k.type_complex = .supported := hc
  have g1 : ∀ q, (setPol k.pol q).2 = .ok () := by
    intro q
    have := congrArg Prod.snd (h1 TObj.blank)
    have e : TObj.setPol k.pol TObj.blank = TObj.setPol (Spec.torchArgs k).pol TObj.blank := rfl
    rw [← e] at this
    unfold TObj.setPol at this
    unfold setPol
    by_cases hp : ¬(0 ≤ k.pol ∧ k.pol ≤ 1)
    · rw [if_pos hp] at this; cases this
    · rw [if_neg hp]
  have g2 : ∀ q, (setFto k.fto q).2 = .ok () := by
    intro q
    have := congrArg Prod.snd (h2 { q.toT with device := "cpu" })
    rw [show (Spec.torchArgs k).fto = k.fto from rfl, torch_setFto k.fto q "cpu"] at this
    exact this
  have g3 : ∀ q, (setPeriod k.period q).2 = .ok () := by
    intro q
    obtain rfl : k.period = v := Option.some.inj hv
    have hn : ∀ y, k.period ≠ .arr0 y := by
      intro y hy
      have := congrArg Prod.snd (h3 TObj.blank)
      rw [hy] at this
      cases this
    have := congrArg Prod.snd (h3 { q.toT with device := "cpu" })
    rw [torch_setPeriod k.period hn q "cpu"] at this
    exact this
  have g4 : ∀ q, (setThickness k.thickness q).2 = .ok () := by
    intro q
    have := congrArg Prod.snd (h4 { q.toT with device := "cpu" })
    rw [show (Spec.torchArgs k).thickness = k.thickness from rfl, torch_setThickness k.thickness q "cpu"] at this
    exact this
  have g5 : ∀ q, (setUcell k.ucell q).2 = .ok () := by
    intro q
    have := congrArg Prod.snd (h5 TObj.blank rfl rfl)
    rw [show (Spec.torchArgs k).ucell = Spec.torchUcell k.ucell from rfl] at this
    cases hk : k.ucell <;> rw [hk] at this <;> first
      | rfl
      | cases this
  have g6 : ∀ q, (setTheta k.theta q).2 = .ok () := by intro q; cases k.theta <;> rfl
  have g7 : ∀ q, (setPsi k.psi q).2 = .ok () := by intro q; cases k.psi <;> rfl
  unfold init initFrom
  rw [hc]
  simp only [andThen, g1, g2, g3, g4, g5, g6, g7, setPhi]
  exact ⟨_, rfl⟩

/-- **C64, counterexample.** Without `period` the NumPy and JAX constructors use a unit cell of size 1, while every call of the
PyTorch constructor raises `ValueError`. -/
theorem C64_period_negation : (∃ o, init {} = .ok o ∧ o.period = [1, 1]) ∧ (∃ o, Jax.init {} = .ok o ∧ o.period = [1, 1]) ∧
    ∀ k : TObj.Kwargs, k.period = none → TObj.init k = .error .valueError := by
  have h : ∃ o, init {} = .ok o ∧ o.period = [1, 1] := by
    unfold init initFrom andThen
    simp only [setTheta, setPhi, setPol_ok (v := 0) ⟨le_rfl, zero_le_one⟩, setPsi, setFto, setPeriod, setThickness, setUcell, Num.val]
    exact ⟨_, rfl, rfl⟩
  refine ⟨h, ?_, ?_⟩
  · obtain ⟨o, h1, h2⟩ := h
    exact ⟨o, jax_init h1, h2⟩
  · intro k hk
    have hd : ∀ e, TObj.readDevice k.device = .error e → e = .valueError := by
      intro e he
      unfold TObj.readDevice at he
      split at he
      · split_ifs at he <;> cases he <;> rfl
      · split_ifs at he <;> cases he <;> rfl
      · cases he
      · cases he; rfl
    have hs : ∀ e q, (TObj.setDevice k.device q).2 = .error e → e = .valueError := by
      intro e q he
      unfold TObj.setDevice at he
      split at he
      · split_ifs at he <;> cases he <;> rfl
      · cases he
      · cases he; rfl
    unfold TObj.init
    rw [hk]
    split
    · rename_i e he
      rw [hd e he]
    · rfl
    · unfold TObj.andThen
      split
      · rfl
      · rename_i e he
        rw [hs e _ he]

/-- **C64, counterexample.** The constructor's own check accepts the names `'cpu'`, `'gpu'` and `'cuda'` for `device`, and so does
the solver class; `MeeTorch` raises `ValueError` for all of them, because it then assigns the name through the `device` setter. -/
theorem C64_device_negation (s : String) (hs : s = "cpu" ∨ s = "gpu" ∨ s = "cuda") :
    (∃ d, TObj.readDevice (.str s) = .ok d) ∧
    (∃ o, TObj.initRCWA { device := .str s, period := some (.scalar (.float 1)) } TObj.blank = .ok o) ∧
    (∀ k : TObj.Kwargs, k.device = .str s → TObj.init k = .error .valueError) ∧
    ∃ o, TObj.init { device := .num 0, period := some (.scalar (.float 1)) } = .ok o := by
  have hr : ∃ d, TObj.readDevice (.str s) = .ok d := by
    rcases hs with rfl | rfl | rfl <;> simp [TObj.readDevice]
  have hp : ∀ q, TObj.setPol 0 q = ({ q with pol := 0, psi := Real.pi / 2 * (1 - 0) }, .ok ()) := by
    intro q; unfold TObj.setPol; rw [if_neg (not_not.mpr ⟨le_rfl, zero_le_one⟩)]
  refine ⟨hr, ?_, ?_, ?_⟩
  · obtain ⟨d, hd⟩ := hr
    unfold TObj.initRCWA
    dsimp only
    rw [hd]
    simp only [TObj.andThen, TObj.setTheta, TObj.setPhi, hp, TObj.setPsi, TObj.setFto, Option.getD_some, TObj.setPeriod,
      TObj.setThickness, TObj.setUcell]
    exact ⟨_, rfl⟩
  · intro k hk
    obtain ⟨d, hd⟩ := hr
    unfold TObj.init
    rw [hk, hd]
    cases k.type_complex <;> rfl
  · obtain ⟨o, h1, -⟩ := TObj.init_intro (k := { device := .num 0, period := some (.scalar (.float 1)) }) (d := "cpu")
      (f := .pair 0 0) (p := .list [1, 1]) (t := .list [0]) (u := none) (m := none)
      { hc := rfl
        hd := by simp [TObj.readDevice]
        hd' := by simp [TObj.setDevice]
        h1 := hp
        h2 := by simp [TObj.setFto, Num.toInt]
        hp := ⟨_, rfl, by simp [TObj.setPeriod, Num.val]⟩
        h4 := by simp [TObj.setThickness, Num.val]
        h5 := fun q _ h => by simp [TObj.setUcell, ← h] }
    exact ⟨o, h1⟩

/-- **C64, counterexample.** With the defaults, normal incidence means an angle of 1e-20 for NumPy and JAX and of 1e-10 for
PyTorch. -/
theorem C64_default_negation : ∃ o t, init {} = .ok o ∧ Jax.init {} = .ok o ∧
    TObj.init { period := some (.scalar (.float 1)) } = .ok t ∧ o.theta = some (1 / 10 ^ 20) ∧ t.theta = some (1 / 10 ^ 10) := by
  have h : ∃ o, init {} = .ok o ∧ o.theta = some (1 / 10 ^ 20) := by
    unfold init initFrom andThen
    simp only [setTheta, setPhi, setPol_ok (v := 0) ⟨le_rfl, zero_le_one⟩, setPsi, setFto, setPeriod, setThickness, setUcell, Num.val,
      if_true]
    exact ⟨_, rfl, rfl⟩
  have hp : ∀ q, TObj.setPol 0 q = ({ q with pol := 0, psi := Real.pi / 2 * (1 - 0) }, .ok ()) := by
    intro q; unfold TObj.setPol; rw [if_neg (not_not.mpr ⟨le_rfl, zero_le_one⟩)]
  obtain ⟨o, h1, h2⟩ := h
  obtain ⟨t, h3, h4⟩ := TObj.init_intro (k := { period := some (.scalar (.float 1)) }) (d := "cpu")
      (f := .pair 0 0) (p := .list [1, 1]) (t := .list [0]) (u := none) (m := none)
      { hc := rfl
        hd := by simp [TObj.readDevice]
        hd' := by simp [TObj.setDevice]
        h1 := hp
        h2 := by simp [TObj.setFto, Num.toInt]
        hp := ⟨_, rfl, by simp [TObj.setPeriod, Num.val]⟩
        h4 := by simp [TObj.setThickness, Num.val]
        h5 := fun q _ h => by simp [TObj.setUcell, ← h] }
  refine ⟨o, t, h1, jax_init h1, h3, h2, ?_⟩
  have := congrArg TObj.theta h4
  simp only [TObj.core, TObj.built, Option.map_some, if_true] at this
  exact this

#print axioms C64_partial
#print axioms C64_converse_partial
#print axioms C64_period_negation
#print axioms C64_device_negation
#print axioms C64_default_negation

end Meent
