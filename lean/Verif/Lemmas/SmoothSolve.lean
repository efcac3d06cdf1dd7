import Verif.Lemmas.Propagator
import Verif.Lemmas.SmoothConv

/-!
# Results depend smoothly on convolution matrices and thicknesses (helper lemmas)
-/

open Matrix
open scoped ContDiff Topology

namespace Meent

set_option linter.unusedSectionVars false
set_option linter.unusedSimpArgs false

variable {E : Type} [NormedAddCommGroup E] [NormedSpace ℝ E] {x₀ : E}

/-- Smooth states. -/
structure TSm {n : Type} (s : E → TState n) (x₀ : E) : Prop where
  F : MSm (fun x => (s x).F) x₀
  G : MSm (fun x => (s x).G) x₀
  T : MSm (fun x => (s x).T) x₀

section
variable {n : Type} [Fintype n] [DecidableEq n]

theorem TSm.const (s : TState n) : TSm (fun _ : E => s) x₀ := ⟨MSm.const _, MSm.const _, MSm.const _⟩

theorem propagator_smooth {k0 : ℝ} {d : E → ℝ} {P Q : E → Matrix n n ℂ} (hd : ContDiffAt ℝ ∞ d x₀) (hP : MSm P x₀)
    (hQ : MSm Q x₀) : MSm (fun x => propagator k0 (d x) (P x) (Q x)) x₀ := by
  unfold propagator
  refine MSm.exp (MSm.smul ?_ (MSm.fromBlocks (MSm.const 0) hP hQ (MSm.const 0)))
  exact Complex.ofRealCLM.contDiff.contDiffAt.comp x₀ (contDiffAt_const.mul hd)

theorem TSm.under {s : E → TState n} {K : E → Matrix (n ⊕ n) (n ⊕ n) ℂ} (hs : TSm s x₀) (hK : MSm K x₀) :
    TSm (fun x => (s x).under (K x)) x₀ :=
  ⟨((hK.reindex Sum.inl Sum.inl).mul hs.F).add ((hK.reindex Sum.inl Sum.inr).mul hs.G),
   ((hK.reindex Sum.inr Sum.inl).mul hs.F).add ((hK.reindex Sum.inr Sum.inr).mul hs.G), hs.T⟩

theorem carried_smooth {C : Type} {k0 : ℝ} {P Q : C → Matrix n n ℂ} {s : E → TState n} (hs : TSm s x₀) :
    ∀ (fs : List (E → C × ℝ)), (∀ f ∈ fs, MSm (fun x => P (f x).1) x₀ ∧ MSm (fun x => Q (f x).1) x₀ ∧
      ContDiffAt ℝ ∞ (fun x => (f x).2) x₀) → TSm (fun x => carried k0 P Q (s x) (fs.map fun f => f x)) x₀
  | [], _ => hs
  | f :: fs, h => by
    obtain ⟨h1, h2, h3⟩ := h f List.mem_cons_self
    exact (carried_smooth hs fs fun g hg => h g (List.mem_cons_of_mem _ hg)).under (propagator_smooth h3 h1 h2)

end

/-! ### Amplitudes and efficiencies -/

theorem effOf_smooth {r : E → ℂ} {w : ℂ} (h : ContDiffAt ℝ ∞ r x₀) : ContDiffAt ℝ ∞ (fun x => effOf (r x) w) x₀ := by
  unfold effOf
  have hc : ContDiffAt ℝ ∞ (fun x => star (r x)) x₀ := by
    have := Complex.conjCLE.contDiff.contDiffAt.comp x₀ h (n := ∞)
    exact this
  exact Complex.reCLM.contDiff.contDiffAt.comp x₀ ((h.mul hc).mul contDiffAt_const)

/-- Smooth results of the final equations of the TE/TM solver. -/
theorem transfer_1d_4_smooth {ff : ℕ} {la : LinAlg} {pol : ℝ} {s : E → TState (Fin ff)} {kzt kzb : Fin ff → ℂ} {theta nt nb : ℂ}
    (hs : TSm s x₀) (h : ∃ o, transfer_1d_4 la pol (s x₀) kzt kzb theta nt nb false = .ok o) :
    ∃ g : E → SubRes 1 ff, (∀ x o, transfer_1d_4 la pol (s x) kzt kzb theta nt nb false = .ok o → o.1 = g x) ∧ Spec.SmoothSub g x₀ := by
  obtain ⟨o₀, h⟩ := h
  have key : ∀ (K : Matrix (Fin ff) (Fin ff) ℂ) (b : Fin ff → ℂ), IsUnit ((s x₀).G + K * (s x₀).F).det →
      VSm (fun x => (s x).F *ᵥ (((s x).G + K * (s x).F)⁻¹ *ᵥ b) - deltaI0) x₀ ∧
      VSm (fun x => (s x).T *ᵥ (((s x).G + K * (s x).F)⁻¹ *ᵥ b)) x₀ := by
    intro K b hu
    have hv : VSm (fun x => ((s x).G + K * (s x).F)⁻¹ *ᵥ b) x₀ :=
      ((hs.G.add ((MSm.const K).mul hs.F)).inv hu).mulVec (VSm.const b)
    exact ⟨(hs.F.mulVec hv).sub (VSm.const _), hs.T.mulVec hv⟩
  by_cases h0 : pol = 0
  · subst h0
    have hu : IsUnit ((s x₀).G + (Complex.I • diagonal kzt) * (s x₀).F).det := by
      unfold transfer_1d_4 at h
      simp only [if_true] at h
      obtain ⟨N, e2, -⟩ := Except.bind_ok.mp h
      exact (meeinv_false_ok.mp e2).1
    obtain ⟨k1, k2⟩ := key _ ((Complex.I • diagonal kzt) *ᵥ deltaI0 + (Complex.I * nt * Complex.cos theta) • deltaI0) hu
    refine ⟨fun x =>
      let T1 := ((s x).G + (Complex.I • diagonal kzt) * (s x).F)⁻¹ *ᵥ
        ((Complex.I • diagonal kzt) *ᵥ deltaI0 + (Complex.I * nt * Complex.cos theta) • deltaI0)
      let R := (s x).F *ᵥ T1 - deltaI0
      let T := (s x).T *ᵥ T1
      let de_ri := fun i => effOf (R i) (kzt i / (nt * Complex.cos theta))
      let de_ti := fun i => effOf (T i) (kzb i / (nt * Complex.cos theta))
      { R_s := fun _ => R, R_p := fun _ _ => 0, T_s := fun _ => T, T_p := fun _ _ => 0,
        de_ri_s := fun _ => de_ri, de_ri_p := fun _ _ => 0, de_ri := fun _ => de_ri,
        de_ti_s := fun _ => de_ti, de_ti_p := fun _ _ => 0, de_ti := fun _ => de_ti }, ?_, ?_⟩
    · intro x o ho
      unfold transfer_1d_4 at ho
      simp only [if_true] at ho
      obtain ⟨N, e2, e3⟩ := Except.bind_ok.mp ho
      obtain ⟨-, rfl⟩ := meeinv_false_ok.mp e2
      obtain rfl := Except.ok.inj e3
      rfl
    · exact ⟨fun i j => k1 j, fun i j => contDiffAt_const, fun i j => k2 j, fun i j => contDiffAt_const,
        fun i j => effOf_smooth (k1 j), fun i j => contDiffAt_const, fun i j => effOf_smooth (k1 j),
        fun i j => effOf_smooth (k2 j), fun i j => contDiffAt_const, fun i j => effOf_smooth (k2 j)⟩
  · by_cases h1 : pol = 1
    · subst h1
      have hu : IsUnit ((s x₀).G + (((1 : ℂ) / nt ^ 2) • (Complex.I • diagonal kzt)) * (s x₀).F).det := by
        unfold transfer_1d_4 at h
        simp only [one_ne_zero, if_true, if_false] at h
        obtain ⟨N, e2, -⟩ := Except.bind_ok.mp h
        exact (meeinv_false_ok.mp e2).1
      obtain ⟨k1, k2⟩ := key _ ((((1 : ℂ) / nt ^ 2) • (Complex.I • diagonal kzt)) *ᵥ deltaI0
        + (Complex.I * Complex.cos theta / nt) • deltaI0) hu
      refine ⟨fun x =>
        let T1 := ((s x).G + (((1 : ℂ) / nt ^ 2) • (Complex.I • diagonal kzt)) * (s x).F)⁻¹ *ᵥ
          ((((1 : ℂ) / nt ^ 2) • (Complex.I • diagonal kzt)) *ᵥ deltaI0 + (Complex.I * Complex.cos theta / nt) • deltaI0)
        let R := (s x).F *ᵥ T1 - deltaI0
        let T := (s x).T *ᵥ T1
        let de_ri := fun i => effOf (R i) (kzt i / (nt * Complex.cos theta))
        let de_ti := fun i => effOf (T i) (kzb i / nb ^ 2 / (Complex.cos theta / nt))
        { R_s := fun _ _ => 0, R_p := fun _ => R, T_s := fun _ _ => 0, T_p := fun _ => T,
          de_ri_s := fun _ _ => 0, de_ri_p := fun _ => de_ri, de_ri := fun _ => de_ri,
          de_ti_s := fun _ _ => 0, de_ti_p := fun _ => de_ti, de_ti := fun _ => de_ti }, ?_, ?_⟩
      · intro x o ho
        unfold transfer_1d_4 at ho
        simp only [one_ne_zero, if_true, if_false] at ho
        obtain ⟨N, e2, e3⟩ := Except.bind_ok.mp ho
        obtain ⟨-, rfl⟩ := meeinv_false_ok.mp e2
        obtain rfl := Except.ok.inj e3
        rfl
      · exact ⟨fun i j => contDiffAt_const, fun i j => k1 j, fun i j => contDiffAt_const, fun i j => k2 j,
          fun i j => contDiffAt_const, fun i j => effOf_smooth (k1 j), fun i j => effOf_smooth (k1 j),
          fun i j => contDiffAt_const, fun i j => effOf_smooth (k2 j), fun i j => effOf_smooth (k2 j)⟩
    · unfold transfer_1d_4 at h
      simp only [h0, h1, if_false] at h
      simp [bind, Except.bind] at h

theorem subResOf_smooth {fx fy : ℕ} {s : E → TState (FlatIdx fx fy ⊕ FlatIdx fx fy)} {kzt kzb : FlatIdx fx fy → ℂ} {theta nt nb : ℂ}
    {rt : E → (FlatIdx fx fy ⊕ FlatIdx fx fy) ⊕ (FlatIdx fx fy ⊕ FlatIdx fx fy) → ℂ} (hs : TSm s x₀) (hr : VSm rt x₀) :
    Spec.SmoothSub (fun x => subResOf (s x) kzt kzb theta nt nb (rt x)) x₀ := by
  have ht : VSm (fun x => (s x).T *ᵥ fun i => rt x (.inr i)) x₀ := hs.T.mulVec fun i => hr _
  exact ⟨fun i j => hr _, fun i j => hr _, fun i j => ht _, fun i j => ht _,
    fun i j => effOf_smooth (hr _), fun i j => effOf_smooth (hr _), fun i j => (effOf_smooth (hr _)).add (effOf_smooth (hr _)),
    fun i j => effOf_smooth (ht _), fun i j => effOf_smooth (ht _), fun i j => (effOf_smooth (ht _)).add (effOf_smooth (ht _))⟩

theorem finalA_smooth {m : Type} [Fintype m] [DecidableEq m] {nt : ℂ} {kzt : m → ℂ} {s : E → TState (m ⊕ m)} (hs : TSm s x₀) :
    MSm (fun x => finalA nt kzt (s x)) x₀ :=
  MSm.fromBlocks (MSm.const _) hs.F.neg (MSm.const _) hs.G.neg

/-- Smooth results of the final equations of the conical and 2D solvers. -/
theorem transfer_2d_4_smooth {fx fy : ℕ} {la : LinAlg} {s : E → TState (FlatIdx fx fy ⊕ FlatIdx fx fy)} {kzt kzb : FlatIdx fx fy → ℂ}
    {psi theta nt nb : ℂ} (hs : TSm s x₀) (h : ∃ o, transfer_2d_4 la (s x₀) kzt kzb psi theta nt nb false = .ok o) :
    ∃ g1 g2 g3 : E → SubRes (2 * fy + 1) (2 * fx + 1),
      (∀ x o, transfer_2d_4 la (s x) kzt kzb psi theta nt nb false = .ok o → o.results = (g1 x, g2 x, g3 x)) ∧
      Spec.SmoothSub g1 x₀ ∧ Spec.SmoothSub g2 x₀ ∧ Spec.SmoothSub g3 x₀ := by
  obtain ⟨o₀, h⟩ := h
  unfold transfer_2d_4 at h ⊢
  simp only [Except.bind_ok, meeinv_false_ok, Except.ok.injEq] at h ⊢
  obtain ⟨N, ⟨hu, rfl⟩, -⟩ := h
  have key : ∀ b, VSm (fun x => (finalA nt kzt (s x))⁻¹ *ᵥ b) x₀ := fun b =>
    ((finalA_smooth hs).inv hu).mulVec (VSm.const b)
  refine ⟨fun x => subResOf (s x) kzt kzb theta nt nb ((finalA nt kzt (s x))⁻¹ *ᵥ finalB deltaI0 psi theta nt),
    fun x => subResOf (s x) kzt kzb theta nt nb ((finalA nt kzt (s x))⁻¹ *ᵥ finalB deltaI0 (↑(Real.pi / 2)) theta nt),
    fun x => subResOf (s x) kzt kzb theta nt nb ((finalA nt kzt (s x))⁻¹ *ᵥ finalB deltaI0 0 theta nt),
    ?_, subResOf_smooth hs (key _), subResOf_smooth hs (key _), subResOf_smooth hs (key _)⟩
  rintro x o ⟨N', ⟨hu', rfl⟩, rfl⟩
  rfl

/-! ### Whole solves -/

theorem zip_eval {A B : Type} (fs : List (E → A)) (gs : List (E → B)) (x : E) :
    (fs.map fun f => f x).zip (gs.map fun g => g x) = ((fs.zip gs).map fun p (y : E) => (p.1 y, p.2 y)).map fun f => f x := by
  rw [List.zip_map, List.map_map]
  rfl

theorem coup1_smooth {n : Type} [Fintype n] [DecidableEq n] {c : E → Conv n} (pol : ℝ) (kx : n → ℂ) (h : CSm c x₀) :
    MSm (fun x => coupP1 pol (c x)) x₀ ∧ MSm (fun x => coupQ1 pol kx (c x)) x₀ := by
  unfold coupP1 coupQ1
  by_cases hp : pol = 0
  · simp only [hp, if_true]
    exact ⟨MSm.const _, (MSm.const _).sub h.2.1⟩
  · simp only [hp, if_false]
    exact ⟨h.1, (((MSm.const _).mul h.2.2).mul (MSm.const _)).sub (MSm.const _)⟩

theorem coup2_smooth {m : Type} [Fintype m] [DecidableEq m] {c : E → Conv m} (kx ky varphi : m → ℂ) (h : CSm c x₀) :
    MSm (fun x => coupP2 kx ky varphi (c x)) x₀ ∧ MSm (fun x => coupQ2 kx ky varphi (c x)) x₀ := by
  constructor
  · refine ((MSm.const _).mul ?_).mul (MSm.const _)
    have k := (fun (a b : m → ℂ) => ((MSm.const (E := E) (x₀ := x₀) (diagonal a)).mul h.2.2).mul (MSm.const (diagonal b)))
    exact MSm.fromBlocks (k kx ky).neg ((k kx kx).sub (MSm.const _)) ((MSm.const _).sub (k ky ky)) (k ky kx)
  · refine ((MSm.const _).mul ?_).mul (MSm.const _)
    exact MSm.fromBlocks (MSm.const _) ((MSm.const _).sub h.2.1) (h.1.sub (MSm.const _)) (MSm.const _)

theorem stack_smooth {C n : Type} [Fintype n] [DecidableEq n] {k0 : ℝ} {P Q : C → Matrix n n ℂ} (s : TState n)
    {cs : List (E → C)} {ts : List (E → ℝ)} (hP : ∀ c ∈ cs, MSm (fun x => P (c x)) x₀ ∧ MSm (fun x => Q (c x)) x₀)
    (ht : ∀ t ∈ ts, ContDiffAt ℝ ∞ t x₀) :
    TSm (fun x => carried k0 P Q s ((cs.map fun c => c x).zip (ts.map fun t => t x))) x₀ := by
  simp only [zip_eval]
  refine carried_smooth (TSm.const s) _ fun f hf => ?_
  obtain ⟨⟨c, t⟩, hm, rfl⟩ := List.mem_map.mp hf
  have := List.of_mem_zip hm
  exact ⟨(hP c this.1).1, (hP c this.1).2, ht t this.2⟩

theorem solve_1d_smooth {la : LinAlg} {p : Params} (hp : p.use_pinv = false) {wl : ℝ} {cs : List (E → Conv (Fin (2 * p.fto.1 + 1)))}
    {ts : List (E → ℝ)} (hc : ∀ c ∈ cs, CSm c x₀) (ht : ∀ t ∈ ts, ContDiffAt ℝ ∞ t x₀)
    (h : ∃ o, solve_1d la { p with thickness := ts.map fun t => t x₀ } wl (cs.map fun c => c x₀) = .ok o) :
    ∃ g : E → SubRes 1 (2 * p.fto.1 + 1), (∀ x (o : Out1D (2 * p.fto.1 + 1)),
      solve_1d la { p with thickness := ts.map fun t => t x } wl (cs.map fun c => c x) = .ok o → o.res = g x) ∧ Spec.SmoothSub g x₀ := by
  have main : ∀ x (o : Out1D (2 * p.fto.1 + 1)),
      solve_1d la { p with thickness := ts.map fun t => t x } wl (cs.map fun c => c x) = .ok o →
      ∃ init, transfer_1d_1 p.pol (kxVec p wl) p.n_top p.n_bot = .ok init ∧ ∃ o', transfer_1d_4 la p.pol
        (carried (2 * Real.pi / wl) (coupP1 p.pol) (coupQ1 p.pol (kxVec p wl)) init.2.2
          ((cs.map fun c => c x).zip (ts.map fun t => t x))) init.1 init.2.1 p.theta p.n_top p.n_bot false = .ok o' ∧ o'.1 = o.res := by
    intro x o ho
    obtain ⟨hl, init, r, y, h1, hr, hy, rfl⟩ := (solve_1d_iff (p := { p with thickness := ts.map fun t => t x }) hp).mp ho
    have he := run_propagates (fun y _ => propagates_1d la (p := { p with thickness := ts.map fun t => t x }) hp
      (2 * Real.pi / wl) (kxVec p wl) y.1) hr
    obtain ⟨o', h2, h3⟩ := transfer_1d_4_equiv he hy
    exact ⟨init, h1, o', h2, h3⟩
  obtain ⟨o₀, ho₀⟩ := h
  obtain ⟨init, hi, o', ho', -⟩ := main x₀ o₀ ho₀
  obtain ⟨g, hg, hg'⟩ := transfer_1d_4_smooth (stack_smooth init.2.2 (fun c h => coup1_smooth _ _ (hc c h)) ht) ⟨o', ho'⟩
  refine ⟨g, fun x o ho => ?_, hg'⟩
  obtain ⟨init', hi', o'', h2, h3⟩ := main x o ho
  rw [hi] at hi'
  obtain rfl := Except.ok.inj hi'
  rw [← h3]
  exact hg x o'' h2

theorem solve_2d_smooth {la : LinAlg} {p : Params} (hp : p.use_pinv = false) {wl : ℝ} {cs : List (E → Conv (FlatIdx p.fto.1 p.fto.2))}
    {ts : List (E → ℝ)} (hc : ∀ c ∈ cs, CSm c x₀) (ht : ∀ t ∈ ts, ContDiffAt ℝ ∞ t x₀)
    (h : ∃ o, solve_2d la { p with thickness := ts.map fun t => t x₀ } wl (cs.map fun c => c x₀) = .ok o) :
    ∃ g1 g2 g3 : E → SubRes (2 * p.fto.2 + 1) (2 * p.fto.1 + 1), (∀ x (o : Out2D p.fto.1 p.fto.2),
      solve_2d la { p with thickness := ts.map fun t => t x } wl (cs.map fun c => c x) = .ok o →
        o.out.results = (g1 x, g2 x, g3 x)) ∧ Spec.SmoothSub g1 x₀ ∧ Spec.SmoothSub g2 x₀ ∧ Spec.SmoothSub g3 x₀ := by
  have main : ∀ x (o : Out2D p.fto.1 p.fto.2),
      solve_2d la { p with thickness := ts.map fun t => t x } wl (cs.map fun c => c x) = .ok o →
      ∃ init, transfer_2d_1 (kxF p wl) (kyF p wl) p.n_top p.n_bot = .ok init ∧ ∃ o', transfer_2d_4 la
        (carried (2 * Real.pi / wl) (coupP2 (kxF p wl) (kyF p wl) init.2.2.1) (coupQ2 (kxF p wl) (kyF p wl) init.2.2.1) init.2.2.2
          ((cs.map fun c => c x).zip (ts.map fun t => t x))) init.1 init.2.1 p.psi p.theta p.n_top p.n_bot false = .ok o' ∧
        o'.results = o.out.results := by
    intro x o ho
    obtain ⟨hl, init, r, y, h1, hr, hy, rfl⟩ := (solve_2d_iff (p := { p with thickness := ts.map fun t => t x }) hp).mp ho
    have he := run_propagates (fun y _ => propagates_2d la (2 * Real.pi / wl) (kxF p wl) (kyF p wl) init.2.2.1 y.1) hr
    obtain ⟨o', h2, h3⟩ := transfer_2d_4_equiv he hy
    exact ⟨init, h1, o', h2, h3⟩
  obtain ⟨o₀, ho₀⟩ := h
  obtain ⟨init, hi, o', ho', -⟩ := main x₀ o₀ ho₀
  obtain ⟨g1, g2, g3, hg, hg'⟩ := transfer_2d_4_smooth (stack_smooth init.2.2.2 (fun c h => coup2_smooth _ _ _ (hc c h)) ht) ⟨o', ho'⟩
  refine ⟨g1, g2, g3, fun x o ho => ?_, hg'⟩
  obtain ⟨init', hi', o'', h2, h3⟩ := main x o ho
  rw [hi] at hi'
  obtain rfl := Except.ok.inj hi'
  rw [← h3]
  exact hg x o'' h2

theorem solve_con_smooth {la : LinAlg} {p : Params} (hp : p.use_pinv = false) {wl : ℝ} {cs : List (E → Conv (FlatIdx p.fto.1 p.fto.2))}
    {ts : List (E → ℝ)} (hc : ∀ c ∈ cs, CSm c x₀) (ht : ∀ t ∈ ts, ContDiffAt ℝ ∞ t x₀)
    (hz : p.fto.2 = 0 → ∀ᶠ x in 𝓝 x₀, ∀ c ∈ cs, (c x).epzi * (c x).epy = 1)
    (h : ∃ o, solve_1d_conical la { p with thickness := ts.map fun t => t x₀ } wl (cs.map fun c => c x₀) = .ok o) :
    ∃ g1 g2 g3 : E → SubRes (2 * p.fto.2 + 1) (2 * p.fto.1 + 1), (∀ᶠ x in 𝓝 x₀, ∀ (o : OutCon p.fto.1 p.fto.2),
      solve_1d_conical la { p with thickness := ts.map fun t => t x } wl (cs.map fun c => c x) = .ok o →
        o.out.results = (g1 x, g2 x, g3 x)) ∧ Spec.SmoothSub g1 x₀ ∧ Spec.SmoothSub g2 x₀ ∧ Spec.SmoothSub g3 x₀ := by
  obtain ⟨o₀, ho₀⟩ := h
  have hf : p.fto.2 = 0 :=
    ((solve_con_iff (p := { p with thickness := ts.map fun t => t x₀ }) hp).mp ho₀).2.1
  obtain ⟨ky, hky⟩ := kyF_const hf wl
  have main : ∀ x, (∀ c ∈ cs, (c x).epzi * (c x).epy = 1) → ∀ (o : OutCon p.fto.1 p.fto.2),
      solve_1d_conical la { p with thickness := ts.map fun t => t x } wl (cs.map fun c => c x) = .ok o →
      ∃ init, transfer_2d_1 (kxF p wl) (kyF p wl) p.n_top p.n_bot = .ok init ∧ ∃ o', transfer_2d_4 la
        (carried (2 * Real.pi / wl) (coupP2 (kxF p wl) (kyF p wl) init.2.2.1) (coupQ2 (kxF p wl) (kyF p wl) init.2.2.1) init.2.2.2
          ((cs.map fun c => c x).zip (ts.map fun t => t x))) init.1 init.2.1 p.psi p.theta p.n_top p.n_bot false = .ok o' ∧
        o'.results = o.out.results := by
    intro x hx o ho
    obtain ⟨hl, -, init, r, y, h1, hr, hy, rfl⟩ := (solve_con_iff (p := { p with thickness := ts.map fun t => t x }) hp).mp ho
    have he : SEquiv (carried (2 * Real.pi / wl) (coupP2 (kxF p wl) (kyF p wl) init.2.2.1)
        (coupQ2 (kxF p wl) (kyF p wl) init.2.2.1) init.2.2.2 ((cs.map fun c => c x).zip (ts.map fun t => t x))) r.1 := by
      refine run_propagates (fun y hy => ?_) hr
      obtain ⟨c, hc, e⟩ := List.mem_map.mp (List.of_mem_zip hy).1
      have k : Propagates (2 * Real.pi / wl) (coupP2 (kxF p wl) (kyF p wl) init.2.2.1)
          (coupQ2 (kxF p wl) (kyF p wl) init.2.2.1)
          (stepCon la false (2 * Real.pi / wl) (kxF p wl) (kyF p wl) init.2.2.1) y.1 := by
        rw [hky]
        exact propagates_con la (2 * Real.pi / wl) (kxF p wl) ky init.2.2.1 y.1 (by rw [← e]; exact hx c hc)
      exact k
    obtain ⟨o', h2, h3⟩ := transfer_2d_4_equiv he hy
    exact ⟨init, h1, o', h2, h3⟩
  obtain ⟨init, hi, o', ho', -⟩ := main x₀ (hz hf).self_of_nhds o₀ ho₀
  obtain ⟨g1, g2, g3, hg, hg'⟩ := transfer_2d_4_smooth (stack_smooth init.2.2.2 (fun c h => coup2_smooth _ _ _ (hc c h)) ht) ⟨o', ho'⟩
  refine ⟨g1, g2, g3, (hz hf).mono fun x hx o ho => ?_, hg'⟩
  obtain ⟨init', hi', o'', h2, h3⟩ := main x hx o ho
  rw [hi] at hi'
  obtain rfl := Except.ok.inj hi'
  rw [← h3]
  exact hg x o'' h2

end Meent
