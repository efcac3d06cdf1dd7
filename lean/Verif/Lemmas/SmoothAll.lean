import Verif.Lemmas.SmoothSolve
import Verif.Lemmas.Stacks
import Verif.Lemmas.ConTo2D

/-!
# Whole solves depend smoothly on the design, and thicknesses can be varied (helper lemmas)
-/

open Matrix
open scoped ContDiff Topology

namespace Meent

set_option linter.unusedSectionVars false
set_option linter.unusedSimpArgs false

variable {E : Type} [NormedAddCommGroup E] [NormedSpace ℝ E] {x₀ : E}

/-! ### Solvability is open in the thicknesses -/

theorem phaseX_smooth {n : Type} [DecidableEq n] {k0 : ℝ} {q : n → ℂ} {d : E → ℝ} (hd : ContDiffAt ℝ ∞ d x₀) :
    MSm (fun x => phaseX k0 q (d x)) x₀ := by
  intro i j
  unfold phaseX
  by_cases h : i = j
  · subst h
    simp only [diagonal_apply_eq]
    have h1 : ContDiffAt ℝ ∞ (fun x => ((d x : ℝ) : ℂ)) x₀ := Complex.ofRealCLM.contDiff.contDiffAt.comp x₀ hd
    exact (contDiffAt_const.mul h1).cexp
  · simp only [diagonal_apply_ne _ h]
    exact contDiffAt_const

theorem run_open {n C L : Type} [Fintype n] [DecidableEq n] {k0 : ℝ} {step : C → ℝ → TState n → Res (TState n × L)}
    (hm : HasModes k0 step) (s0 : TState n × List L) :
    ∀ (fs : List (C × (E → ℝ))), (∀ f ∈ fs, ContDiffAt ℝ ∞ f.2 x₀) →
      (∃ r, runLayers step (fs.map fun f => (f.1, f.2 x₀)) s0 = .ok r) →
      ∃ S : E → TState n, TSm S x₀ ∧ ∀ᶠ x in 𝓝 x₀, ∃ l, runLayers step (fs.map fun f => (f.1, f.2 x)) s0 = .ok (S x, l)
  | [], _, _ => ⟨fun _ => s0.1, TSm.const _, Filter.Eventually.of_forall fun _ => ⟨s0.2, rfl⟩⟩
  | f :: fs, hf, ⟨r, hr⟩ => by
    obtain ⟨r1, h1, h2⟩ := Except.bind_ok.mp hr
    obtain ⟨r2, h2, -⟩ := Except.bind_ok.mp h2
    obtain ⟨S, hS, hS'⟩ := run_open hm s0 fs (fun g hg => hf g (List.mem_cons_of_mem _ hg)) ⟨r1, h1⟩
    obtain ⟨W, V, q, hW⟩ := hm _ _ _ _ h2
    have e : r1.1 = S x₀ := by
      obtain ⟨l, hl⟩ := hS'.self_of_nhds
      rw [h1] at hl
      rw [Except.ok.inj hl]
    rw [e] at h2
    obtain ⟨Ai, B, D⟩ := (hW _ _ _).mp ⟨r2.2, h2⟩
    have hd := hf f List.mem_cons_self
    have hX : MSm (fun x => phaseX k0 q (f.2 x)) x₀ := phaseX_smooth hd
    have hA : MSm (fun x => stepA W V (S x)) x₀ :=
      (((MSm.const W⁻¹).mul hS.F).add ((MSm.const V⁻¹).mul hS.G)).smul contDiffAt_const
    have hAi := hA.inv D.hA
    have hB : MSm (fun x => (1 / 2 : ℂ) • (W⁻¹ * (S x).F - V⁻¹ * (S x).G)) x₀ :=
      (((MSm.const W⁻¹).mul hS.F).sub ((MSm.const V⁻¹).mul hS.G)).smul contDiffAt_const
    have hXBAX := ((hX.mul hB).mul hAi).mul hX
    refine ⟨fun x =>
      { F := W * (1 + phaseX k0 q (f.2 x) * ((1 / 2 : ℂ) • (W⁻¹ * (S x).F - V⁻¹ * (S x).G)) * (stepA W V (S x))⁻¹ * phaseX k0 q (f.2 x)),
        G := V * (1 - phaseX k0 q (f.2 x) * ((1 / 2 : ℂ) • (W⁻¹ * (S x).F - V⁻¹ * (S x).G)) * (stepA W V (S x))⁻¹ * phaseX k0 q (f.2 x)),
        T := (S x).T * (stepA W V (S x))⁻¹ * phaseX k0 q (f.2 x) }, ?_, ?_⟩
    · exact ⟨(MSm.const W).mul ((MSm.const 1).add hXBAX), (MSm.const V).mul ((MSm.const 1).sub hXBAX), (hS.T.mul hAi).mul hX⟩
    · filter_upwards [hS', hA.isUnit D.hA] with x hx hu
      obtain ⟨l, hl⟩ := hx
      obtain ⟨l', hl'⟩ := (hW (f.2 x) (S x) _).mpr ⟨_, _, ⟨D.hW, D.hV, hu, rfl, rfl, rfl⟩⟩
      refine ⟨l ++ [l'], ?_⟩
      show (runLayers step (fs.map fun f => (f.1, f.2 x)) s0 >>= _) = _
      rw [Except.bind_ok]
      refine ⟨_, hl, ?_⟩
      rw [Except.bind_ok]
      exact ⟨_, hl', rfl⟩

theorem transfer_1d_4_open {ff : ℕ} {la : LinAlg} {pol : ℝ} {s : E → TState (Fin ff)} {kzt kzb : Fin ff → ℂ} {theta nt nb : ℂ}
    (hs : TSm s x₀) (h : ∃ o, transfer_1d_4 la pol (s x₀) kzt kzb theta nt nb false = .ok o) :
    ∀ᶠ x in 𝓝 x₀, ∃ o, transfer_1d_4 la pol (s x) kzt kzb theta nt nb false = .ok o := by
  obtain ⟨o, h⟩ := h
  have key : ∀ K : Matrix (Fin ff) (Fin ff) ℂ, IsUnit ((s x₀).G + K * (s x₀).F).det →
      ∀ᶠ x in 𝓝 x₀, IsUnit ((s x).G + K * (s x).F).det := fun K hu => (hs.G.add ((MSm.const K).mul hs.F)).isUnit hu
  by_cases h0 : pol = 0
  · subst h0
    unfold transfer_1d_4 at h ⊢
    simp only [if_true] at h ⊢
    obtain ⟨N, e2, -⟩ := Except.bind_ok.mp h
    refine (key _ (meeinv_false_ok.mp e2).1).mono fun x hx => ?_
    rw [meeinv_false_ok.mpr ⟨hx, rfl⟩]
    exact ⟨_, rfl⟩
  · by_cases h1 : pol = 1
    · subst h1
      unfold transfer_1d_4 at h ⊢
      simp only [one_ne_zero, if_true, if_false] at h ⊢
      obtain ⟨N, e2, -⟩ := Except.bind_ok.mp h
      refine (key _ (meeinv_false_ok.mp e2).1).mono fun x hx => ?_
      rw [meeinv_false_ok.mpr ⟨hx, rfl⟩]
      exact ⟨_, rfl⟩
    · unfold transfer_1d_4 at h
      simp only [h0, h1, if_false] at h
      simp [bind, Except.bind] at h

theorem transfer_2d_4_open {fx fy : ℕ} {la : LinAlg} {s : E → TState (FlatIdx fx fy ⊕ FlatIdx fx fy)} {kzt kzb : FlatIdx fx fy → ℂ}
    {psi theta nt nb : ℂ} (hs : TSm s x₀) (h : ∃ o, transfer_2d_4 la (s x₀) kzt kzb psi theta nt nb false = .ok o) :
    ∀ᶠ x in 𝓝 x₀, ∃ o, transfer_2d_4 la (s x) kzt kzb psi theta nt nb false = .ok o := by
  obtain ⟨o₀, h⟩ := h
  unfold transfer_2d_4 at h ⊢
  simp only [Except.bind_ok, meeinv_false_ok, Except.ok.injEq] at h ⊢
  obtain ⟨N, ⟨hu, rfl⟩, -⟩ := h
  exact ((finalA_smooth hs).isUnit hu).mono fun x hx => ⟨_, _, ⟨hx, rfl⟩, rfl⟩

theorem zip_eval' {C : Type} (cs : List C) (ts : List (E → ℝ)) (x : E) :
    cs.zip (ts.map fun t => t x) = (cs.zip ts).map fun f => (f.1, f.2 x) := by
  rw [List.zip_map_right]
  rfl

theorem zip_smooth {C : Type} {cs : List C} {ts : List (E → ℝ)} (ht : ∀ t ∈ ts, ContDiffAt ℝ ∞ t x₀) :
    ∀ f ∈ cs.zip ts, ContDiffAt ℝ ∞ f.2 x₀ := fun f hf => ht _ (List.of_mem_zip (a := f.1) (b := f.2) hf).2

theorem solve_1d_open {la : LinAlg} {p : Params} (hp : p.use_pinv = false) {wl : ℝ} {cs : List (Conv (Fin (2 * p.fto.1 + 1)))}
    {ts : List (E → ℝ)} (ht : ∀ t ∈ ts, ContDiffAt ℝ ∞ t x₀)
    (h : ∃ o, solve_1d la { p with thickness := ts.map fun t => t x₀ } wl cs = .ok o) :
    ∀ᶠ x in 𝓝 x₀, ∃ o, solve_1d la { p with thickness := ts.map fun t => t x } wl cs = .ok o := by
  obtain ⟨o, h⟩ := h
  obtain ⟨hl, init, r, y, h1, hr, hy, -⟩ := (solve_1d_iff (p := { p with thickness := ts.map fun t => t x₀ }) hp).mp h
  simp only [zip_eval'] at hr
  obtain ⟨S, hS, hS'⟩ := run_open (hasModes_1d la (p := { p with thickness := ts.map fun t => t x₀ }) hp (2 * Real.pi / wl) (kxVec p wl))
    (init.2.2, []) (cs.zip ts) (zip_smooth ht) ⟨r, hr⟩
  have e : r.1 = S x₀ := by
    obtain ⟨l, hl⟩ := hS'.self_of_nhds
    have := hr.symm.trans hl
    rw [Except.ok.inj this]
  rw [e] at hy
  filter_upwards [hS', transfer_1d_4_open hS ⟨y, hy⟩] with x hx hy'
  obtain ⟨l, hx⟩ := hx
  obtain ⟨y', hy'⟩ := hy'
  refine ⟨_, (solve_1d_iff (p := { p with thickness := ts.map fun t => t x }) hp).mpr
    ⟨by simpa using hl, init, (S x, l), y', h1, ?_, hy', rfl⟩⟩
  simp only [zip_eval']
  exact hx

theorem solve_2d_open {la : LinAlg} {p : Params} (hp : p.use_pinv = false) {wl : ℝ} {cs : List (Conv (FlatIdx p.fto.1 p.fto.2))}
    {ts : List (E → ℝ)} (ht : ∀ t ∈ ts, ContDiffAt ℝ ∞ t x₀)
    (h : ∃ o, solve_2d la { p with thickness := ts.map fun t => t x₀ } wl cs = .ok o) :
    ∀ᶠ x in 𝓝 x₀, ∃ o, solve_2d la { p with thickness := ts.map fun t => t x } wl cs = .ok o := by
  obtain ⟨o, h⟩ := h
  obtain ⟨hl, init, r, y, h1, hr, hy, -⟩ := (solve_2d_iff (p := { p with thickness := ts.map fun t => t x₀ }) hp).mp h
  simp only [zip_eval'] at hr
  obtain ⟨S, hS, hS'⟩ := run_open (hasModes_2d la (2 * Real.pi / wl) (kxF p wl) (kyF p wl) init.2.2.1)
    (init.2.2.2, []) (cs.zip ts) (zip_smooth ht) ⟨r, hr⟩
  have e : r.1 = S x₀ := by
    obtain ⟨l, hl⟩ := hS'.self_of_nhds
    have := hr.symm.trans hl
    rw [Except.ok.inj this]
  rw [e] at hy
  filter_upwards [hS', transfer_2d_4_open hS ⟨y, hy⟩] with x hx hy'
  obtain ⟨l, hx⟩ := hx
  obtain ⟨y', hy'⟩ := hy'
  refine ⟨_, (solve_2d_iff (p := { p with thickness := ts.map fun t => t x }) hp).mpr
    ⟨by simpa using hl, init, (S x, l), y', h1, ?_, hy', rfl⟩⟩
  simp only [zip_eval']
  exact hx

theorem solve_con_open {la : LinAlg} {p : Params} (hp : p.use_pinv = false) {wl : ℝ} {cs : List (Conv (FlatIdx p.fto.1 p.fto.2))}
    {ts : List (E → ℝ)} (ht : ∀ t ∈ ts, ContDiffAt ℝ ∞ t x₀)
    (h : ∃ o, solve_1d_conical la { p with thickness := ts.map fun t => t x₀ } wl cs = .ok o) :
    ∀ᶠ x in 𝓝 x₀, ∃ o, solve_1d_conical la { p with thickness := ts.map fun t => t x } wl cs = .ok o := by
  obtain ⟨o, h⟩ := h
  obtain ⟨hl, hf, init, r, y, h1, hr, hy, -⟩ := (solve_con_iff (p := { p with thickness := ts.map fun t => t x₀ }) hp).mp h
  simp only [zip_eval'] at hr
  obtain ⟨S, hS, hS'⟩ := run_open (hasModes_con la (2 * Real.pi / wl) (kxF p wl) (kyF p wl) init.2.2.1)
    (init.2.2.2, []) (cs.zip ts) (zip_smooth ht) ⟨r, hr⟩
  have e : r.1 = S x₀ := by
    obtain ⟨l, hl⟩ := hS'.self_of_nhds
    have := hr.symm.trans hl
    rw [Except.ok.inj this]
  rw [e] at hy
  filter_upwards [hS', transfer_2d_4_open hS ⟨y, hy⟩] with x hx hy'
  obtain ⟨l, hx⟩ := hx
  obtain ⟨y', hy'⟩ := hy'
  refine ⟨_, (solve_con_iff (p := { p with thickness := ts.map fun t => t x }) hp).mpr
    ⟨by simpa using hl, hf, init, (S x, l), y', h1, ?_, hy', rfl⟩⟩
  simp only [zip_eval']
  exact hx

/-! ### Whole solves -/

theorem row_smooth {fx fy : ℕ} {c : E → Conv (FlatIdx fx fy)} (h : CSm c x₀) : CSm (fun x => (c x).row) x₀ :=
  ⟨h.1.reindex _ _, h.2.1.reindex _ _, h.2.2.reindex _ _⟩

/-- Settings with another structure and other thicknesses. -/
def reshape (s : Settings) (u : Structure) (d : List ℝ) : Settings :=
  { s with ucell := u, p := { s.p with thickness := d } }

theorem row1_smooth {n fy : ℕ} {g : E → SubRes 1 n} (h : Spec.SmoothSub g x₀) : Spec.SmoothSub (fun x => (g x).row1 fy) x₀ := by
  constructor <;> intro i j
  · exact h.R_s 0 j
  · exact h.R_p 0 j
  · exact h.T_s 0 j
  · exact h.T_p 0 j
  · exact h.de_ri_s 0 j
  · exact h.de_ri_p 0 j
  · exact h.de_ri 0 j
  · exact h.de_ti_s 0 j
  · exact h.de_ti_p 0 j
  · exact h.de_ti 0 j

theorem conv_solve_smooth {la : LinAlg} {s : Settings} (hp : s.p.use_pinv = false) {u : E → Structure} {ts : List (E → ℝ)}
    {cs : List (E → Conv (FlatIdx s.p.fto.1 s.p.fto.2))} {k : ℕ} (hg : ∀ x, gratingType (reshape s (u x) (ts.map fun t => t x)) = k)
    (hu : ∀ᶠ x in 𝓝 x₀, convMats la (reshape s (u x) (ts.map fun t => t x)) = .ok (cs.map fun c => c x)) (hc : ∀ c ∈ cs, CSm c x₀)
    (ht : ∀ t ∈ ts, ContDiffAt ℝ ∞ t x₀)
    (hz : k = 1 → s.p.fto.2 = 0 → ∀ᶠ x in 𝓝 x₀, ∀ c ∈ cs, (c x).epzi * (c x).epy = 1)
    (h : ∃ r, conv_solve la (reshape s (u x₀) (ts.map fun t => t x₀)) = .ok r) :
    ∃ g : E → Result s.p.fto.1 s.p.fto.2, (∀ᶠ x in 𝓝 x₀, ∀ r, conv_solve la (reshape s (u x) (ts.map fun t => t x)) = .ok r →
      r.result = g x) ∧ Spec.SmoothResult g x₀ := by
  obtain ⟨r, h⟩ := h
  have h0 := hu.self_of_nhds
  cases r with
  | tetm o =>
    obtain ⟨convs, e1, e2, ea, e3⟩ := conv_solve_tetm.mp h
    obtain rfl := Except.ok.inj (h0.symm.trans e1)
    have em : ∀ x, List.map Conv.row (cs.map fun c => c x) = (cs.map fun c (x : E) => (c x).row).map fun c => c x := by
      intro x
      rw [List.map_map, List.map_map]
      rfl
    have e3' : solve_1d la { s.p with thickness := ts.map fun t => t x₀ } s.p.wavelength
      (List.map Conv.row (cs.map fun c => c x₀)) = .ok o := e3
    rw [em] at e3'
    obtain ⟨g, hg1, hg2⟩ := solve_1d_smooth (la := la) hp (wl := s.p.wavelength) (cs := cs.map fun c x => (c x).row) (ts := ts) (x₀ := x₀)
      (by
        intro c hcm
        obtain ⟨c', hc', rfl⟩ := List.mem_map.mp hcm
        exact row_smooth (hc c' hc')) ht ⟨o, e3'⟩
    refine ⟨fun x => { res := some ((g x).row1 s.p.fto.2), res_te_inc := none, res_tm_inc := none }, ?_, ?_⟩
    · filter_upwards [hu] with x hx r hr
      have hk : gratingType (reshape s (u x) (ts.map fun t => t x)) = 0 := by rw [hg x, ← hg x₀, e2]
      rcases conv_solve_cases hr with ⟨-, o', rfl⟩ | ⟨e, -⟩ | ⟨e, -⟩
      · obtain ⟨convs', f1, -, -, f3⟩ := conv_solve_tetm.mp hr
        obtain rfl := Except.ok.inj (hx.symm.trans f1)
        have f3' : solve_1d la { s.p with thickness := ts.map fun t => t x } s.p.wavelength
          (List.map Conv.row (cs.map fun c => c x)) = .ok o' := f3
        rw [em] at f3'
        exact congrArg (fun z => ({ res := some (SubRes.row1 s.p.fto.2 z), res_te_inc := none, res_tm_inc := none } :
          Result s.p.fto.1 s.p.fto.2)) (hg1 x o' f3')
      · rw [hk] at e; simp at e
      · rw [hk] at e; simp at e
    · exact ⟨.inr ⟨_, fun _ => rfl, row1_smooth hg2⟩, .inl fun _ => rfl, .inl fun _ => rfl⟩
  | conical o =>
    obtain ⟨convs, e1, e2, ea, e3⟩ := conv_solve_conical.mp h
    obtain rfl := Except.ok.inj (h0.symm.trans e1)
    have hk1 : k = 1 := by rw [← hg x₀, e2]
    obtain ⟨g1, g2, g3, hg1, s1, s2, s3⟩ := solve_con_smooth (la := la) hp (wl := s.p.wavelength) (cs := cs) (ts := ts) (x₀ := x₀) hc ht
      (hz hk1) ⟨o, e3⟩
    refine ⟨fun x => { res := some (g1 x), res_te_inc := some (g2 x), res_tm_inc := some (g3 x) }, ?_, ?_⟩
    · filter_upwards [hu, hg1] with x hx hx1 r hr
      have hk : gratingType (reshape s (u x) (ts.map fun t => t x)) = 1 := by rw [hg x, ← hg x₀, e2]
      rcases conv_solve_cases hr with ⟨e, -⟩ | ⟨-, ⟨o', rfl⟩ | rfl⟩ | ⟨e, -⟩
      · rw [hk] at e; simp at e
      · obtain ⟨convs', f1, -, -, f3⟩ := conv_solve_conical.mp hr
        obtain rfl := Except.ok.inj (hx.symm.trans f1)
        have := hx1 o' f3
        exact congrArg (fun z : SubRes (2 * s.p.fto.2 + 1) (2 * s.p.fto.1 + 1) × SubRes (2 * s.p.fto.2 + 1) (2 * s.p.fto.1 + 1) ×
          SubRes (2 * s.p.fto.2 + 1) (2 * s.p.fto.1 + 1) => ({ res := some z.1, res_te_inc := some z.2.1, res_tm_inc := some z.2.2 } :
            Result s.p.fto.1 s.p.fto.2)) this
      · exfalso
        have : (reshape s (u x) (ts.map fun t => t x)).algo ≠ .tmm := by
          intro ha
          obtain ⟨cv, -, hs⟩ := conv_solve_ok.mp hr
          unfold solve_for_conv at hs
          rw [hk, ha] at hs
          simp only [Except.bind_ok] at hs
          obtain ⟨_, _, hs⟩ := hs
          simp at hs
        exact this ea
      · rw [hk] at e; simp at e
    · exact ⟨.inr ⟨_, fun _ => rfl, s1⟩, .inr ⟨_, fun _ => rfl, s2⟩, .inr ⟨_, fun _ => rfl, s3⟩⟩
  | conicalSmm =>
    have hk0 : gratingType (reshape s (u x₀) (ts.map fun t => t x₀)) = 1 := by
      rcases conv_solve_cases h with ⟨_, o, e⟩ | ⟨e, _⟩ | ⟨_, o, e⟩
      · simp at e
      · exact e
      · simp at e
    have ha : s.algo ≠ .tmm := by
      intro ha
      obtain ⟨cv, -, hs⟩ := conv_solve_ok.mp h
      unfold solve_for_conv at hs
      rw [hk0, show (reshape s (u x₀) (ts.map fun t => t x₀)).algo = .tmm from ha] at hs
      simp only [Except.bind_ok] at hs
      obtain ⟨_, _, hs⟩ := hs
      simp at hs
    refine ⟨fun x => { res := none, res_te_inc := none, res_tm_inc := none }, Filter.Eventually.of_forall fun x r hr => ?_,
      .inl fun _ => rfl, .inl fun _ => rfl, .inl fun _ => rfl⟩
    have hk : gratingType (reshape s (u x) (ts.map fun t => t x)) = 1 := by rw [hg x, ← hg x₀, hk0]
    rcases conv_solve_cases hr with ⟨e, -⟩ | ⟨-, ⟨o', rfl⟩ | rfl⟩ | ⟨e, -⟩
    · rw [hk] at e; simp at e
    · obtain ⟨_, _, _, ha', _⟩ := conv_solve_conical.mp hr
      exact absurd ha' ha
    · rfl
    · rw [hk] at e; simp at e
  | twoD o =>
    obtain ⟨convs, e1, e2, ea, e3⟩ := conv_solve_twoD.mp h
    obtain rfl := Except.ok.inj (h0.symm.trans e1)
    obtain ⟨g1, g2, g3, hg1, s1, s2, s3⟩ := solve_2d_smooth (la := la) hp (wl := s.p.wavelength) (cs := cs) (ts := ts) (x₀ := x₀) hc ht
      ⟨o, e3⟩
    refine ⟨fun x => { res := some (g1 x), res_te_inc := some (g2 x), res_tm_inc := some (g3 x) }, ?_, ?_⟩
    · filter_upwards [hu] with x hx r hr
      have hk : gratingType (reshape s (u x) (ts.map fun t => t x)) = 2 := by rw [hg x, ← hg x₀, e2]
      rcases conv_solve_cases hr with ⟨e, -⟩ | ⟨e, -⟩ | ⟨-, o', rfl⟩
      · rw [hk] at e; simp at e
      · rw [hk] at e; simp at e
      · obtain ⟨convs', f1, -, -, f3⟩ := conv_solve_twoD.mp hr
        obtain rfl := Except.ok.inj (hx.symm.trans f1)
        have := hg1 x o' f3
        exact congrArg (fun z : SubRes (2 * s.p.fto.2 + 1) (2 * s.p.fto.1 + 1) × SubRes (2 * s.p.fto.2 + 1) (2 * s.p.fto.1 + 1) ×
          SubRes (2 * s.p.fto.2 + 1) (2 * s.p.fto.1 + 1) => ({ res := some z.1, res_te_inc := some z.2.1, res_tm_inc := some z.2.2 } :
            Result s.p.fto.1 s.p.fto.2)) this
    · exact ⟨.inr ⟨_, fun _ => rfl, s1⟩, .inr ⟨_, fun _ => rfl, s2⟩, .inr ⟨_, fun _ => rfl, s3⟩⟩

/-! ### Designs -/

theorem ofFn_eval {M : ℕ} {α : Type} (f : E → Fin M → α) (x : E) :
    List.ofFn (f x) = (List.ofFn fun i (y : E) => f y i).map fun t => t x := by
  rw [List.map_ofFn]
  rfl

theorem design_smooth {L ny nx M : ℕ} {x₀ : Spec.Design L ny nx M} (i : Fin L) (j : Fin ny) :
    VSm (fun x : Spec.Design L ny nx M => x.1 i j) x₀ := by
  intro k
  fun_prop

theorem design_thickness {L ny nx M : ℕ} {x₀ : Spec.Design L ny nx M} :
    ∀ t ∈ List.ofFn (fun i (x : Spec.Design L ny nx M) => x.2 i), ContDiffAt ℝ ∞ t x₀ := by
  intro t ht
  obtain ⟨i, rfl⟩ := (List.mem_ofFn' _ _).mp ht
  fun_prop

theorem convMats_design {la : LinAlg} {s : Settings} (hp : s.p.use_pinv = false) {L ny nx M : ℕ} {x₀ : Spec.Design L ny nx M}
    {c₀ : List (Conv (FlatIdx s.p.fto.1 s.p.fto.2))} (h : convMats la (Spec.withDesign s x₀) = .ok c₀) :
    ∃ cs : List (Spec.Design L ny nx M → Conv (FlatIdx s.p.fto.1 s.p.fto.2)),
      (∀ᶠ x in 𝓝 x₀, convMats la (Spec.withDesign s x) = .ok (cs.map fun c => c x)) ∧ ∀ c ∈ cs, CSm c x₀ := by
  have er : ∀ x : Spec.Design L ny nx M, (Ucell.mk ny nx (List.ofFn x.1)).rasters =
      (List.ofFn fun i (y : Spec.Design L ny nx M) => Raster.mk ny nx (y.1 i)).map fun l => l x := by
    intro x
    simp only [Ucell.rasters, List.map_ofFn]
    rfl
  have key : ∀ x cs, convMats la (Spec.withDesign s x) = .ok cs ↔ (s.fourier_type = 0 ∨ s.fourier_type = 1) ∧
      ((List.ofFn fun i (y : Spec.Design L ny nx M) => Raster.mk ny nx (y.1 i)).map fun l => l x).mapM (rasterConv la s) = .ok cs := by
    intro x cs
    rw [← er]
    exact convMats_raster (s := Spec.withDesign s x) rfl
  obtain ⟨hf, hm⟩ := (key _ _).mp h
  obtain ⟨cs, h1, h2⟩ := mapM_smooth (f := rasterConv la s) (S := fun c => CSm c x₀) (x₀ := x₀) (by
    intro l hl b hb
    obtain ⟨i, rfl⟩ := (List.mem_ofFn' _ _).mp hl
    unfold rasterConv at hb ⊢
    by_cases h0 : s.fourier_type = 0
    · simp only [h0, if_true, hp] at hb ⊢
      exact convDiscrete_smooth (fun j => design_smooth i j) hb
    · simp only [h0, if_false, hp] at hb ⊢
      rcases Nat.eq_zero_or_pos ny with rfl | hy
      · refine ⟨fun _ => b, Filter.Eventually.of_forall fun x => ?_, MSm.const _, MSm.const _, MSm.const _⟩
        rw [← hb, Subsingleton.elim (x.1 i) (x₀.1 i)]
      · rcases Nat.eq_zero_or_pos nx with rfl | hx
        · refine ⟨fun _ => b, Filter.Eventually.of_forall fun x => ?_, MSm.const _, MSm.const _, MSm.const _⟩
          rw [← hb, Subsingleton.elim (x.1 i) (x₀.1 i)]
        · have := NeZero.of_pos hy
          have := NeZero.of_pos hx
          exact convRaster_smooth (fun j => design_smooth i j) hb) hm
  exact ⟨cs, h1.mono fun x hx => (key _ _).mpr ⟨hf, hx⟩, h2⟩

theorem epzi_epy_of_one {la : LinAlg} {s : Settings} (hp : s.p.use_pinv = false) (hg : gratingType s = 1)
    (hf : s.p.fto.2 = 0) {cs : List (Conv (FlatIdx s.p.fto.1 s.p.fto.2))} (h : convMats la s = .ok cs) :
    ∀ c ∈ cs, c.epzi * c.epy = 1 := by
  obtain ⟨u, hu, hy, -⟩ := gratingType_one hg
  refine convMats_epzi_epy hp hu (fun l _ i i' j => ?_) h hf
  have : Subsingleton (Fin u.ny) := by rw [hy]; infer_instance
  rw [Subsingleton.elim i i']

theorem conv_solve_open {la : LinAlg} {s : Settings} (hp : s.p.use_pinv = false) {ts : List (E → ℝ)}
    (ht : ∀ t ∈ ts, ContDiffAt ℝ ∞ t x₀) (h : ∃ r, conv_solve la (reshape s s.ucell (ts.map fun t => t x₀)) = .ok r) :
    ∀ᶠ x in 𝓝 x₀, ∃ r, conv_solve la (reshape s s.ucell (ts.map fun t => t x)) = .ok r := by
  obtain ⟨r, h⟩ := h
  have hg : ∀ x, gratingType (reshape s s.ucell (ts.map fun t => t x)) = gratingType s := fun _ => rfl
  cases r with
  | tetm o =>
    obtain ⟨cs, e1, e2, ea, e3⟩ := conv_solve_tetm.mp h
    refine (solve_1d_open (la := la) hp (wl := s.p.wavelength) (cs := cs.map Conv.row) ht ⟨o, e3⟩).mono ?_
    rintro x ⟨o', ho'⟩
    exact ⟨.tetm o', conv_solve_tetm.mpr ⟨cs, e1, e2, ea, ho'⟩⟩
  | conical o =>
    obtain ⟨cs, e1, e2, ea, e3⟩ := conv_solve_conical.mp h
    refine (solve_con_open (la := la) hp (wl := s.p.wavelength) (cs := cs) ht ⟨o, e3⟩).mono ?_
    rintro x ⟨o', ho'⟩
    exact ⟨.conical o', conv_solve_conical.mpr ⟨cs, e1, e2, ea, ho'⟩⟩
  | conicalSmm =>
    refine Filter.Eventually.of_forall fun x => ⟨.conicalSmm, ?_⟩
    obtain ⟨cs, e1, e2⟩ := conv_solve_ok.mp h
    refine conv_solve_ok.mpr ⟨cs, e1, ?_⟩
    have hk : gratingType (reshape s s.ucell (ts.map fun t => t x₀)) = 1 := by
      rcases conv_solve_cases h with ⟨_, o, e⟩ | ⟨e, _⟩ | ⟨_, o, e⟩
      · simp at e
      · exact e
      · simp at e
    have hk' : gratingType (reshape s s.ucell (ts.map fun t => t x)) = 1 := hk
    unfold solve_for_conv at e2 ⊢
    rw [hk] at e2
    rw [hk']
    have ea : ∀ y, (reshape s s.ucell (ts.map fun t => t y)).algo = s.algo := fun _ => rfl
    rw [ea] at e2 ⊢
    cases ha : s.algo with
    | tmm =>
      rw [ha] at e2
      simp only [Except.bind_ok] at e2
      obtain ⟨_, _, e2⟩ := e2
      simp at e2
    | smm => rfl
    | other => rw [ha] at e2; simp at e2
  | twoD o =>
    obtain ⟨cs, e1, e2, ea, e3⟩ := conv_solve_twoD.mp h
    refine (solve_2d_open (la := la) hp (wl := s.p.wavelength) (cs := cs) ht ⟨o, e3⟩).mono ?_
    rintro x ⟨o', ho'⟩
    exact ⟨.twoD o', conv_solve_twoD.mpr ⟨cs, e1, e2, ea, ho'⟩⟩

end Meent
