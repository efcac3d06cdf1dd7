import Verif.Lemmas.Invariance
import Verif.Lemmas.ConvMats
import Verif.Spec.Stacks

/-!
# Editing stacks: convolution matrices layer by layer, and runs of steps (helper lemmas)
-/

open Matrix

namespace Meent

set_option linter.unusedSectionVars false
set_option linter.unusedSimpArgs false

/-! ### Convolution matrices layer by layer -/

/-- Convolution matrices of one raster layer. -/
noncomputable def rasterConv (la : LinAlg) (s : Settings) (l : Raster) :
    Res (Conv (FlatIdx s.p.fto.1 s.p.fto.2)) :=
  if s.fourier_type = 0 then convDiscrete la l s.p.fto.1 s.p.fto.2 s.enhanced_dfs s.p.use_pinv
  else convRasterContinuous la l s.p.fto.1 s.p.fto.2 s.p.use_pinv

/-- Convolution matrices of one vector layer. -/
noncomputable def vecConv (la : LinAlg) (s : Settings) (l : VLayer) :
    Res (Conv (FlatIdx s.p.fto.1 s.p.fto.2)) := do
  let o ← l.objs
  let c ← drawLayer s.p.period l.base o
  convContinuous la c s.p.fto.1 s.p.fto.2 s.p.use_pinv

theorem convMats_raster {la : LinAlg} {s : Settings} {u : Ucell} (hu : s.ucell = .raster u)
    {cs : List (Conv (FlatIdx s.p.fto.1 s.p.fto.2))} :
    convMats la s = .ok cs ↔
      (s.fourier_type = 0 ∨ s.fourier_type = 1) ∧ u.rasters.mapM (rasterConv la s) = .ok cs := by
  unfold convMats rasterConv to_conv_mat_raster_discrete to_conv_mat_raster_continuous
  rw [hu]
  simp only
  by_cases h0 : s.fourier_type = 0
  · simp [h0]
  · by_cases h1 : s.fourier_type = 1
    · simp [h1]
    · simp [h0, h1]

theorem convMats_vector {la : LinAlg} {s : Settings} {ls : List VLayer} (hu : s.ucell = .vector ls)
    {cs : List (Conv (FlatIdx s.p.fto.1 s.p.fto.2))} :
    convMats la s = .ok cs ↔ ls.mapM (vecConv la s) = .ok cs := by
  unfold convMats modeling_vector_instruction to_conv_mat_vector
  rw [hu]
  clear hu
  simp only [Except.bind_ok, mapM_ok]
  constructor
  · rintro ⟨cells, ⟨os, h1, h2⟩, h3⟩
    induction h1 generalizing cells cs with
    | nil => cases h2; cases h3; exact .nil
    | cons ha _ ih =>
      cases h2 with
      | cons hb h2 =>
        cases h3 with
        | cons hc h3 =>
          refine .cons ?_ (ih _ h3 h2)
          simp only [Except.ok.injEq] at ha
          obtain ⟨o, ho, rfl⟩ := ha
          simp only [vecConv, Except.bind_ok]
          exact ⟨o, ho, _, hb, hc⟩
  · intro h
    induction h with
    | nil => exact ⟨[], ⟨[], .nil, .nil⟩, .nil⟩
    | cons ha _ ih =>
      obtain ⟨cells, ⟨os, h1, h2⟩, h3⟩ := ih
      simp only [vecConv, Except.bind_ok] at ha
      obtain ⟨o, ho, c, hb, hc⟩ := ha
      exact ⟨c :: cells, ⟨(_, o) :: os, .cons ⟨o, ho, rfl⟩ h1, .cons hb h2⟩, .cons hc h3⟩

theorem mapM_append_ok {α β : Type} {f : α → Res β} {xs ys : List α} {cs : List β} :
    (xs ++ ys).mapM f = .ok cs ↔
      ∃ a b, xs.mapM f = .ok a ∧ ys.mapM f = .ok b ∧ cs = a ++ b := by
  rw [List.mapM_append]
  simp only [Except.bind_ok]
  constructor
  · rintro ⟨a, ha, b, hb, e⟩
    exact ⟨a, b, ha, hb, (Except.ok.inj e).symm⟩
  · rintro ⟨a, b, ha, hb, rfl⟩
    exact ⟨a, ha, b, hb, rfl⟩

theorem mapM_cons_ok {α β : Type} {f : α → Res β} {x : α} {ys : List α} {cs : List β} :
    (x :: ys).mapM f = .ok cs ↔ ∃ a b, f x = .ok a ∧ ys.mapM f = .ok b ∧ cs = a :: b := by
  rw [List.mapM_cons]
  simp only [Except.bind_ok]
  constructor
  · rintro ⟨a, ha, b, hb, e⟩
    exact ⟨a, b, ha, hb, (Except.ok.inj e).symm⟩
  · rintro ⟨a, b, ha, hb, rfl⟩
    exact ⟨a, ha, b, hb, rfl⟩

theorem convMats_inserted {la : LinAlg} {s : Settings} {u u' : Structure} {k : ℕ} {th th' : List ℝ}
    (h : Spec.Inserted k u u') {cs' : List (Conv (FlatIdx s.p.fto.1 s.p.fto.2))}
    (hc : convMats la (Spec.withStack s u' th') = .ok cs') :
    ∃ pre c post, cs' = pre ++ c :: post ∧ pre.length = k ∧
      convMats la (Spec.withStack s u th) = .ok (pre ++ post) := by
  cases h with
  | raster pre post x =>
    obtain ⟨hf, hm⟩ := (convMats_raster rfl).mp hc
    simp only [Ucell.rasters, List.map_append, List.map_cons] at hm
    obtain ⟨a, e, ha, he, rfl⟩ := mapM_append_ok.mp hm
    obtain ⟨c, b, hx, hb, rfl⟩ := mapM_cons_ok.mp he
    refine ⟨a, c, b, rfl, by simpa using mapM_length ha, ?_⟩
    refine (convMats_raster rfl).mpr ⟨hf, ?_⟩
    simp only [Ucell.rasters, List.map_append]
    exact mapM_append_ok.mpr ⟨a, b, ha, hb, rfl⟩
  | vector pre post x =>
    obtain ⟨a, e, ha, he, rfl⟩ := mapM_append_ok.mp ((convMats_vector rfl).mp hc)
    obtain ⟨c, b, hx, hb, rfl⟩ := mapM_cons_ok.mp he
    refine ⟨a, c, b, rfl, by simpa using mapM_length ha, ?_⟩
    refine (convMats_vector rfl).mpr ?_
    exact mapM_append_ok.mpr ⟨a, b, ha, hb, rfl⟩

theorem convMats_doubled {la : LinAlg} {s : Settings} {u u' : Structure} {k : ℕ} {th th' : List ℝ}
    (h : Spec.Doubled k u u') {cs' : List (Conv (FlatIdx s.p.fto.1 s.p.fto.2))}
    (hc : convMats la (Spec.withStack s u' th') = .ok cs') :
    ∃ pre c post, cs' = pre ++ c :: c :: post ∧ pre.length = k ∧
      convMats la (Spec.withStack s u th) = .ok (pre ++ c :: post) := by
  cases h with
  | raster pre post x =>
    obtain ⟨hf, hm⟩ := (convMats_raster rfl).mp hc
    simp only [Ucell.rasters, List.map_append, List.map_cons] at hm
    obtain ⟨a, e, ha, he, rfl⟩ := mapM_append_ok.mp hm
    obtain ⟨c, e', hx, hE, rfl⟩ := mapM_cons_ok.mp he
    obtain ⟨c', b, hx', hb, rfl⟩ := mapM_cons_ok.mp hE
    obtain rfl := Except.ok.inj (hx.symm.trans hx')
    refine ⟨a, c, b, rfl, by simpa using mapM_length ha, ?_⟩
    refine (convMats_raster rfl).mpr ⟨hf, ?_⟩
    simp only [Ucell.rasters, List.map_append, List.map_cons]
    exact mapM_append_ok.mpr ⟨a, _, ha, mapM_cons_ok.mpr ⟨c, b, hx, hb, rfl⟩, rfl⟩
  | vector pre post x =>
    obtain ⟨a, e, ha, he, rfl⟩ := mapM_append_ok.mp ((convMats_vector rfl).mp hc)
    obtain ⟨c, e', hx, hE, rfl⟩ := mapM_cons_ok.mp he
    obtain ⟨c', b, hx', hb, rfl⟩ := mapM_cons_ok.mp hE
    obtain rfl := Except.ok.inj (hx.symm.trans hx')
    refine ⟨a, c, b, rfl, by simpa using mapM_length ha, ?_⟩
    refine (convMats_vector rfl).mpr ?_
    exact mapM_append_ok.mpr ⟨a, _, ha, mapM_cons_ok.mpr ⟨c, b, hx, hb, rfl⟩, rfl⟩

theorem convMats_undoubled {la : LinAlg} {s : Settings} {u u' : Structure} {k : ℕ} {th th' : List ℝ}
    (h : Spec.Doubled k u u') {cs : List (Conv (FlatIdx s.p.fto.1 s.p.fto.2))}
    (hc : convMats la (Spec.withStack s u th) = .ok cs) :
    ∃ pre c post, cs = pre ++ c :: post ∧ pre.length = k ∧
      convMats la (Spec.withStack s u' th') = .ok (pre ++ c :: c :: post) := by
  cases h with
  | raster pre post x =>
    obtain ⟨hf, hm⟩ := (convMats_raster rfl).mp hc
    simp only [Ucell.rasters, List.map_append, List.map_cons] at hm
    obtain ⟨a, e, ha, he, rfl⟩ := mapM_append_ok.mp hm
    obtain ⟨c, b, hx, hb, rfl⟩ := mapM_cons_ok.mp he
    refine ⟨a, c, b, rfl, by simpa using mapM_length ha, ?_⟩
    refine (convMats_raster rfl).mpr ⟨hf, ?_⟩
    simp only [Ucell.rasters, List.map_append, List.map_cons]
    exact mapM_append_ok.mpr ⟨a, _, ha, mapM_cons_ok.mpr ⟨c, _, hx, mapM_cons_ok.mpr ⟨c, b, hx, hb, rfl⟩, rfl⟩, rfl⟩
  | vector pre post x =>
    obtain ⟨a, e, ha, he, rfl⟩ := mapM_append_ok.mp ((convMats_vector rfl).mp hc)
    obtain ⟨c, b, hx, hb, rfl⟩ := mapM_cons_ok.mp he
    refine ⟨a, c, b, rfl, by simpa using mapM_length ha, ?_⟩
    refine (convMats_vector rfl).mpr ?_
    exact mapM_append_ok.mpr ⟨a, _, ha, mapM_cons_ok.mpr ⟨c, _, hx, mapM_cons_ok.mpr ⟨c, b, hx, hb, rfl⟩, rfl⟩, rfl⟩

/-! ### Runs of steps -/

/-- Whenever the list of steps `zs'` runs through, so does `zs`, to an equivalent state. -/
def RunSim {C : Type} (zs' zs : List (C × ℝ)) : Prop :=
  ∀ ⦃n : Type⦄ [Fintype n] [DecidableEq n] ⦃L : Type⦄ (k0 : ℝ) (step : C → ℝ → TState n → Res (TState n × L)),
    HasModes k0 step → ∀ s0 r', runLayers step zs' (s0, []) = .ok r' →
      ∃ r, runLayers step zs (s0, []) = .ok r ∧ SEquiv r.1 r'.1

theorem runLayers_map {S C C' L : Type} (f : C → C') (step : C' → ℝ → S → Res (S × L)) (zs : List (C × ℝ)) (s : S × List L) :
    runLayers step (zs.map (Prod.map f id)) s = runLayers (fun c => step (f c)) zs s := by
  induction zs with
  | nil => rfl
  | cons x xs ih => simp only [List.map_cons, runLayers, ih]; rfl

theorem RunSim.map {C C' : Type} (f : C → C') {zs' zs : List (C × ℝ)} (h : RunSim zs' zs) :
    RunSim (zs'.map (Prod.map f id)) (zs.map (Prod.map f id)) := by
  intro n _ _ L k0 step hm s0 r' hr
  rw [runLayers_map] at hr
  obtain ⟨r, h1, h2⟩ := h k0 (fun c => step (f c)) (fun c => hm (f c)) s0 r' hr
  exact ⟨r, by rw [runLayers_map]; exact h1, h2⟩

section
variable {n : Type} [Fintype n] [DecidableEq n]

theorem phaseX_zero (k0 : ℝ) (q : n → ℂ) : phaseX k0 q 0 = 1 := by
  unfold phaseX
  rw [← diagonal_one]
  congr 1
  ext i
  simp

theorem phaseX_add (k0 : ℝ) (q : n → ℂ) (d1 d2 : ℝ) :
    phaseX k0 q (d1 + d2) = phaseX k0 q d1 * phaseX k0 q d2 := by
  unfold phaseX
  rw [diagonal_mul_diagonal]
  congr 1
  ext i
  rw [← Complex.exp_add]
  congr 1
  push_cast
  ring

theorem phaseX_comm (k0 : ℝ) (q : n → ℂ) (d1 d2 : ℝ) :
    phaseX k0 q d1 * phaseX k0 q d2 = phaseX k0 q d2 * phaseX k0 q d1 := by
  rw [← phaseX_add, ← phaseX_add, add_comm]

/-- A step without propagation only changes the representation of the state. -/
theorem StepData.zero {W V : Matrix n n ℂ} {s s' : TState n} {Ai B : Matrix n n ℂ}
    (h : StepData 1 W V s s' Ai B) : SEquiv s s' := by
  refine ⟨Ai, ?_, ?_⟩
  · rw [h.Ai_eq]; exact isUnit_nonsing_inv_det_iff.mpr h.hA
  · rw [h.s'_eq]
    simp only [TState.rmul, h.F_Ai, h.G_Ai, Matrix.one_mul, Matrix.mul_one]

theorem two_half (M : Matrix n n ℂ) : (1 / 2 : ℂ) • (M + M) = M := by
  rw [← two_smul ℂ M, smul_smul]; norm_num

/-- A second step through the same modes. -/
theorem StepData.again {X1 X2 W V : Matrix n n ℂ} {s s' : TState n} {Ai B : Matrix n n ℂ}
    (hc : X1 * X2 = X2 * X1) (h : StepData X2 W V s s' Ai B) :
    ∃ s'', StepData X1 W V s' s'' 1 (X2 * B * Ai * X2) ∧ StepData (X1 * X2) W V s s'' Ai B := by
  have hA : stepA W V s' = 1 := by
    rw [h.s'_eq]
    simp only [stepA, nonsing_inv_mul_cancel_left _ _ h.hW, nonsing_inv_mul_cancel_left _ _ h.hV]
    rw [show (1 + X2 * B * Ai * X2 + (1 - X2 * B * Ai * X2) : Matrix n n ℂ) = 1 + 1 by abel, two_half]
  refine ⟨_, ⟨h.hW, h.hV, by rw [hA]; simp, by rw [hA]; simp, ?_, rfl⟩, ⟨h.hW, h.hV, h.hA, h.Ai_eq, h.B_eq, ?_⟩⟩
  · rw [h.s'_eq]
    simp only [nonsing_inv_mul_cancel_left _ _ h.hW, nonsing_inv_mul_cancel_left _ _ h.hV]
    rw [show (1 + X2 * B * Ai * X2 - (1 - X2 * B * Ai * X2) : Matrix n n ℂ)
      = X2 * B * Ai * X2 + X2 * B * Ai * X2 by abel, two_half]
  · have e : X1 * (X2 * B * Ai * X2) * 1 * X1 = X1 * X2 * B * Ai * (X1 * X2) := by
      rw [hc]; simp only [Matrix.mul_assoc, Matrix.mul_one]
      rw [← Matrix.mul_assoc X1, hc]; simp only [Matrix.mul_assoc]
    rw [e, h.s'_eq]
    simp only [Matrix.mul_one, Matrix.mul_assoc]
    rw [hc]

end

theorem runLayers_cons {S C L : Type} {step : C → ℝ → S → Res (S × L)} {x : C × ℝ} {xs : List (C × ℝ)}
    {s r : S × List L} :
    runLayers step (x :: xs) s = .ok r ↔
      ∃ a, runLayers step xs s = .ok a ∧ ∃ b, step x.1 x.2 a.1 = .ok b ∧ r = (b.1, a.2 ++ [b.2]) := by
  simp only [runLayers, Except.bind_ok, Except.ok.injEq]
  constructor
  · rintro ⟨a, ha, b, hb, rfl⟩; exact ⟨a, ha, b, hb, rfl⟩
  · rintro ⟨a, ha, b, hb, rfl⟩; exact ⟨a, ha, b, hb, rfl⟩

/-- Extending two related lists of steps at the front. -/
theorem RunSim.append {C : Type} {zs' zs : List (C × ℝ)} (h : RunSim zs' zs) (xs : List (C × ℝ)) :
    RunSim (xs ++ zs') (xs ++ zs) := by
  intro n _ _ L k0 step hm s0 r' hr
  rw [runLayers_append, Except.bind_ok] at hr
  obtain ⟨a, ha, hr⟩ := hr
  obtain ⟨b, hb, he⟩ := h k0 step hm s0 a ha
  obtain ⟨r, h1, h2⟩ := hm.run_equiv xs (s := b.1) (t := a.1) (ls := b.2) (lt := a.2) he hr
  exact ⟨r, by rw [runLayers_append, Except.bind_ok]; exact ⟨b, hb, h1⟩, h2⟩

theorem RunSim.zero {C : Type} (c : C) (ys : List (C × ℝ)) : RunSim ((c, 0) :: ys) ys := by
  intro n _ _ L k0 step hm s0 r' hr
  rw [runLayers_cons] at hr
  obtain ⟨a, ha, b, hb, rfl⟩ := hr
  refine ⟨a, ha, ?_⟩
  obtain ⟨W, V, q, hiff⟩ := hm c 0 a.1 b hb
  obtain ⟨Ai, B, hd⟩ := (hiff 0 a.1 b.1).mp ⟨b.2, hb⟩
  rw [phaseX_zero] at hd
  exact hd.zero

theorem RunSim.merge {C : Type} (c : C) (d1 d2 : ℝ) (ys : List (C × ℝ)) :
    RunSim ((c, d1) :: (c, d2) :: ys) ((c, d1 + d2) :: ys) := by
  intro n _ _ L k0 step hm s0 r' hr
  rw [runLayers_cons] at hr
  obtain ⟨a, ha, b, hb, rfl⟩ := hr
  rw [runLayers_cons] at ha
  obtain ⟨a, ha, e, he, rfl⟩ := ha
  obtain ⟨W, V, q, hiff⟩ := hm c d2 a.1 e he
  obtain ⟨Ai, B, hd⟩ := (hiff d2 a.1 e.1).mp ⟨e.2, he⟩
  obtain ⟨A2, B2, hd2⟩ := (hiff d1 e.1 b.1).mp ⟨b.2, hb⟩
  obtain ⟨s'', h1, h2⟩ := hd.again (phaseX_comm k0 q d1 d2)
  obtain ⟨e', -, -⟩ := h1.unique hd2
  rw [← phaseX_add, e'] at h2
  obtain ⟨l, hl⟩ := (hiff (d1 + d2) a.1 b.1).mpr ⟨_, _, h2⟩
  exact ⟨(b.1, a.2 ++ [l]), runLayers_cons.mpr ⟨a, ha, _, hl, rfl⟩, SEquiv.refl _⟩

theorem RunSim.split {C : Type} (c : C) (d1 d2 : ℝ) (ys : List (C × ℝ)) :
    RunSim ((c, d1 + d2) :: ys) ((c, d1) :: (c, d2) :: ys) := by
  intro n _ _ L k0 step hm s0 r' hr
  rw [runLayers_cons] at hr
  obtain ⟨a, ha, b, hb, rfl⟩ := hr
  obtain ⟨W, V, q, hiff⟩ := hm c _ a.1 b hb
  obtain ⟨Ai, B, hd⟩ := (hiff _ a.1 b.1).mp ⟨b.2, hb⟩
  have hd2 : StepData (phaseX k0 q d2) W V a.1 _ Ai B := ⟨hd.hW, hd.hV, hd.hA, hd.Ai_eq, hd.B_eq, rfl⟩
  obtain ⟨l2, hl2⟩ := (hiff d2 a.1 _).mpr ⟨_, _, hd2⟩
  obtain ⟨s'', h1, h2⟩ := hd2.again (phaseX_comm k0 q d1 d2)
  rw [← phaseX_add] at h2
  obtain ⟨e', -, -⟩ := h2.unique hd
  rw [e'] at h1
  obtain ⟨l, hl⟩ := (hiff d1 _ _).mpr ⟨_, _, h1⟩
  exact ⟨(b.1, (a.2 ++ [l2]) ++ [l]),
    runLayers_cons.mpr ⟨(_, a.2 ++ [l2]), runLayers_cons.mpr ⟨a, ha, _, hl2, rfl⟩, _, hl, rfl⟩, SEquiv.refl _⟩

/-! ### Transport of whole solves -/

theorem zip_map_left' {α β γ : Type} (f : α → β) (l : List α) (m : List γ) :
    (l.map f).zip m = (l.zip m).map (Prod.map f id) := by
  rw [List.zip_map_left]

theorem conv_solve_sim {la : LinAlg} {s : Settings} {u u' : Structure} {th th' : List ℝ}
    (hp : s.p.use_pinv = false)
    (hg : gratingType (Spec.withStack s u th) = gratingType (Spec.withStack s u' th'))
    (hc : ∀ cs' : List (Conv (FlatIdx s.p.fto.1 s.p.fto.2)),
      convMats la (Spec.withStack s u' th') = .ok cs' → ∃ cs : List (Conv (FlatIdx s.p.fto.1 s.p.fto.2)),
        convMats la (Spec.withStack s u th) = .ok cs ∧
        (th'.length ≤ cs'.length → th.length ≤ cs.length ∧ RunSim (cs'.zip th') (cs.zip th)))
    {sol' : Solved s.p.fto.1 s.p.fto.2} (h : conv_solve la (Spec.withStack s u' th') = .ok sol') :
    ∃ sol : Solved s.p.fto.1 s.p.fto.2,
      conv_solve la (Spec.withStack s u th) = .ok sol ∧ sol.result = sol'.result := by
  cases sol' with
  | tetm o' =>
    obtain ⟨cs', h1, h2, h3, h4⟩ := conv_solve_tetm.mp h
    obtain ⟨cs, h1', hlen⟩ := hc cs' h1
    obtain ⟨hl, init, r, x, hi, hr, hx, rfl⟩ := (solve_1d_iff (p := (Spec.withStack s u' th').p) hp).mp h4
    obtain ⟨hl', hsim⟩ := hlen (by simpa using hl)
    rw [zip_map_left'] at hr
    obtain ⟨r', hr', he⟩ := (hsim.map Conv.row) _ _ (hasModes_1d la hp _ _) _ _ hr
    obtain ⟨x', hx', e⟩ := transfer_1d_4_equiv he hx
    refine ⟨.tetm ⟨x'.1, x'.2, r'.2⟩, ?_, ?_⟩
    · refine conv_solve_tetm.mpr ⟨cs, h1', hg.trans h2, h3, ?_⟩
      refine (solve_1d_iff (p := (Spec.withStack s u th).p) hp).mpr ?_
      refine ⟨by simpa using hl', init, r', x', hi, ?_, hx', rfl⟩
      rw [zip_map_left']
      exact hr'
    · simp only [Solved.result, e]
  | conical o' =>
    obtain ⟨cs', h1, h2, h3, h4⟩ := conv_solve_conical.mp h
    obtain ⟨cs, h1', hlen⟩ := hc cs' h1
    obtain ⟨hl, h0, init, r, x, hi, hr, hx, rfl⟩ := (solve_con_iff (p := (Spec.withStack s u' th').p) hp).mp h4
    obtain ⟨hl', hsim⟩ := hlen hl
    obtain ⟨r', hr', he⟩ := hsim _ _ (hasModes_con la _ _ _ _) _ _ hr
    obtain ⟨x', hx', e⟩ := transfer_2d_4_equiv he hx
    refine ⟨.conical ⟨x', r'.2⟩, ?_, ?_⟩
    · refine conv_solve_conical.mpr ⟨cs, h1', hg.trans h2, h3, ?_⟩
      refine (solve_con_iff (p := (Spec.withStack s u th).p) hp).mpr ?_
      exact ⟨hl', h0, init, r', x', hi, hr', hx', rfl⟩
    · simp only [Out4.results, Prod.mk.injEq] at e
      simp only [Solved.result, e]
  | conicalSmm =>
    obtain ⟨cs', h1, h2⟩ := conv_solve_ok.mp h
    obtain ⟨h2, h3⟩ := solve_for_conv_smm.mp h2
    obtain ⟨cs, h1', -⟩ := hc cs' h1
    exact ⟨.conicalSmm, conv_solve_ok.mpr ⟨cs, h1', solve_for_conv_smm.mpr ⟨hg.trans h2, h3⟩⟩, rfl⟩
  | twoD o' =>
    obtain ⟨cs', h1, h2, h3, h4⟩ := conv_solve_twoD.mp h
    obtain ⟨cs, h1', hlen⟩ := hc cs' h1
    obtain ⟨hl, init, r, x, hi, hr, hx, rfl⟩ := (solve_2d_iff (p := (Spec.withStack s u' th').p) hp).mp h4
    obtain ⟨hl', hsim⟩ := hlen hl
    obtain ⟨r', hr', he⟩ := hsim _ _ (hasModes_2d la _ _ _ _) _ _ hr
    obtain ⟨x', hx', e⟩ := transfer_2d_4_equiv he hx
    refine ⟨.twoD ⟨x', r'.2⟩, ?_, ?_⟩
    · refine conv_solve_twoD.mpr ⟨cs, h1', hg.trans h2, h3, ?_⟩
      refine (solve_2d_iff (p := (Spec.withStack s u th).p) hp).mpr ?_
      exact ⟨hl', init, r', x', hi, hr', hx', rfl⟩
    · simp only [Out4.results, Prod.mk.injEq] at e
      simp only [Solved.result, e]

theorem gratingType_inserted {s : Settings} {u u' : Structure} {k : ℕ} {th th' : List ℝ}
    (h : Spec.Inserted k u u') :
    gratingType (Spec.withStack s u th) = gratingType (Spec.withStack s u' th') := by
  cases h <;> rfl

theorem gratingType_doubled {s : Settings} {u u' : Structure} {k : ℕ} {th th' : List ℝ}
    (h : Spec.Doubled k u u') :
    gratingType (Spec.withStack s u th) = gratingType (Spec.withStack s u' th') := by
  cases h <;> rfl

end Meent
