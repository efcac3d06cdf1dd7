import Verif.Lemmas.Exchange
import Verif.Lemmas.YRows
import Verif.Lemmas.EigBasis

/-!
# Conical solves replayed by the 2D formulation (helper lemmas)
-/

open Matrix

namespace Meent

set_option linter.unusedSectionVars false
set_option linter.unusedSimpArgs false

section
variable {m : Type} [Fintype m] [DecidableEq m]

theorem stepCon_to_2d {la la' : LinAlg} {k0 d : ℝ} {kx varphi : m → ℂ} {ky : ℂ} {c : Conv m}
    {s s' : TState (m ⊕ m)} {r : TState (m ⊕ m) × LayerInfoCon m} (hz : c.epzi * c.epy = 1)
    (hb : BasisAt la' (omega2LR kx (fun _ => ky) c))
    (hs : stepCon la false k0 kx (fun _ => ky) varphi c d s = .ok r) (he : SEquiv s s') :
    ∃ r', step2d la' false k0 kx (fun _ => ky) varphi c d s' = .ok r' ∧ SEquiv r.1 r'.1 := by
  unfold stepCon at hs
  simp only [Except.bind_ok, transfer_1d_conical_3_eq, Except.ok.injEq] at hs
  obtain ⟨M, hM, r3, h3, rfl⟩ := hs
  rw [conW_eq, conV_eq] at h3
  have hd := tmmStep_ok.mp h3
  have hW := isUnit_det_of_mul_right hd.hW
  have hV := isUnit_det_of_mul_right hd.hV
  have hp := modePair_con hz hM
  have hq := conModes_q_ne hM hW hV
  obtain ⟨M', hM', hW'⟩ := modes2d_exists hp hq hW hb
  obtain ⟨t', Ai', B', hd', he'⟩ := hp.replay (modePair_2d hM') (conModes_branch hM) (modes2d_branch hM') hq
    (modes2d_q_ne hM') hW' hd he
  refine ⟨(t', ⟨c.epzi, M', d, Ai', B'⟩), ?_, he'⟩
  unfold step2d
  simp only [Except.bind_ok, transfer_2d_3_eq, Except.ok.injEq, bigW2d_eq, bigV2d_eq]
  exact ⟨M', hM', (t', Ai', B'), tmmStep_ok.mpr hd', rfl⟩

end

theorem kyF_const {p : Params} (hf : p.fto.2 = 0) (wl : ℝ) : ∃ k : ℂ, kyF p wl = fun _ => k := by
  refine ⟨kyF p wl ⟨0, by positivity⟩, ?_⟩
  funext i
  unfold kyF tileY
  congr 1
  ext
  have h1 := (i.divNat (m := 2 * p.fto.2 + 1) (n := 2 * p.fto.1 + 1)).isLt
  have h2 := ((⟨0, by positivity⟩ : FlatIdx p.fto.1 p.fto.2).divNat (m := 2 * p.fto.2 + 1) (n := 2 * p.fto.1 + 1)).isLt
  omega

theorem run_transfer_mem {S C L L' : Type} {step : C → ℝ → S → Res (S × L)} {step' : C → ℝ → S → Res (S × L')}
    (P : S → S → Prop) (xs : List (C × ℝ)) :
    (∀ x ∈ xs, ∀ s s' r, step x.1 x.2 s = .ok r → P s s' → ∃ r', step' x.1 x.2 s' = .ok r' ∧ P r.1 r'.1) →
    ∀ {s s' : S} {r : S × List L}, P s s' → runLayers step xs (s, []) = .ok r →
      ∃ r', runLayers step' xs (s', []) = .ok r' ∧ P r.1 r'.1 := by
  induction xs with
  | nil =>
    intro _ s s' r he hr
    simp only [runLayers, Except.ok.injEq] at hr
    subst hr
    exact ⟨_, rfl, he⟩
  | cons x xs ih =>
    intro h s s' r he hr
    obtain ⟨a, ha, b, hb, rfl⟩ := runLayers_cons.mp hr
    obtain ⟨a', ha', hea⟩ := ih (fun y hy => h y (List.mem_cons_of_mem _ hy)) he ha
    obtain ⟨b', hb', heb⟩ := h x List.mem_cons_self _ _ _ hb hea
    exact ⟨_, runLayers_cons.mpr ⟨a', ha', b', hb', rfl⟩, heb⟩

/-- A run of successful steps on both sides. -/
theorem run_rel_mem {S C L L' : Type} {step : C → ℝ → S → Res (S × L)} {step' : C → ℝ → S → Res (S × L')}
    (P : S → S → Prop) (xs : List (C × ℝ)) :
    (∀ x ∈ xs, ∀ s s' r r', step x.1 x.2 s = .ok r → step' x.1 x.2 s' = .ok r' → P s s' → P r.1 r'.1) →
    ∀ {s s' : S} {r : S × List L} {r' : S × List L'}, P s s' → runLayers step xs (s, []) = .ok r →
      runLayers step' xs (s', []) = .ok r' → P r.1 r'.1 := by
  induction xs with
  | nil =>
    intro _ s s' r r' he hr hr'
    simp only [runLayers, Except.ok.injEq] at hr hr'
    subst hr hr'
    exact he
  | cons x xs ih =>
    intro h s s' r r' he hr hr'
    obtain ⟨a, ha, b, hb, rfl⟩ := runLayers_cons.mp hr
    obtain ⟨a', ha', b', hb', rfl⟩ := runLayers_cons.mp hr'
    exact h x List.mem_cons_self _ _ _ _ hb hb' (ih (fun y hy => h y (List.mem_cons_of_mem _ hy)) he ha ha')

theorem solve_con_to_2d {la la' : LinAlg} {p : Params} {wl : ℝ}
    {convs : List (Conv (FlatIdx p.fto.1 p.fto.2))} {o : OutCon p.fto.1 p.fto.2}
    (hp : p.use_pinv = false) (hz : p.fto.2 = 0 → ∀ c ∈ convs, c.epzi * c.epy = 1)
    (hb : Spec.ReturnsBasis la') (h : solve_1d_conical la p wl convs = .ok o) :
    ∃ o', solve_2d la' p wl convs = .ok o' ∧ o'.out.results = o.out.results := by
  obtain ⟨hl, hf, init, r, x, h1, hr, h4, rfl⟩ := (solve_con_iff hp).mp h
  obtain ⟨k, hk⟩ := kyF_const hf wl
  obtain ⟨r', hr', he⟩ := run_transfer_mem SEquiv (step' := step2d la' false (2 * Real.pi / wl)
      (kxF p wl) (kyF p wl) init.2.2.1) _ (by
    intro y hy s s' r h he
    rw [hk] at h ⊢
    exact stepCon_to_2d (hz hf _ (List.of_mem_zip hy).1) (hb _) h he) (SEquiv.refl _) hr
  obtain ⟨x', hx', e⟩ := transfer_2d_4_equiv he.symm h4
  exact ⟨⟨x', r'.2⟩, (solve_2d_iff hp).mpr ⟨hl, init, r', x', h1, hr', hx', rfl⟩, e⟩

theorem solve_con_2d_agree {la la' : LinAlg} {p : Params} {wl : ℝ}
    {convs : List (Conv (FlatIdx p.fto.1 p.fto.2))} {o : OutCon p.fto.1 p.fto.2} {o' : Out2D p.fto.1 p.fto.2}
    (hp : p.use_pinv = false) (hz : p.fto.2 = 0 → ∀ c ∈ convs, c.epzi * c.epy = 1)
    (h : solve_1d_conical la p wl convs = .ok o) (h' : solve_2d la' p wl convs = .ok o') :
    o'.out.results = o.out.results := by
  obtain ⟨hl, hf, init, r, x, h1, hr, h4, rfl⟩ := (solve_con_iff hp).mp h
  obtain ⟨hl', init', r', x', h1', hr', h4', rfl⟩ := (solve_2d_iff hp).mp h'
  obtain rfl := Except.ok.inj (h1.symm.trans h1')
  obtain ⟨k, hk⟩ := kyF_const hf wl
  have he : SEquiv r.1 r'.1 := by
    refine run_rel_mem SEquiv _ ?_ (SEquiv.refl _) hr hr'
    intro y hy s s' r r' h h' he
    have hb := basis2d h'
    rw [hk] at h h' hb
    obtain ⟨r'', h'', he'⟩ := stepCon_to_2d (hz hf _ (List.of_mem_zip hy).1) hb h he
    obtain rfl := Except.ok.inj (h'.symm.trans h'')
    exact he'
  obtain ⟨x'', hx'', e⟩ := transfer_2d_4_equiv he h4'
  rw [transfer_2d_4_la la' la, h4] at hx''
  obtain rfl := Except.ok.inj hx''
  exact e.symm

/-- Every one-row structure has `epzi = epy⁻¹` at y order 0. -/
theorem convMats_epzi_epy {la : LinAlg} {s : Settings} (hp : s.p.use_pinv = false) {u : Ucell}
    (hu : s.ucell = .raster u) (hy : ∀ l ∈ u.layers, ∀ i i' j, l i j = l i' j)
    {cs : List (Conv (FlatIdx s.p.fto.1 s.p.fto.2))} (h : convMats la s = .ok cs) :
    s.p.fto.2 = 0 → ∀ c ∈ cs, c.epzi * c.epy = 1 := by
  obtain ⟨p, uc, ft, enh, algo⟩ := s
  obtain ⟨nt, nb, th, ph, ps, pol, ⟨fx, fy⟩, per, wl, thk, pinv⟩ := p
  simp only at hp hu
  subst hp hu
  intro hf
  simp only at hf
  subst hf
  intro c hc
  obtain ⟨-, hm⟩ := (convMats_raster rfl).mp h
  obtain ⟨l, hl, hcl⟩ := mapM_mem hm hc
  obtain ⟨l0, hl0, rfl⟩ := List.mem_map.mp hl
  exact rasterConv_epzi_epy (hy l0 hl0) hcl

/-- The convolution matrices do not depend on the number of identical rows. -/
theorem convMats_rows {la la' : LinAlg} {s : Settings} (hp : s.p.use_pinv = false) (hf : s.p.fto.2 = 0) {k k' nx : ℕ}
    (hk : 0 < k) (hk' : 0 < k') (vs : List (Fin nx → ℂ)) {cs : List (Conv (FlatIdx s.p.fto.1 s.p.fto.2))}
    (h : convMats la { s with ucell := .raster ⟨k, nx, vs.map fun v _ j => v j⟩ } = .ok cs) :
    convMats la' { s with ucell := .raster ⟨k', nx, vs.map fun v _ j => v j⟩ } = .ok cs := by
  obtain ⟨p, uc, ft, enh, algo⟩ := s
  obtain ⟨nt, nb, th, ph, ps, pol, ⟨fx, fy⟩, per, wl, thk, pinv⟩ := p
  simp only at hp hf
  subst hp hf
  obtain ⟨hft, hm⟩ := (convMats_raster rfl).mp h
  refine (convMats_raster rfl).mpr ⟨hft, ?_⟩
  rw [mapM_ok] at hm ⊢
  simp only [Ucell.rasters, List.map_map, List.forall₂_map_left_iff] at hm ⊢
  refine hm.imp ?_
  intro v c hc
  unfold rasterConv at hc ⊢
  simp only [Function.comp_apply] at hc ⊢
  split at hc
  · rename_i h0
    rw [if_pos h0]
    exact convDiscrete_rows (la := la') hk hk' v hc
  · rename_i h0
    rw [if_neg h0]
    exact convRC_rows (la := la') hk hk' v hc

end Meent
