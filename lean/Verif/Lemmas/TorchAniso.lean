import Verif.Lemmas.TorchSolve
import Verif.Lemmas.Energy2D
import Verif.Lemmas.Energy1DSolve
import Verif.Lemmas.Passive1D
import Verif.Lemmas.Passive2D
import Verif.Lemmas.AbsorbSolve
import Verif.Props.C55
import Verif.Spec.Aniso

/-!
# Anisotropic pixels in the PyTorch backend (helper lemmas)
-/

set_option linter.unusedSimpArgs false
set_option linter.unusedVariables false

open Matrix

namespace Meent

/-- The three matrices of an anisotropic layer are those of its components. -/
def FromComponents {m : Type} (cs0 cs1 cs2 : List (Conv m)) (c : Conv m) : Prop :=
  ∃ c0 ∈ cs0, ∃ c1 ∈ cs1, ∃ c2 ∈ cs2, c.epx = c0.epx ∧ c.epy = c1.epy ∧ c.epzi = c2.epzi

theorem tConvDiscrete_of {la : LinAlg} {lx ly lz : Raster} {fx fy : ℕ} {e u : Bool} {c0 c1 c2 : Conv (FlatIdx fx fy)}
    (h0 : convDiscrete la lx fx fy e u = .ok c0) (h1 : convDiscrete la ly fx fy e u = .ok c1)
    (h2 : convDiscrete la lz fx fy e u = .ok c2) : tConvDiscrete la lx ly lz fx fy e u = .ok ⟨c0.epx, c1.epy, c2.epzi⟩ := by
  unfold convDiscrete at h0 h1 h2
  simp only [Except.bind_ok, Except.ok.injEq] at h0 h1 h2
  obtain ⟨_, _, _, _, x, hx, _, _, rfl⟩ := h0
  obtain ⟨_, _, y, hy, _, _, _, _, rfl⟩ := h1
  obtain ⟨z, hz, _, _, _, _, zi, hzi, rfl⟩ := h2
  unfold tConvDiscrete
  simp only [Except.bind_ok, Except.ok.injEq]
  exact ⟨z, hz, y, hy, x, hx, by rw [tMeeinv_of_ok hzi]⟩

theorem tConvRaster_of {la : LinAlg} {lx ly lz : Raster} {fx fy : ℕ} {u : Bool} {c0 c1 c2 : Conv (FlatIdx fx fy)}
    (h0 : convRasterContinuous la lx fx fy u = .ok c0) (h1 : convRasterContinuous la ly fx fy u = .ok c1)
    (h2 : convRasterContinuous la lz fx fy u = .ok c2) : tConvRasterContinuous la lx ly lz fx fy u = .ok ⟨c0.epx, c1.epy, c2.epzi⟩ := by
  unfold convRasterContinuous convContinuous at h0 h1 h2
  simp only [Except.bind_ok, Except.ok.injEq] at h0 h1 h2
  obtain ⟨vx, kx, _, _, _, _, x, hx, _, _, rfl⟩ := h0
  obtain ⟨vy, ky, _, _, y, hy, _, _, _, _, rfl⟩ := h1
  obtain ⟨vz, kz, z, hz, _, _, _, _, zi, hzi, rfl⟩ := h2
  unfold tConvRasterContinuous tConvContinuous
  simp only [Except.bind_ok, Except.ok.injEq]
  exact ⟨vx, kx, vy, ky, vz, kz, z, hz, y, hy, x, hx, by rw [tMeeinv_of_ok hzi]⟩

theorem mapM_three {α β γ δ ε : Type} {f0 : α → Res β} {f1 : α → Res γ} {f2 : α → Res δ} {g : α → Res ε} {k : β → γ → δ → ε}
    (hk : ∀ a b c d, f0 a = .ok b → f1 a = .ok c → f2 a = .ok d → g a = .ok (k b c d)) :
    ∀ {l : List α} {bs : List β} {cs : List γ} {ds : List δ}, l.mapM f0 = .ok bs → l.mapM f1 = .ok cs → l.mapM f2 = .ok ds →
      ∃ es, l.mapM g = .ok es ∧ es.length = l.length ∧ ∀ e ∈ es, ∃ b ∈ bs, ∃ c ∈ cs, ∃ d ∈ ds, e = k b c d
  | [], _, _, _, _, _, _ => ⟨[], rfl, rfl, by simp⟩
  | a :: l, bs, cs, ds, h0, h1, h2 => by
    simp only [List.mapM_cons] at h0 h1 h2 ⊢
    obtain ⟨b, hb, h0⟩ := Except.bind_ok.mp h0
    obtain ⟨bs', hbs, h0⟩ := Except.bind_ok.mp h0
    obtain ⟨c, hc, h1⟩ := Except.bind_ok.mp h1
    obtain ⟨cs', hcs, h1⟩ := Except.bind_ok.mp h1
    obtain ⟨d, hd, h2⟩ := Except.bind_ok.mp h2
    obtain ⟨ds', hds, h2⟩ := Except.bind_ok.mp h2
    cases h0; cases h1; cases h2
    obtain ⟨es, e1, e2, e3⟩ := mapM_three hk hbs hcs hds
    refine ⟨k b c d :: es, Except.bind_ok.mpr ⟨_, hk a b c d hb hc hd, Except.bind_ok.mpr ⟨es, e1, rfl⟩⟩, by simp [e2], ?_⟩
    intro e he
    rcases List.mem_cons.mp he with rfl | he
    · exact ⟨b, List.mem_cons_self, c, List.mem_cons_self, d, List.mem_cons_self, rfl⟩
    · obtain ⟨b', hb', c', hc', d', hd', rfl⟩ := e3 e he
      exact ⟨b', List.mem_cons_of_mem _ hb', c', List.mem_cons_of_mem _ hc', d', List.mem_cons_of_mem _ hd', rfl⟩

theorem mapM_map' {α β γ : Type} (f : α → β) (g : β → Res γ) : ∀ l : List α, (l.map f).mapM g = l.mapM fun a => g (f a)
  | [] => rfl
  | a :: l => by rw [List.map_cons, List.mapM_cons, List.mapM_cons, mapM_map' f g l]

theorem tConvMats_components {la : LinAlg} {s : TSettings} {u : Ucell3} (hu : s.ucell = .aniso u)
    {cs0 cs1 cs2 : List (Conv (FlatIdx s.p.fto.1 s.p.fto.2))}
    (h0 : convMats la (Spec.component s u 0) = .ok cs0) (h1 : convMats la (Spec.component s u 1) = .ok cs1)
    (h2 : convMats la (Spec.component s u 2) = .ok cs2) :
    ∃ cs, tConvMats la s = .ok cs ∧ cs.length = u.layers.length ∧ ∀ c ∈ cs, FromComponents cs0 cs1 cs2 c := by
  have key : ∀ {es : List (Conv (FlatIdx s.p.fto.1 s.p.fto.2))},
      (∀ e ∈ es, ∃ b ∈ cs0, ∃ c ∈ cs1, ∃ d ∈ cs2, e = (⟨b.epx, c.epy, d.epzi⟩ : Conv (FlatIdx s.p.fto.1 s.p.fto.2))) →
      ∀ c ∈ es, FromComponents cs0 cs1 cs2 c := by
    intro es h c hc
    obtain ⟨c0, m0, c1, m1, c2, m2, rfl⟩ := h c hc
    exact ⟨c0, m0, c1, m1, c2, m2, rfl, rfl, rfl⟩
  unfold convMats Spec.component at h0 h1 h2
  dsimp only at h0 h1 h2
  unfold tConvMats
  simp only [hu, TStructure.components]
  by_cases hf : s.fourier_type = 0
  · simp only [hf, if_true, to_conv_mat_raster_discrete, Ucell.rasters, mapM_map', Function.comp_apply] at h0 h1 h2 ⊢
    obtain ⟨es, e1, e2, e3⟩ := mapM_three (g := fun l => tConvDiscrete la ⟨u.ny, u.nx, l 0⟩ ⟨u.ny, u.nx, l 1⟩ ⟨u.ny, u.nx, l 2⟩
      s.p.fto.1 s.p.fto.2 s.enhanced_dfs s.p.use_pinv) (k := fun a b c => ⟨a.epx, b.epy, c.epzi⟩)
      (fun a b c d hb hc hd => tConvDiscrete_of hb hc hd) h0 h1 h2
    exact ⟨es, e1, e2, key e3⟩
  · simp only [hf, if_false] at h0 h1 h2 ⊢
    by_cases hf1 : s.fourier_type = 1
    · simp only [hf1, if_true, to_conv_mat_raster_continuous, Ucell.rasters, mapM_map', Function.comp_apply] at h0 h1 h2 ⊢
      obtain ⟨es, e1, e2, e3⟩ := mapM_three (g := fun l => tConvRasterContinuous la ⟨u.ny, u.nx, l 0⟩ ⟨u.ny, u.nx, l 1⟩ ⟨u.ny, u.nx, l 2⟩
        s.p.fto.1 s.p.fto.2 s.p.use_pinv) (k := fun a b c => ⟨a.epx, b.epy, c.epzi⟩)
        (fun a b c d hb hc hd => tConvRaster_of hb hc hd) h0 h1 h2
      exact ⟨es, e1, e2, key e3⟩
    · simp only [hf1, if_false] at h0
      cases h0

/-- The convolution matrices of ordinary anisotropic media exist. -/
theorem aniso_convMats (la : LinAlg) {s : TSettings} {u : Ucell3} (hp : s.p.use_pinv = false) (h : Spec.OrdinaryAniso s u) :
    ∃ cs cs0 cs1 cs2, tConvMats la s = .ok cs ∧ cs.length = u.layers.length ∧ convMats la (Spec.component s u 0) = .ok cs0 ∧
      convMats la (Spec.component s u 1) = .ok cs1 ∧ convMats la (Spec.component s u 2) = .ok cs2 ∧
      ∀ c ∈ cs, FromComponents cs0 cs1 cs2 c := by
  have hk : ∀ k, ∃ cs, convMats la (Spec.component s u k) = .ok cs := by
    intro k
    obtain ⟨cs, h1, -⟩ := C55_ordinary la (Spec.component s u k) _ rfl h.rows h.columns h.coefficients hp (by
      intro l hl i j
      obtain ⟨l', hl', rfl⟩ := List.mem_map.mp hl
      exact h.media l' hl' k i j)
    exact ⟨cs, h1⟩
  obtain ⟨cs0, h0⟩ := hk 0
  obtain ⟨cs1, h1⟩ := hk 1
  obtain ⟨cs2, h2⟩ := hk 2
  obtain ⟨cs, e1, e2, e3⟩ := tConvMats_components h.cell h0 h1 h2
  exact ⟨cs, cs0, cs1, cs2, e1, e2, h0, h1, h2, e3⟩

theorem solve_2d_psi {la : LinAlg} {p : Params} {wl : ℝ} {convs : List (Conv (FlatIdx p.fto.1 p.fto.2))} {o : Out2D p.fto.1 p.fto.2}
    (h : solve_2d la p wl convs = .ok o) (psi : ℂ) : ∃ o', solve_2d la { p with psi := psi } wl convs = .ok o' ∧ o'.infos = o.infos := by
  unfold solve_2d at h
  obtain ⟨init, h1, h⟩ := Except.bind_ok.mp h
  obtain ⟨r, h2, h⟩ := Except.bind_ok.mp h
  obtain ⟨x, h3, h⟩ := Except.bind_ok.mp h
  cases h
  unfold transfer_2d_4 at h3
  obtain ⟨N, hN, -⟩ := Except.bind_ok.mp h3
  have : ∃ x', transfer_2d_4 la r.1 init.1 init.2.1 psi p.theta p.n_top p.n_bot p.use_pinv = .ok x' := by
    unfold transfer_2d_4
    exact ⟨_, Except.bind_ok.mpr ⟨N, hN, rfl⟩⟩
  obtain ⟨x', h3'⟩ := this
  unfold solve_2d
  refine ⟨⟨x', r.2⟩, Except.bind_ok.mpr ⟨init, h1, Except.bind_ok.mpr ⟨r, h2, Except.bind_ok.mpr ⟨x', h3', rfl⟩⟩⟩, rfl⟩

theorem tGratingType_le (s : TSettings) : tGratingType s ≤ 2 := by
  unfold tGratingType
  split
  · split_ifs <;> omega
  · omega

theorem tGratingType_zero {s : TSettings} (h : tGratingType s = 0) :
    (s.p.pol = 0 ∨ s.p.pol = 1) ∧ (s.p.phi = none ∨ s.p.phi = some 0) ∧ s.p.fto.2 = 0 := by
  unfold tGratingType at h
  split at h
  · split_ifs at h with h1 h2
    exact h2
  · omega

/-- PyTorch follows the solver that raises, as long as nothing is singular. -/
theorem torch_follows {la : LinAlg} {s : TSettings} (h : Spec.LosslessCladdings s.p) (ha : s.algo = .tmm) (hg : tGratingType s ≠ 1)
    {cs : List (Conv (FlatIdx s.p.fto.1 s.p.fto.2))} (hc : tConvMats la s = .ok cs) (hn : Spec.NoFallback la s cs) :
    (tGratingType s = 0 ∧ ∃ o o', solve_1d la s.p s.p.wavelength (cs.map Conv.row) = .ok o ∧ tConv_solve la s = .ok (.tetm o') ∧
      Spec.SameEff o.res o'.res) ∨
    (tGratingType s = 2 ∧ ∃ o o', solve_2d la { s.p with psi := Real.pi - s.p.psi } s.p.wavelength cs = .ok o ∧
      tConv_solve la s = .ok (.twoD o') ∧
      Spec.SameEff o.out.res o'.out.res ∧ Spec.SameEff o.out.res_te o'.out.res_te ∧ Spec.SameEff o.out.res_tm o'.out.res_tm) := by
  have ht0 : s.p.n_top ≠ 0 := fun h0 => by have := h.n_top_pos; rw [h0] at this; simp at this
  have hb0 : s.p.n_bot ≠ 0 := fun h0 => by have := h.n_bot_pos; rw [h0] at this; simp at this
  have hle := tGratingType_le s
  rcases (by omega : tGratingType s = 0 ∨ tGratingType s = 2) with h0 | h2
  · obtain ⟨o, ho⟩ := hn.1 h0
    obtain ⟨o', ho', -, -, e, -⟩ := tSolve_1d_of_ok h ho
    exact Or.inl ⟨h0, o, o', ho, Except.bind_ok.mpr ⟨cs, hc, tSolve_for_conv_zero h0 ha ho'⟩, e⟩
  · obtain ⟨o, ho, hq⟩ := hn.2 h2
    obtain ⟨o1, ho1, hi⟩ := solve_2d_psi ho (Real.pi - s.p.psi)
    obtain ⟨o', t, N, ho', -, e⟩ := tSolve_2d_of_ok h _ ho1 (by rw [hi]; exact fun l hl i => hq l hl i)
    obtain ⟨⟨a1, -⟩, ⟨b1, -⟩, ⟨c1, -⟩⟩ := e.rel (c := 1) (Or.inl rfl) (by rw [one_smul]; exact tFinalB_eq _ _ _ _)
      h.n_top_real ht0 h.n_bot_real hb0
    exact Or.inr ⟨h2, o1, o', ho1, Except.bind_ok.mpr ⟨cs, hc, tSolve_for_conv_two h2 ha ho'⟩, a1, b1, c1⟩

theorem SameEff.total {a b : ℕ} {r r' : SubRes a b} (h : Spec.SameEff r r') : Spec.totalEfficiency r' = Spec.totalEfficiency r := by
  unfold Spec.totalEfficiency
  rw [h.de_ri, h.de_ti]

/-- `solve_1d` reads a missing azimuth as zero. -/
theorem solve_1d_phi {la : LinAlg} {p : Params} (hphi : p.phi = none ∨ p.phi = some 0) (wl : ℝ)
    (convs : List (Conv (Fin (2 * p.fto.1 + 1)))) : solve_1d la { p with phi := none } wl convs = solve_1d la p wl convs := by
  have hk : kxVec { p with phi := none } wl = kxVec p wl := by
    funext i
    unfold kxVec
    rcases hphi with h | h <;> rw [h] <;> rfl
  unfold solve_1d
  simp only [hk]
  rfl

theorem fromComponents_hermitian {m : Type} [Fintype m] [DecidableEq m] {cs0 cs1 cs2 : List (Conv m)}
    (h0 : ∀ c ∈ cs0, c.epx.IsHermitian ∧ c.epy.IsHermitian ∧ c.epzi.IsHermitian)
    (h1 : ∀ c ∈ cs1, c.epx.IsHermitian ∧ c.epy.IsHermitian ∧ c.epzi.IsHermitian)
    (h2 : ∀ c ∈ cs2, c.epx.IsHermitian ∧ c.epy.IsHermitian ∧ c.epzi.IsHermitian) {c : Conv m} (h : FromComponents cs0 cs1 cs2 c) :
    c.epx.IsHermitian ∧ c.epy.IsHermitian ∧ c.epzi.IsHermitian := by
  obtain ⟨c0, m0, c1, m1, c2, m2, e0, e1, e2⟩ := h
  rw [e0, e1, e2]
  exact ⟨(h0 c0 m0).1, (h1 c1 m1).2.1, (h2 c2 m2).2.2⟩

theorem fromComponents_lossy {m : Type} [Fintype m] [DecidableEq m] {cs0 cs1 cs2 : List (Conv m)}
    (h0 : ∀ c ∈ cs0, LossyConv c) (h1 : ∀ c ∈ cs1, LossyConv c) (h2 : ∀ c ∈ cs2, LossyConv c) {c : Conv m}
    (h : FromComponents cs0 cs1 cs2 c) : LossyConv c := by
  obtain ⟨c0, m0, c1, m1, c2, m2, e0, e1, e2⟩ := h
  exact ⟨by rw [e0]; exact (h0 c0 m0).x, by rw [e1]; exact (h1 c1 m1).y, by rw [e2]; exact (h2 c2 m2).z⟩

theorem fromComponents_side {m : Type} [Fintype m] [DecidableEq m] {w : ℂ} {cs0 cs1 cs2 : List (Conv m)}
    (h0 : ∀ c ∈ cs0, SideConv w c) (h1 : ∀ c ∈ cs1, SideConv w c) (h2 : ∀ c ∈ cs2, SideConv w c) {c : Conv m}
    (h : FromComponents cs0 cs1 cs2 c) : SideConv w c := by
  obtain ⟨c0, m0, c1, m1, c2, m2, e0, e1, e2⟩ := h
  exact ⟨by rw [e0]; exact (h0 c0 m0).x, by rw [e1]; exact (h1 c1 m1).y, by rw [e2]; exact (h2 c2 m2).z⟩

/-! ### What the TE/TM solver reads -/

theorem layerLoop_agree {S C L : Type} {step : C → ℝ → S → Res (S × L)} {E : C → C → Prop}
    (hE : ∀ c c' d s, E c c' → (step c d s).map Prod.fst = (step c' d s).map Prod.fst) {cs cs' : List C} (h : List.Forall₂ E cs cs')
    (th : List ℝ) : ∀ (k : ℕ) (s : S) (l l' : List L),
      (layerLoop step cs th k (s, l)).map Prod.fst = (layerLoop step cs' th k (s, l')).map Prod.fst
  | 0, s, l, l' => rfl
  | k + 1, s, l, l' => by
    unfold layerLoop
    have hg : (getIdx cs k = .error .indexError ∧ getIdx cs' k = .error .indexError) ∨
        ∃ c c', getIdx cs k = .ok c ∧ getIdx cs' k = .ok c' ∧ E c c' := by
      by_cases hk : k < cs.length
      · right
        have hk' : k < cs'.length := by rw [← h.length_eq]; exact hk
        refine ⟨cs[k], cs'[k], by simp [getIdx_ok], by simp [getIdx_ok], ?_⟩
        exact (List.forall₂_iff_get.mp h).2 k hk hk'
      · left
        have hk' : ¬ k < cs'.length := by rw [← h.length_eq]; exact hk
        constructor <;> (unfold getIdx; rw [List.getElem?_eq_none (by omega)])
    rcases hg with ⟨h1, h2⟩ | ⟨c, c', h1, h2, e⟩
    · rw [h1, h2]; rfl
    · rw [h1, h2]
      simp only [bind, Except.bind]
      cases getIdx th k with
      | error e => rfl
      | ok d =>
        have := hE c c' d s e
        dsimp only
        cases h3 : step c d s with
        | error x =>
          cases h4 : step c' d s with
          | error y =>
            rw [h3, h4] at this
            cases this
            rfl
          | ok y => rw [h3, h4] at this; cases this
        | ok x =>
          cases h4 : step c' d s with
          | error y => rw [h3, h4] at this; cases this
          | ok y =>
            rw [h3, h4] at this
            have e2 : x.1 = y.1 := by simpa [Except.map] using this
            dsimp only
            rw [e2]
            exact layerLoop_agree hE h th k _ _ _

theorem tSolve_1d_agree {la : LinAlg} {p : Params} {wl : ℝ} {E : Conv (Fin (2 * p.fto.1 + 1)) → Conv (Fin (2 * p.fto.1 + 1)) → Prop}
    (hE : ∀ c c' kx, E c c' → tTransfer_1d_2 la p.pol kx c p.use_pinv = tTransfer_1d_2 la p.pol kx c' p.use_pinv)
    {cs cs' : List (Conv (Fin (2 * p.fto.1 + 1)))} (h : List.Forall₂ E cs cs') :
    (tSolve_1d la p wl cs).map Out1D.res = (tSolve_1d la p wl cs').map Out1D.res := by
  unfold tSolve_1d
  simp only [bind, Except.bind]
  cases tTransfer_1d_1 p.pol (tKxVec p wl) p.n_top p.n_bot with
  | error e => rfl
  | ok init =>
    dsimp only
    have := layerLoop_agree (step := tStep1d la p (2 * Real.pi / wl) (tKxVec p wl)) (E := E) (fun c c' d s e => by
      unfold tStep1d
      rw [hE c c' _ e]
      simp only [bind, Except.bind]
      cases tTransfer_1d_2 la p.pol (tKxVec p wl) c' p.use_pinv <;> rfl) h p.thickness p.thickness.length init.2.2 [] []
    cases h3 : layerLoop (tStep1d la p (2 * Real.pi / wl) (tKxVec p wl)) cs p.thickness p.thickness.length (init.2.2, []) with
    | error x =>
      cases h4 : layerLoop (tStep1d la p (2 * Real.pi / wl) (tKxVec p wl)) cs' p.thickness p.thickness.length (init.2.2, []) with
      | error y =>
        rw [h3, h4] at this
        cases this
        rfl
      | ok y => rw [h3, h4] at this; cases this
    | ok x =>
      cases h4 : layerLoop (tStep1d la p (2 * Real.pi / wl) (tKxVec p wl)) cs' p.thickness p.thickness.length (init.2.2, []) with
      | error y => rw [h3, h4] at this; cases this
      | ok y =>
        rw [h3, h4] at this
        have e2 : x.1 = y.1 := by simpa [Except.map] using this
        dsimp only
        rw [e2]
        cases tTransfer_1d_4 la p.pol y.1 (tKxVec p wl) init.1 init.2.1 p.theta p.n_top p.n_bot p.use_pinv <;> rfl

theorem mapM_forall2 {α β : Type} {R : α → α → Prop} {E : β → β → Prop} {g : α → Res β}
    (hg : ∀ a a' b b', R a a' → g a = .ok b → g a' = .ok b' → E b b') :
    ∀ {l l' : List α} {bs bs' : List β}, List.Forall₂ R l l' → l.mapM g = .ok bs → l'.mapM g = .ok bs' → List.Forall₂ E bs bs'
  | [], _, _, _, .nil, h, h' => by cases h; cases h'; exact .nil
  | a :: l, _, _, _, .cons (b := a') (l₂ := l') r rs, h, h' => by
    simp only [List.mapM_cons] at h h'
    obtain ⟨b, hb, h⟩ := Except.bind_ok.mp h
    obtain ⟨bs1, hbs, h⟩ := Except.bind_ok.mp h
    obtain ⟨c, hc, h'⟩ := Except.bind_ok.mp h'
    obtain ⟨cs1, hcs, h'⟩ := Except.bind_ok.mp h'
    cases h; cases h'
    exact .cons (hg a a' b c r hb hc) (mapM_forall2 hg rs hbs hcs)

/-- Each of the three matrices of a layer comes from one component alone. -/
theorem tConvMats_agree {la : LinAlg} {s : TSettings} {u : Ucell3} {ls : List (Fin 3 → Fin u.ny → Fin u.nx → ℂ)}
    {cs cs' : List (Conv (FlatIdx s.p.fto.1 s.p.fto.2))}
    (h : tConvMats la (Spec.withCell s (.aniso u)) = .ok cs) (h' : tConvMats la (Spec.withCell s (.aniso ⟨u.ny, u.nx, ls⟩)) = .ok cs')
    {K : Fin 3 → Prop} (hk : List.Forall₂ (fun l l' => ∀ k, K k → l k = l' k) u.layers ls) :
    List.Forall₂ (fun c c' => (K 0 → c.epx = c'.epx) ∧ (K 1 → c.epy = c'.epy) ∧ (K 2 → c.epzi = c'.epzi)) cs cs' := by
  unfold tConvMats at h h'
  simp only [Spec.withCell, TStructure.components] at h h'
  by_cases hf : s.fourier_type = 0
  · simp only [hf, if_true, mapM_map'] at h h'
    refine mapM_forall2 ?_ hk h h'
    intro l l' c c' e h1 h2
    unfold tConvDiscrete at h1 h2
    simp only [Except.bind_ok, Except.ok.injEq] at h1 h2
    obtain ⟨z, hz, y, hy, x, hx, rfl⟩ := h1
    obtain ⟨z', hz', y', hy', x', hx', rfl⟩ := h2
    refine ⟨fun k0 => ?_, fun k1 => ?_, fun k2 => ?_⟩
    · rw [e 0 k0] at hx; rw [hx] at hx'; cases hx'; rfl
    · rw [e 1 k1] at hy; rw [hy] at hy'; cases hy'; rfl
    · rw [e 2 k2] at hz; rw [hz] at hz'; cases hz'; rfl
  · by_cases hf1 : s.fourier_type = 1
    · simp only [hf1, mapM_map', one_ne_zero, if_true, if_false] at h h'
      refine mapM_forall2 ?_ hk h h'
      intro l l' c c' e h1 h2
      unfold tConvRasterContinuous tConvContinuous at h1 h2
      simp only [Except.bind_ok, Except.ok.injEq] at h1 h2
      obtain ⟨vx, kx, vy, ky, vz, kz, z, hz, y, hy, x, hx, rfl⟩ := h1
      obtain ⟨vx', kx', vy', ky', vz', kz', z', hz', y', hy', x', hx', rfl⟩ := h2
      refine ⟨fun k0 => ?_, fun k1 => ?_, fun k2 => ?_⟩
      · rw [e 0 k0] at kx; rw [kx] at kx'; cases kx'; rw [hx] at hx'; cases hx'; rfl
      · rw [e 1 k1] at ky; rw [ky] at ky'; cases ky'; rw [hy] at hy'; cases hy'; rfl
      · rw [e 2 k2] at kz; rw [kz] at kz'; cases kz'; rw [hz] at hz'; cases hz'; rfl
    · simp only [hf, hf1, if_false] at h
      cases h

theorem threefold_convMats (la : LinAlg) (s : TSettings) (u : Ucell) :
    tConvMats la (Spec.withCell s (.aniso (Spec.threefold u))) = tConvMats la (Spec.withCell s (.iso (.raster u))) := by
  unfold tConvMats
  simp only [Spec.withCell, Spec.threefold, TStructure.components, Ucell.rasters, List.map_map]
  rfl

end Meent
