import Verif.Lemmas.TorchAniso
import Verif.Lemmas.AbsorbSpec
import Verif.Props.C01
import Verif.Props.C02
import Verif.Props.C03
import Verif.Props.C40
import Verif.Props.C47
import Verif.Props.C57

/-!
# C69: energy on JAX and PyTorch, anisotropic pixels
-/

set_option linter.unusedSimpArgs false
set_option linter.unusedVariables false

open Matrix

namespace Meent

/-- At least one dictionary is reported, and the efficiencies of each reported one add up to a number with property `P`. -/
def Spec.Totals {fx fy : ℕ} (r : Result fx fy) (P : ℝ → Prop) : Prop :=
  (∃ x, r.res = some x) ∧ ∀ x, Spec.Reports r x → P (Spec.totalEfficiency x)

/-- The matrix has a basis of eigenvectors and no eigenvalue within `10⁻²⁰` of zero. -/
def Spec.DiagonalisableAway {n : Type} [Fintype n] [DecidableEq n] (A : Matrix n n ℂ) : Prop :=
  Spec.Diagonalisable A ∧ ∀ (l : ℂ) (v : n → ℂ), v ≠ 0 → A *ᵥ v = l • v → 1 / 10 ^ 20 ≤ ‖l‖

/-- The mode problem of a layer of an anisotropic structure has a basis of modes, away from zero in 2D: in TE the eigenvectors of
`Kx² - εy`, in TM those of `εx (Kx εz⁻¹ Kx - 1)`, in 2D those of the block matrix of `Spec.LayerHasModes`. -/
def Spec.AnisoModes (s : TSettings) (c : Conv (FlatIdx s.p.fto.1 s.p.fto.2)) : Prop :=
  let Kx := diagonal (Spec.kxOf s.p)
  let Ky := diagonal (Spec.kyOf s.p)
  (tGratingType s = 0 → s.p.pol = 0 → Spec.Diagonalisable (Kx * Kx - c.epy)) ∧
  (tGratingType s = 0 → s.p.pol = 1 → Spec.Diagonalisable (c.epx * (Kx * c.epzi * Kx - 1))) ∧
  (tGratingType s = 2 → Spec.DiagonalisableAway (fromBlocks (Ky * Ky + (Kx * c.epzi * Kx - 1) * c.epx) (Kx * (c.epzi * Ky * c.epy - Ky))
    (Ky * (c.epzi * Kx * c.epx - Kx)) (Kx * Kx + (Ky * c.epzi * Ky - 1) * c.epy)))

theorem totals_of_same {fx fy : ℕ} {r r' : Result fx fy} {P : ℝ → Prop} (h : Spec.SameEfficiencies r r') (ht : Spec.Totals r P) :
    Spec.Totals r' P := by
  obtain ⟨⟨x, hx⟩, hP⟩ := ht
  obtain ⟨h1, h2, h3⟩ := h
  have key : ∀ {o o' : Option (SubRes (2 * fy + 1) (2 * fx + 1))}, Option.Rel Spec.SameEff o o' → ∀ x', o' = some x' →
      ∃ x, o = some x ∧ Spec.SameEff x x' := by
    intro o o' hr x' hx'
    subst hx'
    cases hr with
    | some e => exact ⟨_, rfl, e⟩
  refine ⟨?_, ?_⟩
  · rw [hx] at h1
    generalize r'.res = o' at h1
    cases h1 with
    | some e => exact ⟨_, rfl⟩
  · rintro x' (hx' | hx' | hx')
    · obtain ⟨x, hx, e⟩ := key h1 x' hx'
      rw [SameEff.total e]; exact hP x (Or.inl hx)
    · obtain ⟨x, hx, e⟩ := key h2 x' hx'
      rw [SameEff.total e]; exact hP x (Or.inr (Or.inl hx))
    · obtain ⟨x, hx, e⟩ := key h3 x' hx'
      rw [SameEff.total e]; exact hP x (Or.inr (Or.inr hx))

theorem totals_three {fx fy : ℕ} {r : Result fx fy} {P : ℝ → Prop} {a b c : SubRes (2 * fy + 1) (2 * fx + 1)}
    (h : r = ⟨some a, some b, some c⟩) (ha : P (Spec.totalEfficiency a)) (hb : P (Spec.totalEfficiency b))
    (hc : P (Spec.totalEfficiency c)) : Spec.Totals r P := by
  subst h
  refine ⟨⟨a, rfl⟩, ?_⟩
  rintro x (hx | hx | hx) <;> cases hx <;> assumption

theorem totals_one {fx fy : ℕ} {r : Result fx fy} {P : ℝ → Prop} {a : SubRes (2 * fy + 1) (2 * fx + 1)}
    (h : r = ⟨some a, none, none⟩) (ha : P (Spec.totalEfficiency a)) : Spec.Totals r P := by
  subst h
  refine ⟨⟨a, rfl⟩, ?_⟩
  rintro x (hx | hx | hx) <;> cases hx
  assumption

theorem numpy_totals {la : LinAlg} {s : Settings} {P : ℝ → Prop} {sol : Solved s.p.fto.1 s.p.fto.2}
    (h0 : gratingType s = 0 → ∃ r, sol.result.res = some r ∧ P (Spec.totalEfficiency r))
    (h12 : gratingType s = 1 ∨ gratingType s = 2 → ∃ r rte rtm, sol.result = ⟨some r, some rte, some rtm⟩ ∧
      P (Spec.totalEfficiency r) ∧ P (Spec.totalEfficiency rte) ∧ P (Spec.totalEfficiency rtm))
    (hs : conv_solve la s = .ok sol) : Spec.Totals sol.result P := by
  rcases conv_solve_cases hs with ⟨h1, o, rfl⟩ | ⟨h1, -⟩ | ⟨h1, -⟩
  · obtain ⟨r, hr, hP⟩ := h0 h1
    cases hr
    exact totals_one rfl hP
  · obtain ⟨_, _, _, e, a, b, c⟩ := h12 (Or.inl h1)
    exact totals_three e a b c
  · obtain ⟨_, _, _, e, a, b, c⟩ := h12 (Or.inr h1)
    exact totals_three e a b c

/-! ### JAX -/

/-- **C69, JAX, lossless.** Whenever the JAX backend solves a lossless structure, the efficiencies of every reported dictionary add up
to one. -/
theorem C69_jax_energy (env : Jax.Env) (s : Settings) (h : Spec.LosslessProblem s) (hp : s.p.use_pinv = false) (ha : s.algo = .tmm)
    (hpix : ∀ u, s.ucell = .raster u → 0 < u.ny ∧ 0 < u.nx) (he : Spec.EllipsesSplit s.ucell)
    (hl : s.p.thickness.length ≤ Spec.layerCount s.ucell) (sol : Solved s.p.fto.1 s.p.fto.2) (hs : Jax.conv_solve env s = .ok sol) :
    Spec.Totals sol.result (· = 1) := by
  have hn := C57_jax_to_numpy env s hpix he hl sol hs
  exact numpy_totals (fun hg => C01_energy_1d env.la s h hp hg sol hn) (fun hg => C02_energy_conical_2d env.la s h hp ha hg sol hn) hn

/-- **C69, JAX, passive.** Whenever the JAX backend solves a structure without gain, the efficiencies of every reported dictionary add
up to at most one. -/
theorem C69_jax_passive (env : Jax.Env) (s : Settings) (h : Spec.PassiveProblem s) (hp : s.p.use_pinv = false) (ha : s.algo = .tmm)
    (hpix : ∀ u, s.ucell = .raster u → 0 < u.ny ∧ 0 < u.nx) (he : Spec.EllipsesSplit s.ucell)
    (hl : s.p.thickness.length ≤ Spec.layerCount s.ucell) (sol : Solved s.p.fto.1 s.p.fto.2) (hs : Jax.conv_solve env s = .ok sol) :
    Spec.Totals sol.result (· ≤ 1) := by
  have hn := C57_jax_to_numpy env s hpix he hl sol hs
  exact numpy_totals (fun hg => C03_passivity env.la s h hp hg sol hn) (fun hg => C47_passivity_conical_2d env.la s h hp ha hg sol hn) hn

/-! ### PyTorch, isotropic -/

private theorem solve_con_psi {la : LinAlg} {p : Params} {wl : ℝ} {convs : List (Conv (FlatIdx p.fto.1 p.fto.2))}
    {o : OutCon p.fto.1 p.fto.2} (h : solve_1d_conical la p wl convs = .ok o) (psi : ℂ) :
    ∃ o', solve_1d_conical la { p with psi := psi } wl convs = .ok o' := by
  unfold solve_1d_conical at h
  obtain ⟨init, h1, h⟩ := Except.bind_ok.mp h
  obtain ⟨r, h2, h⟩ := Except.bind_ok.mp h
  split_ifs at h with hf
  obtain ⟨x, h3, h⟩ := Except.bind_ok.mp h
  unfold transfer_2d_4 at h3
  obtain ⟨N, hN, -⟩ := Except.bind_ok.mp h3
  have : ∃ x', transfer_2d_4 la r.1 init.1 init.2.1 psi p.theta p.n_top p.n_bot p.use_pinv = .ok x' := by
    unfold transfer_2d_4
    exact ⟨_, Except.bind_ok.mpr ⟨N, hN, rfl⟩⟩
  obtain ⟨x', h3'⟩ := this
  unfold solve_1d_conical
  refine ⟨⟨x', r.2⟩, Except.bind_ok.mpr ⟨init, h1, Except.bind_ok.mpr ⟨r, h2, ?_⟩⟩⟩
  rw [if_neg hf]
  exact Except.bind_ok.mpr ⟨x', h3', rfl⟩

theorem conv_solve_psi {la : LinAlg} {s : Settings} (ha : s.algo = .tmm) {sol : Solved s.p.fto.1 s.p.fto.2}
    (hs : conv_solve la s = .ok sol) (hg : gratingType s = 1 ∨ gratingType s = 2) (psi : ℂ) :
    ∃ sol' : Solved s.p.fto.1 s.p.fto.2, conv_solve la (Spec.withPsi s psi) = .ok sol' ∧ (Spec.ModesAway sol → Spec.ModesAway sol') := by
  rcases conv_solve_cases hs with ⟨h1, -⟩ | ⟨h1, ⟨o, rfl⟩ | rfl⟩ | ⟨h1, o, rfl⟩
  · omega
  · obtain ⟨cs, hc, hg, ha, ho⟩ := conv_solve_conical.mp hs
    obtain ⟨o', ho'⟩ := solve_con_psi ho psi
    exact ⟨.conical o', conv_solve_conical.mpr ⟨cs, hc, hg, ha, ho'⟩, fun _ o h => by cases h⟩
  · have := (solve_for_conv_smm.mp (conv_solve_ok.mp hs).choose_spec.2).2
    rw [ha] at this; cases this
  · obtain ⟨cs, hc, hg, ha, ho⟩ := conv_solve_twoD.mp hs
    obtain ⟨o', ho', e⟩ := solve_2d_psi ho psi
    refine ⟨.twoD o', conv_solve_twoD.mpr ⟨cs, hc, hg, ha, ho'⟩, fun hm o1 h1 => ?_⟩
    cases h1
    rw [e]
    exact hm o rfl

theorem torch_totals {la : LinAlg} {s : Settings} (h : Spec.LosslessCladdings s.p) (ha : s.algo = .tmm)
    (hphi : gratingType s = 1 → s.p.phi ≠ some 0 ∨ ¬ (s.p.pol = 0 ∨ s.p.pol = 1)) {P : ℝ → Prop} {sol : Solved s.p.fto.1 s.p.fto.2} (hs : conv_solve la s = .ok sol)
    (hq : Spec.ModesAway sol)
    (hP : ∀ psi : ℂ, Spec.IsReal psi → ∀ sol' : Solved s.p.fto.1 s.p.fto.2, conv_solve la (Spec.withPsi s psi) = .ok sol' →
      Spec.Totals sol'.result P) :
    ∃ sol', tConv_solve la s.torch = .ok sol' ∧ Spec.Totals sol'.result P := by
  rcases gratingType_le s with hg | hg | hg
  · obtain ⟨sol', h1, h2, -⟩ := C40_tetm_partial h hg hs
    exact ⟨sol', h1, totals_of_same h2 (hP s.p.psi h.psi_real sol hs)⟩
  · obtain ⟨sol1, h1, hm⟩ := conv_solve_psi ha hs (Or.inl hg) (Real.pi - s.p.psi)
    obtain ⟨sol', h2, h3⟩ := C40_psi h (Or.inr ⟨hg, hphi hg⟩) ha h1 (hm hq)
    exact ⟨sol', h2, totals_of_same h3.eff (hP _ (by have := h.psi_real; simp [Spec.IsReal] at this ⊢; exact this) sol1 h1)⟩
  · obtain ⟨sol1, h1, hm⟩ := conv_solve_psi ha hs (Or.inr hg) (Real.pi - s.p.psi)
    obtain ⟨sol', h2, h3⟩ := C40_psi h (Or.inl hg) ha h1 (hm hq)
    exact ⟨sol', h2, totals_of_same h3.eff (hP _ (by have := h.psi_real; simp [Spec.IsReal] at this ⊢; exact this) sol1 h1)⟩

/-- **C69, PyTorch, lossless.** A lossless structure that NumPy solves is solved by the PyTorch backend too, and the efficiencies
of every dictionary it reports add up to one. Left out here: `phi` exactly zero with `pol` 0 or 1 on a one-row raster (see `C69_torch_energy_zero`), and 2D
eigenvalues so small that PyTorch replaces them. -/
theorem C69_torch_energy (la : LinAlg) (s : Settings) (h : Spec.LosslessProblem s) (hp : s.p.use_pinv = false) (ha : s.algo = .tmm)
    (hphi : gratingType s = 1 → s.p.phi ≠ some 0 ∨ ¬ (s.p.pol = 0 ∨ s.p.pol = 1)) (sol : Solved s.p.fto.1 s.p.fto.2) (hs : conv_solve la s = .ok sol)
    (hq : Spec.ModesAway sol) : ∃ sol', tConv_solve la s.torch = .ok sol' ∧ Spec.Totals sol'.result (· = 1) := by
  refine torch_totals { h.toRealIllumination with n_bot_real := h.n_bot_real, n_bot_pos := h.n_bot_pos } ha hphi hs hq ?_
  intro psi hpsi sol' hs'
  have h' : Spec.LosslessProblem (Spec.withPsi s psi) :=
    { h.toRealIllumination with psi_real := hpsi, structure_real := h.structure_real, n_bot_real := h.n_bot_real, n_bot_pos := h.n_bot_pos }
  exact numpy_totals (s := Spec.withPsi s psi) (fun hg => C01_energy_1d la _ h' hp hg sol' hs')
    (fun hg => C02_energy_conical_2d la _ h' hp ha hg sol' hs') hs'

/-- **C69, PyTorch, passive.** The same for structures without gain: at most one. -/
theorem C69_torch_passive (la : LinAlg) (s : Settings) (h : Spec.PassiveProblem s) (hp : s.p.use_pinv = false) (ha : s.algo = .tmm)
    (hphi : gratingType s = 1 → s.p.phi ≠ some 0 ∨ ¬ (s.p.pol = 0 ∨ s.p.pol = 1)) (sol : Solved s.p.fto.1 s.p.fto.2) (hs : conv_solve la s = .ok sol)
    (hq : Spec.ModesAway sol) : ∃ sol', tConv_solve la s.torch = .ok sol' ∧ Spec.Totals sol'.result (· ≤ 1) := by
  refine torch_totals { h.toRealIllumination with n_bot_real := h.n_bot_real, n_bot_pos := h.n_bot_pos } ha hphi hs hq ?_
  intro psi hpsi sol' hs'
  have h' : Spec.PassiveProblem (Spec.withPsi s psi) :=
    { h.toRealIllumination with psi_real := hpsi, layers_passive := h.layers_passive, thickness_nonneg := h.thickness_nonneg, n_bot_real := h.n_bot_real, n_bot_pos := h.n_bot_pos }
  exact numpy_totals (s := Spec.withPsi s psi) (fun hg => C03_passivity la _ h' hp hg sol' hs')
    (fun hg => C47_passivity_conical_2d la _ h' hp ha hg sol' hs') hs'

/-! ### PyTorch, anisotropic -/

private theorem row1_total {n fy : ℕ} (hf : fy = 0) (r : SubRes 1 n) : Spec.totalEfficiency (r.row1 fy) = Spec.totalEfficiency r := by
  subst hf
  rfl

theorem aniso_totals {la : LinAlg} {s : TSettings} (h : Spec.LosslessCladdings s.p) (ha : s.algo = .tmm) (hg : tGratingType s ≠ 1)
    {cs : List (Conv (FlatIdx s.p.fto.1 s.p.fto.2))} (hc : tConvMats la s = .ok cs) (hn : Spec.NoFallback la s cs) {P : ℝ → Prop}
    (h1 : ∀ o, solve_1d la { s.p with phi := none } s.p.wavelength (cs.map Conv.row) = .ok o → P (Spec.totalEfficiency o.res))
    (h2 : ∀ o, solve_2d la { s.p with psi := Real.pi - s.p.psi } s.p.wavelength cs = .ok o →
      P (Spec.totalEfficiency o.out.res) ∧ P (Spec.totalEfficiency o.out.res_te) ∧ P (Spec.totalEfficiency o.out.res_tm)) :
    ∃ sol, tConv_solve la s = .ok sol ∧ Spec.Totals sol.result P := by
  rcases torch_follows h ha hg hc hn with ⟨h0, o, o', ho, hs, e⟩ | ⟨-, o, o', ho, hs, e1, e2, e3⟩
  · obtain ⟨-, hphi, hf⟩ := tGratingType_zero h0
    refine ⟨_, hs, totals_one rfl ?_⟩
    rw [row1_total hf, SameEff.total e]
    exact h1 o (by rw [solve_1d_phi hphi]; exact ho)
  · obtain ⟨a, b, c⟩ := h2 o ho
    refine ⟨_, hs, totals_three rfl ?_ ?_ ?_⟩
    · rw [SameEff.total e1]; exact a
    · rw [SameEff.total e2]; exact b
    · rw [SameEff.total e3]; exact c

theorem row_herm {p : Params} {cs : List (Conv (FlatIdx p.fto.1 p.fto.2))}
    (h : ∀ c ∈ cs, c.epx.IsHermitian ∧ c.epy.IsHermitian ∧ c.epzi.IsHermitian) :
    ∀ c ∈ cs.map Conv.row, c.epx.IsHermitian ∧ c.epy.IsHermitian ∧ c.epzi.IsHermitian := by
  intro c hc
  obtain ⟨c', hc', rfl⟩ := List.mem_map.mp hc
  obtain ⟨a, b, d⟩ := h c' hc'
  exact ⟨a.submatrix _, b.submatrix _, d.submatrix _⟩

/-- Hermitian matrices conserve energy. -/
theorem aniso_energy_core {la : LinAlg} {s : TSettings} (hc : Spec.LosslessCladdings s.p) (hp : s.p.use_pinv = false) (ha : s.algo = .tmm)
    (hg : tGratingType s ≠ 1) {cs : List (Conv (FlatIdx s.p.fto.1 s.p.fto.2))} (hcs : tConvMats la s = .ok cs) (hn : Spec.NoFallback la s cs)
    (hh : ∀ c ∈ cs, c.epx.IsHermitian ∧ c.epy.IsHermitian ∧ c.epzi.IsHermitian) :
    ∃ sol, tConv_solve la s = .ok sol ∧ Spec.Totals sol.result (· = 1) := by
  have hi := RealIncidence.of_spec hc.toRealIllumination
  refine aniso_totals hc ha hg hcs hn (fun o ho => ?_) (fun o ho => ?_)
  · exact solve_1d_energy (p := { s.p with phi := none }) hp rfl ⟨hi.hn, hi.hnt, hi.hth, hi.lo, hi.hi⟩ (row_herm hh) ho
  · exact solve_2d_energy (p := { s.p with psi := Real.pi - s.p.psi }) (ps := Real.pi - s.p.psi.re) hp (getD_real hc.phi_real)
      (Complex.ext (by simp) (by have := hc.psi_real; simpa [Spec.IsReal] using this)) ⟨hi.hn, hi.hnt, hi.hth, hi.lo, hi.hi⟩ hh ho

/-- Lossy matrices create no energy. -/
theorem aniso_passive_core {la : LinAlg} {s : TSettings} (hd : ∀ d ∈ s.p.thickness, 0 ≤ d) (hc : Spec.LosslessCladdings s.p)
    (hp : s.p.use_pinv = false) (ha : s.algo = .tmm) (hg : tGratingType s ≠ 1) {cs : List (Conv (FlatIdx s.p.fto.1 s.p.fto.2))}
    (hcs : tConvMats la s = .ok cs) (hn : Spec.NoFallback la s cs) (hh : ∀ c ∈ cs, LossyConv c) :
    ∃ sol, tConv_solve la s = .ok sol ∧ Spec.Totals sol.result (· ≤ 1) := by
  have hi := RealIncidence.of_spec hc.toRealIllumination
  refine aniso_totals hc ha hg hcs hn (fun o ho => ?_) (fun o ho => ?_)
  · refine solve_1d_passive (p := { s.p with phi := none }) hp rfl ⟨hi.hn, hi.hnt, hi.hth, hi.lo, hi.hi⟩ hc.wavelength_pos hd ?_ ho
    intro c hm
    obtain ⟨c', hc', rfl⟩ := List.mem_map.mp hm
    obtain ⟨a, b, d⟩ := hh c' hc'
    exact ⟨a.submatrix _, b.submatrix _, d.submatrix _⟩
  · exact solve_2d_passive (p := { s.p with psi := Real.pi - s.p.psi }) (ps := Real.pi - s.p.psi.re) hp (getD_real hc.phi_real)
      (Complex.ext (by simp) (by have := hc.psi_real; simpa [Spec.IsReal] using this)) ⟨hi.hn, hi.hnt, hi.hth, hi.lo, hi.hi⟩
      hc.wavelength_pos hd hh ho

/-- **C69, anisotropic, lossless.** An anisotropic raster whose pixels have real positive indices in all three components: the
matrices of the layers exist, and unless a singular matrix makes PyTorch fall back on a pseudo-inverse, the PyTorch backend solves
it and the efficiencies of every dictionary it reports add up to one. -/
theorem C69_aniso_energy (la : LinAlg) (s : TSettings) (u : Ucell3) (h : Spec.OrdinaryAniso s u)
    (hr : ∀ l ∈ u.layers, ∀ k i j, Spec.IsReal (l k i j)) (hc : Spec.LosslessCladdings s.p) (hp : s.p.use_pinv = false)
    (ha : s.algo = .tmm) (hg : tGratingType s ≠ 1) :
    ∃ cs, tConvMats la s = .ok cs ∧ cs.length = u.layers.length ∧
      (Spec.NoFallback la s cs → ∃ sol, tConv_solve la s = .ok sol ∧ Spec.Totals sol.result (· = 1)) := by
  obtain ⟨cs, cs0, cs1, cs2, hcs, hlen, h0, h1, h2, hf⟩ := aniso_convMats la hp h
  refine ⟨cs, hcs, hlen, fun hn => ?_⟩
  have hk : ∀ k, Spec.RealStructure (Spec.component s u k).ucell := by
    intro k l hl i j
    obtain ⟨l', hl', rfl⟩ := List.mem_map.mp hl
    exact hr l' hl' k i j
  have hh : ∀ c ∈ cs, c.epx.IsHermitian ∧ c.epy.IsHermitian ∧ c.epzi.IsHermitian := fun c hc =>
    fromComponents_hermitian (convMats_isHermitian (s := Spec.component s u 0) hp (hk 0) h0)
      (convMats_isHermitian (s := Spec.component s u 1) hp (hk 1) h1) (convMats_isHermitian (s := Spec.component s u 2) hp (hk 2) h2) (hf c hc)
  exact aniso_energy_core hc hp ha hg hcs hn hh

/-- **C69, anisotropic, passive.** The same for pixels without gain: at most one. -/
theorem C69_aniso_passive (la : LinAlg) (s : TSettings) (u : Ucell3) (h : Spec.OrdinaryAniso s u)
    (hd : ∀ d ∈ s.p.thickness, 0 ≤ d) (hc : Spec.LosslessCladdings s.p) (hp : s.p.use_pinv = false)
    (ha : s.algo = .tmm) (hg : tGratingType s ≠ 1) :
    ∃ cs, tConvMats la s = .ok cs ∧ cs.length = u.layers.length ∧
      (Spec.NoFallback la s cs → ∃ sol, tConv_solve la s = .ok sol ∧ Spec.Totals sol.result (· ≤ 1)) := by
  obtain ⟨cs, cs0, cs1, cs2, hcs, hlen, h0, h1, h2, hf⟩ := aniso_convMats la hp h
  refine ⟨cs, hcs, hlen, fun hn => ?_⟩
  have hk : ∀ k, Spec.PassiveProblem (Spec.component s u k) := by
    intro k
    refine { hc.toRealIllumination with layers_passive := ?_, thickness_nonneg := hd, n_bot_real := hc.n_bot_real, n_bot_pos := hc.n_bot_pos }
    intro l hl i j
    obtain ⟨l', hl', rfl⟩ := List.mem_map.mp hl
    exact ⟨(h.media l' hl' k i j).1.le, (h.media l' hl' k i j).2⟩
  have hh : ∀ c ∈ cs, LossyConv c := fun c hc =>
    fromComponents_lossy (convMats_lossy (s := Spec.component s u 0) hp (hk 0) h0) (convMats_lossy (s := Spec.component s u 1) hp (hk 1) h1)
      (convMats_lossy (s := Spec.component s u 2) hp (hk 2) h2) (hf c hc)
  exact aniso_passive_core hd hc hp ha hg hcs hn hh

private theorem runLayers_info_mem {S C L : Type} {step : C → ℝ → S → Res (S × L)} : ∀ {xs : List (C × ℝ)} {s r : S × List L},
    runLayers step xs s = .ok r → ∀ l ∈ r.2, l ∈ s.2 ∨ ∃ x ∈ xs, ∃ a b, step x.1 x.2 a = .ok b ∧ b.2 = l
  | [], s, r, h, l, hl => by cases h; exact Or.inl hl
  | x :: xs, s, r, h, l, hl => by
    unfold runLayers at h
    obtain ⟨r1, h1, h⟩ := Except.bind_ok.mp h
    obtain ⟨r2, h2, h⟩ := Except.bind_ok.mp h
    cases h
    rcases List.mem_append.mp hl with hl | hl
    · rcases runLayers_info_mem h1 l hl with h | ⟨x', hx', a, b, e⟩
      · exact Or.inl h
      · exact Or.inr ⟨x', List.mem_cons_of_mem _ hx', a, b, e⟩
    · exact Or.inr ⟨x, List.mem_cons_self, r1.1, r2, h2, (List.mem_singleton.mp hl).symm⟩

theorem eig_away {la : LinAlg} {n : Type} [Fintype n] [DecidableEq n] {A : Matrix n n ℂ} (hu : IsUnit (la.eig A).2.det)
    (h : ∀ (l : ℂ) (v : n → ℂ), v ≠ 0 → A *ᵥ v = l • v → 1 / 10 ^ 20 ≤ ‖l‖) (i : n) : 1 / 10 ^ 10 ≤ ‖csqrt ((la.eig A).1 i)‖ := by
  have h1 := h ((la.eig A).1 i) (fun k => (la.eig A).2 k i) (by
    intro h0
    have : (la.eig A).2.det = 0 := Matrix.det_eq_zero_of_column_eq_zero i fun k => congrFun h0 k
    rw [this] at hu
    exact not_isUnit_zero hu) (by
    funext k
    have := congrFun (congrFun (la.eig_law A) k) i
    rw [Matrix.mul_diagonal, Matrix.mul_apply] at this
    show ∑ j, A k j * (la.eig A).2 j i = _
    rw [this, Pi.smul_apply, smul_eq_mul, mul_comm])
  rw [← csqrt_sq ((la.eig A).1 i), norm_pow] at h1
  rw [show (1 : ℝ) / 10 ^ 20 = (1 / 10 ^ 10) ^ 2 by norm_num] at h1
  exact le_of_sq_le_sq h1 (norm_nonneg _)

theorem infos_away {la : LinAlg} (hb : Spec.ReturnsBasis la) {p : Params} {wl : ℝ} (hp : p.use_pinv = false)
    {cs : List (Conv (FlatIdx p.fto.1 p.fto.2))}
    (h : ∀ x ∈ cs.zip p.thickness, Spec.DiagonalisableAway (omega2LR (kxF p wl) (kyF p wl) x.1)) {o : Out2D p.fto.1 p.fto.2}
    (ho : solve_2d la p wl cs = .ok o) : ∀ l ∈ o.infos, ∀ i, 1 / 10 ^ 10 ≤ ‖l.modes.q i‖ := by
  obtain ⟨-, init, r, x, -, hr, -, rfl⟩ := (solve_2d_iff hp).mp ho
  intro l hl i
  rcases runLayers_info_mem hr l hl with h' | ⟨x, hx', a, b, hab, rfl⟩
  · cases h'
  · unfold step2d transfer_2d_2 at hab
    simp only [Except.bind_ok, Except.ok.injEq] at hab
    obtain ⟨M, ⟨Q, -, rfl⟩, t, -, rfl⟩ := hab
    exact eig_away ((eig_unit_iff hb).mpr (h x hx').1) (h x hx').2 i

/-- Nothing is singular when the matrices absorb. -/
theorem aniso_absorbing_core {la : LinAlg} (hb : Spec.ReturnsBasis la) {s : TSettings} (hd : ∀ d ∈ s.p.thickness, 0 < d)
    (hne : s.p.thickness ≠ []) {cs : List (Conv (FlatIdx s.p.fto.1 s.p.fto.2))} (hlen : s.p.thickness.length ≤ cs.length)
    (hc : Spec.LosslessCladdings s.p) (hp : s.p.use_pinv = false)
    (hg : tGratingType s = 0 ∨ tGratingType s = 2 ∧ ¬ Spec.SomeAlongNormal s.p) (hside : ∀ c ∈ cs, SideConv Complex.I c)
    (hm : ∀ c ∈ cs.take s.p.thickness.length, Spec.AnisoModes s c) : Spec.NoFallback la s cs := by
  have hi := RealIncidence.of_spec hc.toRealIllumination
  have hx := kxF_eq_kxOf hc.toRealIllumination
  have hy := kyF_eq_kyOf hc.toRealIllumination
  refine ⟨fun hg0 => ?_, fun hg2 => ?_⟩
  · obtain ⟨hpol, hphi, hf0⟩ := tGratingType_zero hg0
    have hkx : kxVec { s.p with phi := none } s.p.wavelength = kxVec s.p s.p.wavelength := by
      funext i
      unfold kxVec
      rcases hphi with h | h <;> rw [h] <;> rfl
    rw [← solve_1d_phi hphi]
    refine solve_1d_absorbing (p := { s.p with phi := none }) hp rfl ⟨hi.hn, hi.hnt, hi.hth, hi.lo, hi.hi⟩ (nb := s.p.n_bot.re)
      (Complex.ext rfl hc.n_bot_real) hpol hc.wavelength_pos hd hne (by rw [List.length_map]; exact hlen) ?_ ?_
    · intro c hc
      obtain ⟨c', hc', rfl⟩ := List.mem_map.mp hc
      exact (hside c' hc').row hf0
    · intro x hx'
      have := mem_zip_take hx'
      rw [← List.map_take] at this
      obtain ⟨c, hc, e⟩ := List.mem_map.mp this
      obtain ⟨m0, m1, -⟩ := hm c hc
      rw [← e, eig_unit_iff hb, hkx]
      show Spec.Diagonalisable (eigMat1d s.p.pol (kxVec s.p s.p.wavelength) c.row)
      rcases hpol with hpol | hpol
      · rw [hpol, eigMat_te hf0, diagonalisable_reindex_iff, hx]
        exact m0 hg0 hpol
      · rw [hpol, eigMat_tm hf0, diagonalisable_reindex_iff, hx]
        exact m1 hg0 hpol
  · have hv : ∃ v, varphiAll (kxF s.p s.p.wavelength) (kyF s.p s.p.wavelength) = .ok v := by
      refine varphiAll_exists ?_
      rw [normal_iff hc.theta_hi]
      exact (hg.resolve_left (by omega)).2
    have hu : ∀ x ∈ cs.zip s.p.thickness, IsUnit (la.eig (omega2LR (kxF s.p s.p.wavelength) (kyF s.p s.p.wavelength) x.1)).2.det := by
      intro x hx'
      obtain ⟨-, -, m⟩ := hm x.1 (mem_zip_take hx')
      rw [eig_unit_iff hb, omega_spec, hx, hy]
      exact (m hg2).1
    obtain ⟨o, ho⟩ := solve_2d_absorbing (la := la) hp (getD_real hc.phi_real) hi (nb := s.p.n_bot.re) (Complex.ext rfl hc.n_bot_real)
      hc.wavelength_pos hd hne hlen hv hside hu
    refine ⟨o, ho, infos_away hb hp (fun x hx' => ?_) ho⟩
    obtain ⟨-, -, m⟩ := hm x.1 (mem_zip_take hx')
    rw [omega_spec, hx, hy]
    exact m hg2

/-- **C69, anisotropic, absorbing.** Nothing is singular when every component of every layer absorbs somewhere: an anisotropic
absorbing structure is solved by PyTorch and no power is created, provided its layers have a basis of modes. -/
theorem C69_aniso_absorbing (la : LinAlg) (hb : Spec.ReturnsBasis la) (s : TSettings) (u : Ucell3) (h : Spec.OrdinaryAniso s u)
    (hab : ∀ l ∈ u.layers, ∀ k, ∃ i j, Spec.AbsorbingMedium (l k i j)) (hf : s.fourier_type = 1 ∨ s.enhanced_dfs = true)
    (hd : ∀ d ∈ s.p.thickness, 0 < d) (hne : s.p.thickness ≠ []) (hlen : s.p.thickness.length ≤ u.layers.length)
    (hc : Spec.LosslessCladdings s.p) (hp : s.p.use_pinv = false) (ha : s.algo = .tmm)
    (hg : tGratingType s = 0 ∨ tGratingType s = 2 ∧ ¬ Spec.SomeAlongNormal s.p) :
    ∃ cs, tConvMats la s = .ok cs ∧ ((∀ c ∈ cs.take s.p.thickness.length, Spec.AnisoModes s c) →
      ∃ sol, tConv_solve la s = .ok sol ∧ Spec.Totals sol.result (· ≤ 1)) := by
  obtain ⟨cs, hcs, hl, hpas⟩ := C69_aniso_passive la s u h (fun d m => (hd d m).le) hc hp ha (by omega)
  refine ⟨cs, hcs, fun hm => hpas ?_⟩
  obtain ⟨cs', cs0, cs1, cs2, hcs', -, h0, h1, h2, hfr⟩ := aniso_convMats la hp h
  obtain rfl : cs' = cs := by rw [hcs] at hcs'; cases hcs'; rfl
  have hft : s.fourier_type = 1 ∨ s.fourier_type = 0 ∧ s.enhanced_dfs = true := by
    rcases h.coefficients with e | e
    · rcases hf with e' | e'
      · exact Or.inl e'
      · exact Or.inr ⟨e, e'⟩
    · exact Or.inl e
  have hk : ∀ k, ∀ l ∈ u.layers.map (fun l => l k), (∀ i j, Spec.OrdinaryMedium (l i j)) ∧ ∃ i j, Spec.AbsorbingMedium (l i j) := by
    intro k l hl
    obtain ⟨l', hl', rfl⟩ := List.mem_map.mp hl
    exact ⟨fun i j => h.media l' hl' k i j, hab l' hl' k⟩
  have hside : ∀ c ∈ cs', SideConv Complex.I c := fun c hc =>
    fromComponents_side (convMats_absorbing (s := Spec.component s u 0) hp hft rfl (hk 0) h0)
      (convMats_absorbing (s := Spec.component s u 1) hp hft rfl (hk 1) h1)
      (convMats_absorbing (s := Spec.component s u 2) hp hft rfl (hk 2) h2) (hfr c hc)
  exact aniso_absorbing_core hb hd hne (by rw [hl]; exact hlen) hc hp hg hside hm

/-- **C69, equal components.** A raster given with three equal components is solved exactly like the isotropic raster. -/
theorem C69_equal_components (la : LinAlg) (s : TSettings) (u : Ucell) :
    tConv_solve la (Spec.withCell s (.aniso (Spec.threefold u))) = tConv_solve la (Spec.withCell s (.iso (.raster u))) := by
  have hg : tGratingType (Spec.withCell s (.aniso (Spec.threefold u))) = tGratingType (Spec.withCell s (.iso (.raster u))) := by
    have : ¬ (TStructure.aniso (Spec.threefold u)).isAniso := by
      simp only [TStructure.isAniso, not_not]
      constructor <;>
      · intro l hl i j
        obtain ⟨l', -, rfl⟩ := List.mem_map.mp hl
        simp only [closeTo, sub_self, norm_zero]
        positivity
    unfold tGratingType
    simp only [Spec.withCell, TStructure.rows, this, if_false]
    show (if u.ny = 1 then _ else _) = _
    simp only [TStructure.isAniso]
    split_ifs <;> first | rfl | simp
  unfold tConv_solve
  rw [threefold_convMats]
  show (tConvMats la (Spec.withCell s (.iso (.raster u))) >>= fun cs => tSolve_for_conv la (Spec.withCell s (.aniso (Spec.threefold u))) s.p.wavelength cs) =
    (tConvMats la (Spec.withCell s (.iso (.raster u))) >>= fun cs => tSolve_for_conv la (Spec.withCell s (.iso (.raster u))) s.p.wavelength cs)
  congr 1
  funext cs
  unfold tSolve_for_conv
  rw [hg]

private theorem tetm_reads {la : LinAlg} {s : TSettings} {u : Ucell3} {ls : List (Fin 3 → Fin u.ny → Fin u.nx → ℂ)}
    (hp : s.p.use_pinv = false) (h : Spec.OrdinaryAniso (Spec.withCell s (.aniso u)) u)
    (h' : Spec.OrdinaryAniso (Spec.withCell s (.aniso ⟨u.ny, u.nx, ls⟩)) ⟨u.ny, u.nx, ls⟩)
    (hg : tGratingType (Spec.withCell s (.aniso u)) = 0) {K : Fin 3 → Prop}
    (hk : List.Forall₂ (fun l l' => ∀ k, K k → l k = l' k) u.layers ls)
    (hE : ∀ (c c' : Conv (Fin (2 * s.p.fto.1 + 1))) kx, (K 0 → c.epx = c'.epx) ∧ (K 1 → c.epy = c'.epy) ∧ (K 2 → c.epzi = c'.epzi) →
      tTransfer_1d_2 la s.p.pol kx c s.p.use_pinv = tTransfer_1d_2 la s.p.pol kx c' s.p.use_pinv) :
    (tConv_solve la (Spec.withCell s (.aniso u))).map Solved.result =
      (tConv_solve la (Spec.withCell s (.aniso ⟨u.ny, u.nx, ls⟩))).map Solved.result := by
  have hg' : tGratingType (Spec.withCell s (.aniso ⟨u.ny, u.nx, ls⟩)) = 0 := by
    unfold tGratingType at hg ⊢
    simp only [Spec.withCell, TStructure.rows] at hg ⊢
    split_ifs at hg ⊢
    rfl
  obtain ⟨cs, -, -, -, hcs, -⟩ := aniso_convMats la (s := Spec.withCell s (.aniso u)) hp h
  obtain ⟨cs', -, -, -, hcs', -⟩ := aniso_convMats la (s := Spec.withCell s (.aniso ⟨u.ny, u.nx, ls⟩)) hp h'
  have hr := tConvMats_agree (s := s) hcs hcs' hk
  have := tSolve_1d_agree (la := la) (p := s.p) (wl := s.p.wavelength) hE (cs := cs.map Conv.row) (cs' := cs'.map Conv.row) (by
    rw [List.forall₂_map_left_iff, List.forall₂_map_right_iff]
    refine hr.imp ?_
    rintro c c' ⟨a, b, d⟩
    exact ⟨fun k => by simp only [Conv.row, a k], fun k => by simp only [Conv.row, b k], fun k => by simp only [Conv.row, d k]⟩)
  unfold tConv_solve
  rw [hcs, hcs']
  show (tSolve_for_conv la (Spec.withCell s (.aniso u)) s.p.wavelength cs).map _ = (tSolve_for_conv la (Spec.withCell s (.aniso ⟨u.ny, u.nx, ls⟩)) s.p.wavelength cs').map _
  unfold tSolve_for_conv
  rw [hg, hg']
  simp only [Spec.withCell]
  cases s.algo with
  | tmm =>
    simp only [bind, Except.bind]
    cases h3 : tSolve_1d la s.p s.p.wavelength (cs.map Conv.row) with
    | error x =>
      cases h4 : tSolve_1d la s.p s.p.wavelength (cs'.map Conv.row) with
      | error y => rw [h3, h4] at this; cases this; rfl
      | ok y => rw [h3, h4] at this; cases this
    | ok x =>
      cases h4 : tSolve_1d la s.p s.p.wavelength (cs'.map Conv.row) with
      | error y => rw [h3, h4] at this; cases this
      | ok y =>
        rw [h3, h4] at this
        have e2 : x.res = y.res := by simpa [Except.map] using this
        simp only [Except.map, Solved.result, e2]
  | smm => rfl
  | other => rfl

/-- **C69, TE reads the `y` component.** Two anisotropic gratings that agree in the component along the grooves give the same TE
result. -/
theorem C69_te (la : LinAlg) (s : TSettings) (u : Ucell3) (ls : List (Fin 3 → Fin u.ny → Fin u.nx → ℂ)) (hp : s.p.use_pinv = false)
    (h : Spec.OrdinaryAniso (Spec.withCell s (.aniso u)) u)
    (h' : Spec.OrdinaryAniso (Spec.withCell s (.aniso ⟨u.ny, u.nx, ls⟩)) ⟨u.ny, u.nx, ls⟩)
    (hg : tGratingType (Spec.withCell s (.aniso u)) = 0) (hpol : s.p.pol = 0) (hk : List.Forall₂ (fun l l' => l 1 = l' 1) u.layers ls) :
    (tConv_solve la (Spec.withCell s (.aniso u))).map Solved.result =
      (tConv_solve la (Spec.withCell s (.aniso ⟨u.ny, u.nx, ls⟩))).map Solved.result := by
  refine tetm_reads hp h h' hg (K := fun k => k = 1) (hk.imp fun l l' e k hk => by rw [hk]; exact e) ?_
  rintro c c' kx ⟨-, e, -⟩
  unfold tTransfer_1d_2
  simp only [hpol, if_true, e rfl]

/-- **C69, TM reads the `x` and `z` components.** -/
theorem C69_tm (la : LinAlg) (s : TSettings) (u : Ucell3) (ls : List (Fin 3 → Fin u.ny → Fin u.nx → ℂ)) (hp : s.p.use_pinv = false)
    (h : Spec.OrdinaryAniso (Spec.withCell s (.aniso u)) u)
    (h' : Spec.OrdinaryAniso (Spec.withCell s (.aniso ⟨u.ny, u.nx, ls⟩)) ⟨u.ny, u.nx, ls⟩)
    (hg : tGratingType (Spec.withCell s (.aniso u)) = 0) (hpol : s.p.pol = 1)
    (hk : List.Forall₂ (fun l l' => l 0 = l' 0 ∧ l 2 = l' 2) u.layers ls) :
    (tConv_solve la (Spec.withCell s (.aniso u))).map Solved.result =
      (tConv_solve la (Spec.withCell s (.aniso ⟨u.ny, u.nx, ls⟩))).map Solved.result := by
  refine tetm_reads hp h h' hg (K := fun k => k = 0 ∨ k = 2)
    (hk.imp fun l l' e k hk => by rcases hk with hk | hk <;> rw [hk]; exacts [e.1, e.2]) ?_
  rintro c c' kx ⟨e, -, e'⟩
  unfold tTransfer_1d_2
  simp only [hpol, one_ne_zero, if_true, if_false, e (Or.inl rfl), e' (Or.inr rfl)]

/-- The three components of every pixel agree up to `torch.allclose`: eight decimals plus one part in 10⁵. -/
def Spec.NearlyIsotropic (u : Ucell3) : Prop :=
  ∀ l ∈ u.layers, ∀ i j, ‖l 0 i j - l 1 i j‖ ≤ 1 / 10 ^ 8 + ‖l 1 i j‖ / 10 ^ 5 ∧ ‖l 1 i j - l 2 i j‖ ≤ 1 / 10 ^ 8 + ‖l 2 i j‖ / 10 ^ 5

/-- **C69, which solver.** A raster with three components is solved as TE/TM exactly if it has one row, the polarization is pure TE or
TM, the azimuth is `None` or zero and there are no orders along `y`. Else it is conical exactly if it has one row and its pixels are
isotropic within the tolerance, and 2D in all other cases. -/
theorem C69_dispatch (la : LinAlg) (s : TSettings) (u : Ucell3) (hu : s.ucell = .aniso u) (sol : Solved s.p.fto.1 s.p.fto.2)
    (h : tConv_solve la s = .ok sol) (line : Prop)
    (hl : line ↔ u.ny = 1 ∧ (s.p.pol = 0 ∨ s.p.pol = 1) ∧ (s.p.phi = none ∨ s.p.phi = some 0) ∧ s.p.fto.2 = 0) :
    ((∃ o, sol = .tetm o) ↔ line) ∧
    ((∃ o, sol = .conical o) ∨ sol = .conicalSmm ↔ ¬ line ∧ u.ny = 1 ∧ Spec.NearlyIsotropic u) ∧
    ((∃ o, sol = .twoD o) ↔ ¬ line ∧ ¬ (u.ny = 1 ∧ Spec.NearlyIsotropic u)) := by
  have hi : s.ucell.isAniso ↔ ¬ Spec.NearlyIsotropic u := by
    rw [hu]
    unfold TStructure.isAniso Spec.NearlyIsotropic closeTo
    refine not_congr ⟨fun h l hl i j => ⟨?_, ?_⟩, fun h => ⟨fun l hl i j => ?_, fun l hl i j => ?_⟩⟩
    · exact (h.1 l hl i j).trans_eq (by ring)
    · exact (h.2 l hl i j).trans_eq (by ring)
    · exact (h l hl i j).1.trans_eq (by ring)
    · exact (h l hl i j).2.trans_eq (by ring)
  have hr : s.ucell.rows = some u.ny := by rw [hu]; rfl
  have hg : (tGratingType s = 0 ↔ line) ∧ (tGratingType s = 1 ↔ ¬ line ∧ u.ny = 1 ∧ Spec.NearlyIsotropic u) ∧ tGratingType s ≤ 2 := by
    unfold tGratingType
    rw [hr, hl]
    by_cases h1 : u.ny = 1 <;> by_cases h2 : (s.p.pol = 0 ∨ s.p.pol = 1) ∧ (s.p.phi = none ∨ s.p.phi = some 0) ∧ s.p.fto.2 = 0 <;>
      by_cases h3 : Spec.NearlyIsotropic u <;>
      (have h4 := hi; simp only [h3, not_true, not_false_eq_true, iff_true, iff_false] at h4; simp [h1, h2, h3, h4])
  obtain ⟨g0, g1, g2⟩ := hg
  unfold tConv_solve at h
  obtain ⟨cs, -, h⟩ := Except.bind_ok.mp h
  unfold tSolve_for_conv at h
  generalize tGratingType s = g at *
  have hg : g = 0 ∨ g = 1 ∨ g = 2 := by omega
  rcases hg with rfl | rfl | rfl
  · have hline := g0.mp rfl
    cases ha : s.algo with
    | tmm =>
      rw [ha] at h
      obtain ⟨o, -, h⟩ := Except.bind_ok.mp h
      cases h
      simp [hline]
    | smm => rw [ha] at h; cases h
    | other => rw [ha] at h; cases h
  · have hline := g1.mp rfl
    cases ha : s.algo with
    | tmm =>
      rw [ha] at h
      obtain ⟨o, -, h⟩ := Except.bind_ok.mp h
      cases h
      simp [hline]
    | smm => rw [ha] at h; cases h; simp [hline]
    | other => rw [ha] at h; cases h
  · have h0 : ¬ line := fun e => by have := g0.mpr e; omega
    have h1 : ¬ (u.ny = 1 ∧ Spec.NearlyIsotropic u) := fun e => by have := g1.mpr ⟨h0, e⟩; omega
    cases ha : s.algo with
    | tmm =>
      rw [ha] at h
      obtain ⟨o, -, h⟩ := Except.bind_ok.mp h
      cases h
      simp only [h0, h1]
      simp
    | smm => rw [ha] at h; cases h
    | other => rw [ha] at h; cases h

/-! ### Non-vacuity -/

/-- Components of index 2 and 2 + 10⁻⁵ count as isotropic, 2 and 2.001 do not. -/
example : Spec.NearlyIsotropic ⟨1, 1, [fun k _ _ => if k = 0 then ((2 + 1 / 10 ^ 5 : ℝ) : ℂ) else ((2 : ℝ) : ℂ)]⟩ ∧
    ¬ Spec.NearlyIsotropic ⟨1, 1, [fun k _ _ => if k = 0 then ((2001 / 1000 : ℝ) : ℂ) else ((2 : ℝ) : ℂ)]⟩ := by
  constructor
  · intro l hl i j
    rw [List.mem_singleton.mp hl]
    simp only [if_true, one_ne_zero, if_false, show (2 : Fin 3) ≠ 0 by decide]
    rw [← Complex.ofReal_sub, ← Complex.ofReal_sub, Complex.norm_real, Complex.norm_real, Complex.norm_real]
    norm_num [Real.norm_eq_abs, abs_of_pos]
  · intro h
    have := (h _ List.mem_cons_self (0 : Fin 1) (0 : Fin 1)).1
    simp only [if_true, one_ne_zero, if_false] at this
    rw [← Complex.ofReal_sub, Complex.norm_real, Complex.norm_real] at this
    norm_num [Real.norm_eq_abs, abs_of_pos] at this

namespace C69

theorem claddings (pol : ℝ) (phi : Option ℂ) (hphi : ∀ φ, phi = some φ → Spec.IsReal φ) : Spec.LosslessCladdings (exParams pol phi) :=
  { (exSettings_lossless pol phi hphi).toRealIllumination with
    n_bot_real := by simp [exParams, Spec.IsReal], n_bot_pos := by simp [exParams] }

/-- The two-pixel grating of the examples along the grooves; index 3 along the other two axes. -/
noncomputable def cell : Ucell3 := ⟨1, 2, [fun k _ j => if k = 1 then exRow j else 3]⟩

noncomputable def settings : TSettings := Spec.withCell (exSettings 0 none).torch (.aniso cell)

theorem ordinary : Spec.OrdinaryAniso settings cell where
  cell := rfl
  rows := one_pos
  columns := two_pos
  coefficients := Or.inl rfl
  media := by
    intro l hl k i j
    obtain rfl := List.mem_singleton.mp hl
    by_cases hk : k = 1
    · simp only [hk, if_true, exRow]
      split_ifs <;> simp [Spec.OrdinaryMedium]
    · simp [hk, Spec.OrdinaryMedium]

theorem real : ∀ l ∈ cell.layers, ∀ k i j, Spec.IsReal (l k i j) := by
  intro l hl k i j
  obtain rfl := List.mem_singleton.mp hl
  by_cases hk : k = 1
  · simp only [hk, if_true, exRow]
    split_ifs <;> simp [Spec.IsReal]
  · simp [hk, Spec.IsReal]

theorem type_zero : tGratingType settings = 0 := by
  simp [tGratingType, settings, Spec.withCell, TStructure.rows, cell, Settings.torch, exSettings, exParams]

private theorem solve_1d_te {la : LinAlg} {p : Params} {wl : ℝ} (hpol : p.pol = 0) {cs cs' : List (Conv (Fin (2 * p.fto.1 + 1)))}
    (h : List.Forall₂ (fun c c' => c.epy = c'.epy) cs cs') {o : Out1D (2 * p.fto.1 + 1)} (ho : solve_1d la p wl cs = .ok o) :
    ∃ o', solve_1d la p wl cs' = .ok o' := by
  unfold solve_1d at ho
  obtain ⟨init, h1, ho⟩ := Except.bind_ok.mp ho
  obtain ⟨r, h2, ho⟩ := Except.bind_ok.mp ho
  obtain ⟨x, h3, ho⟩ := Except.bind_ok.mp ho
  have := layerLoop_agree (step := step1d la p (2 * Real.pi / wl) (kxVec p wl)) (fun c c' d s e => by
    unfold step1d transfer_1d_2
    simp only [hpol, if_true]
    rw [show c.epy = c'.epy from e]
    simp only [bind, Except.bind]
    split <;> rfl) h p.thickness p.thickness.length init.2.2 [] []
  rw [h2] at this
  cases h4 : layerLoop (step1d la p (2 * Real.pi / wl) (kxVec p wl)) cs' p.thickness p.thickness.length (init.2.2, []) with
  | error y => rw [h4] at this; cases this
  | ok y =>
    rw [h4] at this
    have e2 : r.1 = y.1 := by simpa [Except.map] using this
    rw [e2] at h3
    unfold solve_1d
    exact ⟨⟨x.1, x.2, y.2⟩, Except.bind_ok.mpr ⟨init, h1, Except.bind_ok.mpr ⟨y, h4, Except.bind_ok.mpr ⟨x, h3, rfl⟩⟩⟩⟩

/-- A lossless anisotropic grating that PyTorch solves without falling back. -/
theorem no_fallback {cs} (hcs : tConvMats exLA settings = .ok cs) : Spec.NoFallback exLA settings cs := by
  refine ⟨fun _ => ?_, fun h => by rw [type_zero] at h; cases h⟩
  obtain ⟨cs', cs0, cs1, cs2, hcs', hlen, h0, h1, h2, hf⟩ := aniso_convMats exLA rfl ordinary
  obtain rfl : cs' = cs := by rw [hcs] at hcs'; cases hcs'; rfl
  obtain ⟨o, ho⟩ := exTE_ok
  obtain ⟨ds, hd, -, -, ho⟩ := conv_solve_tetm.mp ho
  have hds : ds = cs1 := Except.ok.inj (hd.symm.trans h1)
  have hl1 := convMats_length hd
  obtain ⟨d, rfl⟩ : ∃ d, ds = [d] := List.length_eq_one_iff.mp hl1
  obtain ⟨c, rfl⟩ : ∃ c, cs' = [c] := List.length_eq_one_iff.mp hlen
  obtain ⟨-, -, c1, m1, -, -, -, e, -⟩ := hf c (List.mem_singleton.mpr rfl)
  rw [← hds] at m1
  obtain rfl := List.mem_singleton.mp m1
  exact solve_1d_te (p := exParams 0 none) rfl (List.Forall₂.cons (congrArg (fun M => M.submatrix rowIdx rowIdx) e.symm) List.Forall₂.nil) ho

example : ∃ sol, tConv_solve exLA settings = .ok sol ∧ Spec.Totals sol.result (· = 1) := by
  obtain ⟨cs, h1, -, h2⟩ := C69_aniso_energy exLA settings cell ordinary real (claddings 0 none (by simp)) rfl rfl (by rw [type_zero]; omega)
  exact h2 (no_fallback h1)

/-- The `x` and `z` components may be changed in TE. -/
example : (tConv_solve exLA settings).map Solved.result = (tConv_solve exLA (Spec.withCell (exSettings 0 none).torch
    (.aniso ⟨1, 2, [fun k _ j => if k = 1 then exRow j else 2 - Complex.I]⟩))).map Solved.result := by
  refine C69_te exLA (exSettings 0 none).torch cell [fun k _ j => if k = 1 then exRow j else 2 - Complex.I] rfl ordinary
    ⟨rfl, one_pos, two_pos, Or.inl rfl, ?_⟩ type_zero rfl (List.Forall₂.cons ?_ List.Forall₂.nil)
  · intro l hl k i j
    obtain rfl := List.mem_singleton.mp hl
    by_cases hk : k = 1
    · simp only [hk, if_true, exRow]
      split_ifs <;> simp [Spec.OrdinaryMedium]
    · simp [hk, Spec.OrdinaryMedium]
  · rfl

/-- JAX on the two-pixel grating. -/
example : ∃ sol, Jax.conv_solve (clampEnv (scaledLA exLA 2)) (exSettings 0 none) = .ok sol ∧ Spec.Totals sol.result (· = 1) := by
  obtain ⟨o, h⟩ := exTE_ok
  obtain ⟨sol, h, -⟩ := C57_other_eig exLA (clampEnv (scaledLA exLA 2)) scaledLA_basis _ rfl _ h
  refine ⟨sol, h, C69_jax_energy _ _ (exSettings_lossless 0 none (by simp)) rfl rfl ?_ (fun _ h => by cases h) ?_ sol h⟩
  · intro u hu
    cases hu
    exact ⟨one_pos, two_pos⟩
  · simp [exSettings, exParams, exCell, Spec.layerCount]

/-- PyTorch on the two-pixel grating, TE and TM. -/
example (pol : ℝ) (hpol : pol = 0 ∨ pol = 1) : ∃ sol, tConv_solve exLA (exSettings pol none).torch = .ok sol ∧
    Spec.Totals sol.result (· = 1) := by
  obtain ⟨o, ho⟩ : ∃ o, conv_solve exLA (exSettings pol none) = .ok (.tetm o) := by
    rcases hpol with rfl | rfl
    · exact exTE_ok
    · exact exTM_ok
  exact C69_torch_energy exLA _ (exSettings_lossless pol none (by simp)) rfl rfl (by rw [exSettings_grating pol hpol]; omega) _ ho
    (fun o h => by cases h)

/-- A film of an absorbing anisotropic medium. -/
noncomputable def film : Ucell3 := ⟨2, 1, [fun k _ _ => if k = 1 then 2 - Complex.I else 1 - Complex.I]⟩

noncomputable def filmSettings : TSettings :=
  { p := exParams 0 none, ucell := .aniso film, fourier_type := 1, enhanced_dfs := true, algo := .tmm }

theorem film_ordinary : Spec.OrdinaryAniso filmSettings film where
  cell := rfl
  rows := two_pos
  columns := one_pos
  coefficients := Or.inr rfl
  media := by
    intro l hl k i j
    obtain rfl := List.mem_singleton.mp hl
    by_cases hk : k = 1 <;> simp [hk, Spec.OrdinaryMedium]

theorem film_type : tGratingType filmSettings = 2 := by
  simp [tGratingType, filmSettings, TStructure.rows, film]

theorem film_conv {cs} (hcs : tConvMats exLA filmSettings = .ok cs) :
    cs = [⟨diagonal fun _ => -2 * Complex.I, diagonal fun _ => 3 - 4 * Complex.I, diagonal fun _ => Complex.I / 2⟩] := by
  obtain ⟨cs', cs0, cs1, cs2, hcs', hlen, h0, h1, h2, hf⟩ := aniso_convMats exLA rfl film_ordinary
  obtain rfl : cs' = cs := by rw [hcs] at hcs'; cases hcs'; rfl
  have n0 : ∀ n ∈ [(1 : ℂ) - Complex.I], n ≠ 0 := by
    intro n hn; obtain rfl := List.mem_singleton.mp hn
    intro h; have := congrArg Complex.re h; simp at this
  have n1 : ∀ n ∈ [(2 : ℂ) - Complex.I], n ≠ 0 := by
    intro n hn; obtain rfl := List.mem_singleton.mp hn
    intro h; have := congrArg Complex.re h; simp at this
  have k0 := C18_homogeneous_continuous exLA 2 1 two_pos one_pos [1 - Complex.I] n0 0 0 false
  have k1 := C18_homogeneous_continuous exLA 2 1 two_pos one_pos [2 - Complex.I] n1 0 0 false
  have e0 : cs0 = [Spec.scalarConv 0 0 (1 - Complex.I)] := Except.ok.inj (h0.symm.trans k0)
  have e1 : cs1 = [Spec.scalarConv 0 0 (2 - Complex.I)] := Except.ok.inj (h1.symm.trans k1)
  have e2 : cs2 = [Spec.scalarConv 0 0 (1 - Complex.I)] := Except.ok.inj (h2.symm.trans k0)
  obtain ⟨c, rfl⟩ : ∃ c, cs' = [c] := List.length_eq_one_iff.mp hlen
  obtain ⟨c0, m0, c1, m1, c2, m2, f0, f1, f2⟩ := hf c (List.mem_singleton.mpr rfl)
  rw [e0] at m0; rw [e1] at m1; rw [e2] at m2
  obtain rfl := List.mem_singleton.mp m0
  obtain rfl := List.mem_singleton.mp m1
  obtain rfl := List.mem_singleton.mp m2
  have q0 : ((1 : ℂ) - Complex.I) ^ 2 = -2 * Complex.I := by linear_combination Complex.I_sq
  have q1 : ((2 : ℂ) - Complex.I) ^ 2 = 3 - 4 * Complex.I := by linear_combination Complex.I_sq
  have q2 : (((1 : ℂ) - Complex.I) ^ 2)⁻¹ = Complex.I / 2 := by
    rw [q0]
    refine inv_eq_of_mul_eq_one_right ?_
    linear_combination -Complex.I_sq
  obtain ⟨x, y, z⟩ := c
  dsimp only at f0 f1 f2
  subst f0 f1 f2
  refine congrArg (fun c => [c]) (show (⟨(1 - Complex.I) ^ 2 • 1, (2 - Complex.I) ^ 2 • 1, ((1 - Complex.I) ^ 2)⁻¹ • 1⟩ :
    Conv (FlatIdx 0 0)) = _ from ?_)
  rw [q2, q0, q1, smul_one_eq_diagonal, smul_one_eq_diagonal, smul_one_eq_diagonal]
  rfl

theorem diagonal_away {n : Type} [Fintype n] [DecidableEq n] (d : n → ℂ) (hd : ∀ i, 1 ≤ ‖d i‖) : Spec.DiagonalisableAway (diagonal d) := by
  refine ⟨⟨1, d, by simp, by simp⟩, fun l v hv h => ?_⟩
  obtain ⟨i, hi⟩ := Function.ne_iff.mp hv
  have := congrFun h i
  rw [mulVec_diagonal, Pi.smul_apply, smul_eq_mul] at this
  rw [← mul_right_cancel₀ hi this]
  exact le_trans (by norm_num) (hd i)

theorem film_normal : ¬ Spec.SomeAlongNormal filmSettings.p := by
  rintro ⟨m, k, hm, hk, h, -⟩
  have hm0 : m = 0 := abs_nonpos_iff.mp hm
  have h3 : Complex.sin ((Real.pi / 6 : ℝ) : ℂ) = 1 / 2 := by rw [← Complex.ofReal_sin, Real.sin_pi_div_six]; norm_num
  simp only [filmSettings, exParams, hm0, h3, Option.getD_none, Complex.cos_zero] at h
  norm_num at h

/-- The modes of the film. -/
theorem film_modes (u : TStructure) (ht : tGratingType (Spec.withCell filmSettings u) = 2) : Spec.AnisoModes (Spec.withCell filmSettings u)
    ⟨diagonal fun _ => -2 * Complex.I, diagonal fun _ => 3 - 4 * Complex.I, diagonal fun _ => Complex.I / 2⟩ := by
  have hx : Spec.kxOf filmSettings.p = fun _ => (1 / 2 : ℂ) := by
    funext i
    have hi : (i.val % (2 * filmSettings.p.fto.1 + 1) : ℕ) = 0 := Nat.mod_one _
    have h3 : Complex.sin ((Real.pi / 6 : ℝ) : ℂ) = 1 / 2 := by rw [← Complex.ofReal_sin, Real.sin_pi_div_six]; norm_num
    unfold Spec.kxOf
    rw [hi]
    simp only [filmSettings, exParams, h3, Option.getD_none, Complex.cos_zero]
    norm_num
  have hy : Spec.kyOf filmSettings.p = fun _ => (0 : ℂ) := by
    funext i
    have hi : (i.val / (2 * filmSettings.p.fto.1 + 1) : ℕ) = 0 := by
      have : i.val < 1 := i.isLt
      exact Nat.div_eq_of_lt (lt_of_lt_of_le this (by omega))
    unfold Spec.kyOf
    rw [hi]
    simp only [filmSettings, exParams, Option.getD_none, Complex.sin_zero]
    norm_num
  refine ⟨fun h => absurd (ht.symm.trans h) (by omega), fun h => absurd (ht.symm.trans h) (by omega), fun _ => ?_⟩
  have key : ∀ (n : Type) [Fintype n] [DecidableEq n], Spec.DiagonalisableAway (fromBlocks
      ((diagonal fun _ : n => (0 : ℂ)) * (diagonal fun _ => 0) + ((diagonal fun _ => 1 / 2) * (diagonal fun _ => Complex.I / 2) * (diagonal fun _ => 1 / 2) - 1) * (diagonal fun _ => -2 * Complex.I))
      ((diagonal fun _ => 1 / 2) * ((diagonal fun _ => Complex.I / 2) * (diagonal fun _ => 0) * (diagonal fun _ => 3 - 4 * Complex.I) - diagonal fun _ => 0))
      ((diagonal fun _ => 0) * ((diagonal fun _ => Complex.I / 2) * (diagonal fun _ => 1 / 2) * (diagonal fun _ => -2 * Complex.I) - diagonal fun _ => 1 / 2))
      ((diagonal fun _ => 1 / 2) * (diagonal fun _ => 1 / 2) + ((diagonal fun _ => 0) * (diagonal fun _ => Complex.I / 2) * (diagonal fun _ => 0) - 1) * (diagonal fun _ => 3 - 4 * Complex.I))) := by
    intro n _ _
    have z : (diagonal fun _ : n => (0 : ℂ)) = 0 := diagonal_zero
    have sc : ∀ a : ℂ, (diagonal fun _ : n => a) = algebraMap ℂ (Matrix n n ℂ) a := fun a => rfl
    have e : fromBlocks (diagonal fun _ : n => 1 / 4 + 2 * Complex.I) 0 0 (diagonal fun _ : n => -11 / 4 + 4 * Complex.I) =
        diagonal (Sum.elim (fun _ : n => 1 / 4 + 2 * Complex.I) fun _ : n => -11 / 4 + 4 * Complex.I) := fromBlocks_diagonal _ _
    have : ∀ A B C D : Matrix n n ℂ, A = (diagonal fun _ : n => 1 / 4 + 2 * Complex.I) → B = 0 → C = 0 →
        D = (diagonal fun _ : n => -11 / 4 + 4 * Complex.I) → Spec.DiagonalisableAway (fromBlocks A B C D) := by
      rintro _ _ _ _ rfl rfl rfl rfl
      rw [e]
      refine diagonal_away _ ?_
      rintro (i | i)
      · have := Complex.abs_im_le_norm (1 / 4 + 2 * Complex.I)
        simp at this ⊢
        linarith
      · have := Complex.abs_im_le_norm (-11 / 4 + 4 * Complex.I)
        simp at this ⊢
        linarith
    refine this _ _ _ _ ?_ ?_ ?_ ?_
    · simp only [sc, ← map_one (algebraMap ℂ (Matrix n n ℂ)), ← map_mul, ← map_sub, ← map_add]
      congr 1
      linear_combination (-1 / 4 : ℂ) * Complex.I_sq
    · simp only [z, mul_zero, zero_mul, sub_zero]
    · simp only [z, zero_mul]
    · simp only [sc, ← map_one (algebraMap ℂ (Matrix n n ℂ)), ← map_mul, ← map_sub, ← map_add]
      congr 1
      ring
  have := key (FlatIdx 0 0)
  dsimp only
  rw [hx, hy]
  exact this

example : ∃ sol, tConv_solve exLA filmSettings = .ok sol ∧ Spec.Totals sol.result (· ≤ 1) := by
  obtain ⟨cs, h1, h2⟩ := C69_aniso_absorbing exLA exLA_basis filmSettings film film_ordinary (by
      intro l hl k
      obtain rfl := List.mem_singleton.mp hl
      refine ⟨(0 : Fin 2), (0 : Fin 1), ?_⟩
      by_cases hk : k = 1 <;> simp [hk, Spec.AbsorbingMedium]) (Or.inl rfl) (by simp [filmSettings, exParams]) (by simp [filmSettings, exParams])
    (by simp [filmSettings, exParams, film]) (claddings 0 none (by simp)) rfl rfl (Or.inr ⟨film_type, film_normal⟩)
  refine h2 fun c hc => ?_
  rw [film_conv h1] at hc
  obtain rfl := List.mem_singleton.mp (List.mem_of_mem_take hc)
  exact film_modes (.aniso film) film_type

end C69

#print axioms C69_jax_energy
#print axioms C69_jax_passive
#print axioms C69_torch_energy
#print axioms C69_torch_passive
#print axioms C69_aniso_energy
#print axioms C69_aniso_passive
#print axioms C69_aniso_absorbing
#print axioms C69_equal_components
#print axioms C69_dispatch
#print axioms C69_te
#print axioms C69_tm

end Meent
