import Verif.Lemmas.PhiZero
import Verif.Lemmas.EigBasis
import Verif.Spec.Phi
import Verif.Spec.Shift
import Verif.Lemmas.Example2D

/-!
# C12: `phi=None` and `phi=0` agree for 1D gratings
-/

open Matrix

namespace Meent

theorem grid_row {fx fy : ℕ} (hf : fy = 0) (y : Fin (2 * fy + 1)) (x : Fin (2 * fx + 1)) :
    finProdFinEquiv (y, x) = (rowIdx x : FlatIdx fx fy) := by
  subst hf
  have : y = 0 := Subsingleton.elim _ _
  rw [this]
  rfl

/-- The two solves, and what each reports. -/
theorem phi_zero_solves {la la' : LinAlg} {s : Settings} (hp : s.p.use_pinv = false)
    {u : Ucell} (hu : s.ucell = .raster u) (hny : u.ny = 1) (hf : s.p.fto.2 = 0)
    (hpol : s.p.pol = 0 ∨ s.p.pol = 1) (ha : s.algo = .tmm)
    {sol sol' : Solved s.p.fto.1 s.p.fto.2}
    (h : conv_solve la (Spec.withPhi s none) = .ok sol)
    (h' : conv_solve la' (Spec.withPhi s (some 0)) = .ok sol') :
    ∃ cs o o', sol = .tetm o ∧ sol' = .conical o' ∧
      solve_1d la (s.p.withPhi none) s.p.wavelength (cs.map Conv.row) = .ok o ∧
      solve_1d_conical la' (s.p.withPhi (some 0)) s.p.wavelength cs = .ok o' := by
  have hg : gratingType (Spec.withPhi s none) = 0 := by simp [gratingType, hu, hny, hpol, hf]
  have hg' : gratingType (Spec.withPhi s (some 0)) = 1 := by simp [gratingType, hu, hny]
  rcases conv_solve_cases h with ⟨-, o, rfl⟩ | ⟨h1, -⟩ | ⟨h1, -⟩
  · rcases conv_solve_cases h' with ⟨h1, -⟩ | ⟨-, ⟨o', rfl⟩ | rfl⟩ | ⟨h1, -⟩
    · rw [hg'] at h1; cases h1
    · obtain ⟨cs, hc, -, -, h4⟩ := conv_solve_tetm.mp h
      obtain ⟨cs', hc', -, -, h4'⟩ := conv_solve_conical.mp h'
      have e1 : convMats la' (Spec.withPhi s (some 0)) = convMats la (Spec.withPhi s none) :=
        (convMats_la la' la (s := Spec.withPhi s (some 0)) hp).trans rfl
      obtain rfl := Except.ok.inj (hc'.symm.trans (e1.trans hc))
      exact ⟨cs', o, o', rfl, rfl, h4, h4'⟩
    · have := (solve_for_conv_smm.mp (conv_solve_ok.mp h').choose_spec.2).2
      simp only [ha] at this
      cases this
    · rw [hg'] at h1; cases h1
  · rw [hg] at h1; cases h1
  · rw [hg] at h1; cases h1

/-- **C12, efficiencies.** A one-row raster with `fto[1] = 0`, `pol ∈ {0, 1}` and a real incidence
index: the TE/TM solver (`phi=None`) and the conical solver (`phi=0`) report the same six efficiency
arrays, whatever eigensolvers they use. -/
theorem C12_phi_zero (la la' : LinAlg) (s : Settings) (hp : s.p.use_pinv = false)
    (u : Ucell) (hu : s.ucell = .raster u) (hny : u.ny = 1) (hf : s.p.fto.2 = 0)
    (hpol : s.p.pol = 0 ∨ s.p.pol = 1) (hpsi : Spec.PsiFollowsPol s) (ha : s.algo = .tmm)
    (hnt : s.p.n_top ≠ 0) (hre : Spec.IsReal s.p.n_top)
    (sol sol' : Solved s.p.fto.1 s.p.fto.2)
    (h : conv_solve la (Spec.withPhi s none) = .ok sol)
    (h' : conv_solve la' (Spec.withPhi s (some 0)) = .ok sol') :
    ∃ r r', sol.result.res = some r ∧ sol'.result.res = some r' ∧ Spec.SameEff r r' := by
  obtain ⟨cs, o, o', rfl, rfl, h1, h2⟩ := phi_zero_solves hp hu hny hf hpol ha h h'
  refine ⟨_, _, rfl, rfl, ?_⟩
  obtain ⟨a, b, t, kzt, kzb, kzt', kzb', x, ek, ekb, he, h3, h4, e4⟩ :=
    phi_zero_solve (p := s.p.withPhi none) hf hp rfl hpol h2 h1
  simp only at he h3 h4
  rw [e4]
  unfold Spec.PsiFollowsPol at hpsi
  have e00 : ∀ w, effOf 0 w = 0 := fun w => by simp [effOf]
  rcases hpol with h0 | h0
  · rw [h0] at hpsi h4 he
    rw [if_pos rfl] at he
    have hs : Complex.sin s.p.psi = 1 := by rw [hpsi]; push_cast; simp
    have hc : Complex.cos s.p.psi = 0 := by rw [hpsi]; push_cast; simp
    obtain ⟨rt, er, r1, r2, r3, r4⟩ := final_te hf ek hs hc he h3 h4
    rw [transfer_te_eff h4, er]
    constructor <;> funext y i <;>
      simp only [subResOf, SubRes.row1, grid_row hf, r1, r2, r3, r4, e00, ek, ekb, add_zero]
  · rw [h0] at hpsi h4 he
    rw [if_neg one_ne_zero] at he
    have hs : Complex.sin s.p.psi = 0 := by rw [hpsi]; simp
    have hc : Complex.cos s.p.psi = 1 := by rw [hpsi]; simp
    obtain ⟨rt, er, r1, r2, r3, r4⟩ := final_tm hf ek hnt hs hc he h3 h4
    have w1 : ∀ k : ℂ, k / (s.p.n_top * Complex.cos s.p.theta)
        = s.p.n_top ^ 2 * (k / s.p.n_top ^ 2 / (s.p.n_top * Complex.cos s.p.theta)) := by
      intro k; field_simp
    have w2 : ∀ k : ℂ, k / s.p.n_bot ^ 2 / (Complex.cos s.p.theta / s.p.n_top)
        = s.p.n_top ^ 2 * (k / s.p.n_bot ^ 2 / (s.p.n_top * Complex.cos s.p.theta)) := by
      intro k; field_simp
    rw [transfer_tm_eff h4, er]
    constructor <;> funext y i <;>
      simp only [subResOf, SubRes.row1, grid_row hf, r1, r2, r3, r4, e00, ek, ekb, zero_add,
        effOf_I_mul hre (w1 _), effOf_I_mul hre (w2 _)]

/-- **C12, amplitudes.** For any incidence index: the TE amplitudes coincide, and the TM amplitudes of
the conical solver are `i n_top` times those of the TE/TM solver. -/
theorem C12_phi_zero_amplitudes (la la' : LinAlg) (s : Settings) (hp : s.p.use_pinv = false)
    (u : Ucell) (hu : s.ucell = .raster u) (hny : u.ny = 1) (hf : s.p.fto.2 = 0)
    (hpol : s.p.pol = 0 ∨ s.p.pol = 1) (hpsi : Spec.PsiFollowsPol s) (ha : s.algo = .tmm)
    (hnt : s.p.n_top ≠ 0)
    (sol sol' : Solved s.p.fto.1 s.p.fto.2)
    (h : conv_solve la (Spec.withPhi s none) = .ok sol)
    (h' : conv_solve la' (Spec.withPhi s (some 0)) = .ok sol') :
    ∃ r r', sol.result.res = some r ∧ sol'.result.res = some r' ∧ ∀ j i,
      r'.R_s j i = r.R_s j i ∧ r'.T_s j i = r.T_s j i ∧
      r'.R_p j i = Complex.I * s.p.n_top * r.R_p j i ∧ r'.T_p j i = Complex.I * s.p.n_top * r.T_p j i := by
  obtain ⟨cs, o, o', rfl, rfl, h1, h2⟩ := phi_zero_solves hp hu hny hf hpol ha h h'
  refine ⟨_, _, rfl, rfl, ?_⟩
  obtain ⟨a, b, t, kzt, kzb, kzt', kzb', x, ek, ekb, he, h3, h4, e4⟩ :=
    phi_zero_solve (p := s.p.withPhi none) hf hp rfl hpol h2 h1
  simp only at he h3 h4
  rw [e4]
  unfold Spec.PsiFollowsPol at hpsi
  intro j i
  rcases hpol with h0 | h0
  · rw [h0] at hpsi h4 he
    rw [if_pos rfl] at he
    have hs : Complex.sin s.p.psi = 1 := by rw [hpsi]; push_cast; simp
    have hc : Complex.cos s.p.psi = 0 := by rw [hpsi]; push_cast; simp
    obtain ⟨rt, er, r1, r2, r3, r4⟩ := final_te hf ek hs hc he h3 h4
    rw [transfer_te_eff h4, er]
    refine ⟨?_, ?_, ?_, ?_⟩ <;>
      simp only [subResOf, SubRes.row1, grid_row hf, r1, r2, r3, r4, mul_zero]
  · rw [h0] at hpsi h4 he
    rw [if_neg one_ne_zero] at he
    have hs : Complex.sin s.p.psi = 0 := by rw [hpsi]; simp
    have hc : Complex.cos s.p.psi = 1 := by rw [hpsi]; simp
    obtain ⟨rt, er, r1, r2, r3, r4⟩ := final_tm hf ek hnt hs hc he h3 h4
    rw [transfer_tm_eff h4, er]
    refine ⟨?_, ?_, ?_, ?_⟩ <;>
      simp only [subResOf, SubRes.row1, grid_row hf, r1, r2, r3, r4]

/-- Non-vacuity: the two-pixel grating at 30°, both polarizations, meets every hypothesis. -/
example (pol : ℝ) (hpol : pol = 0 ∨ pol = 1) : ∃ s : Settings, s.p.pol = pol ∧ s.p.use_pinv = false ∧
    (∃ u, s.ucell = .raster u ∧ u.ny = 1) ∧ s.p.fto.2 = 0 ∧ Spec.PsiFollowsPol s ∧ s.algo = .tmm ∧
    s.p.n_top ≠ 0 ∧ Spec.IsReal s.p.n_top ∧
    (∃ sol, conv_solve exLA (Spec.withPhi s none) = .ok sol) ∧
    ∃ sol', conv_solve exLA (Spec.withPhi s (some 0)) = .ok sol' := by
  refine ⟨exSettings pol none, rfl, rfl, ⟨_, rfl, rfl⟩, rfl, ?_, rfl, ?_, ?_, ?_, ?_⟩
  · simp [Spec.PsiFollowsPol, exSettings, exParams]
  · simp [exSettings, exParams]
  · simp [Spec.IsReal, exSettings, exParams]
  · rcases hpol with rfl | rfl
    · obtain ⟨o, ho⟩ := exTE_ok; exact ⟨_, ho⟩
    · obtain ⟨o, ho⟩ := exTM_ok; exact ⟨_, ho⟩
  · obtain ⟨o, ho⟩ := exCon_ok pol; exact ⟨_, ho⟩

end Meent

#print axioms Meent.C12_phi_zero
#print axioms Meent.C12_phi_zero_amplitudes
