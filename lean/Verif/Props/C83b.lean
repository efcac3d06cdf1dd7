import Verif.Props.C83
import Verif.Props.C57
import Verif.Lemmas.BackendLaws
import Verif.Lemmas.AnglesTorch

/-!
# C83 on JAX and PyTorch
-/

set_option linter.unusedSectionVars false
set_option linter.unusedSimpArgs false

open Matrix

namespace Meent

/-! ### JAX -/

/-- **C83 on JAX (partial: polar angles below `float32(π/2)`).** Two ways to write the same direction of incidence give the same
outcome. -/
theorem C83_jax_direction_partial (env : Jax.Env) (s : Settings) (θ φ θ' φ' ψ : ℂ) (hd : Spec.SameDirection θ φ θ' φ')
    (h1 : θ.re < Spec.singleHalfPi) (h2 : θ'.re < Spec.singleHalfPi) :
    Jax.conv_solve env (Spec.withAngles s θ' φ' ψ) = Jax.conv_solve env (Spec.withAngles s θ φ ψ) := by
  refine Jax.conv_solve_turned env (Spec.withAngles s θ φ ψ) (θ := θ') (φ := some φ') hd.1 (Jax.kxVec_turned ?_) (Jax.kyVec_turned ?_) (by simp)
  · rw [Jax.sinTheta_small h2, Jax.sinTheta_small h1]
    exact hd.2.1
  · rw [Jax.sinTheta_small h2, Jax.sinTheta_small h1]
    exact hd.2.2

/-- **C83 on JAX.** Whole turns of the azimuth change nothing. -/
theorem C83_jax_azimuth (env : Jax.Env) (s : Settings) (θ φ ψ : ℂ) (k : ℤ) :
    Jax.conv_solve env (Spec.withAngles s θ (φ + k * (2 * Real.pi)) ψ) = Jax.conv_solve env (Spec.withAngles s θ φ ψ) := by
  refine Jax.conv_solve_turned env (Spec.withAngles s θ φ ψ) (θ := θ) (φ := some (φ + k * (2 * Real.pi))) rfl
    (Jax.kxVec_turned ?_) (Jax.kyVec_turned ?_) (by simp)
  · simp only [Option.getD_some, Complex.cos_add_int_mul_two_pi]
  · simp only [Option.getD_some, Complex.sin_add_int_mul_two_pi]

/-- **C83 on JAX.** Half turns of the polarization angle change the sign of the field only. -/
theorem C83_jax_psi (env : Jax.Env) (s : Settings) (hp : Spec.NoDiscretePinv s)
    (hpix : ∀ u, s.ucell = .raster u → 0 < u.ny ∧ 0 < u.nx) (he : Spec.EllipsesSplit s.ucell)
    (hl : s.p.thickness.length ≤ Spec.layerCount s.ucell) (hg : gratingType s ≠ 0) (ha : s.algo = .tmm) (k : ℤ)
    (sol : Solved s.p.fto.1 s.p.fto.2) (h : Jax.conv_solve env s = .ok sol) :
    ∃ sol' : Solved s.p.fto.1 s.p.fto.2, Jax.conv_solve env (Spec.withPsi s (s.p.psi + k * Real.pi)) = .ok sol' ∧
      sol'.result.res_te_inc = sol.result.res_te_inc ∧ sol'.result.res_tm_inc = sol.result.res_tm_inc ∧
      ∃ r r', sol.result.res = some r ∧ sol'.result.res = some r' ∧ Spec.TimesPhase ((-1) ^ k) r r' := by
  obtain ⟨sol', h1, h2⟩ := C83_psi env.la s hg ha k sol (C57_jax_to_numpy env s hpix he hl sol h)
  exact ⟨sol', C57_numpy_to_jax_partial env (Spec.withPsi s (s.p.psi + k * Real.pi)) hp sol' h1, h2⟩

/-- **C83 on JAX, negation.** A whole turn more in the polar angle changes the results as on NumPy. -/
theorem C83_jax_negation (env : Jax.Env) :
    ∃ (o o' : Out1D _), Jax.conv_solve env (C83.nothing 0) = .ok (.tetm o) ∧ Jax.conv_solve env (C83.nothing 1) = .ok (.tetm o') ∧
      (∀ j i, o.res.R_s j i = 0) ∧ (∀ j i, 10 ^ 6 < ‖o'.res.R_s j i‖) := by
  obtain ⟨o, o', h, h', h1, h2⟩ := C83_negation env.la
  exact ⟨o, o', C57_numpy_to_jax_partial env _ (Or.inl rfl) _ h, C57_numpy_to_jax_partial env _ (Or.inl rfl) _ h', h1, h2⟩

/-! ### PyTorch -/

/-- **C83 on PyTorch.** Two ways to write the same direction of incidence give the same outcome, for all complex angles. The code
switches to the TE/TM formulation when the azimuth is zero, so both azimuths or none have to be zero. -/
theorem C83_torch_direction (la : LinAlg) (s : TSettings) (θ φ θ' φ' ψ : ℂ) (hd : Spec.SameDirection θ φ θ' φ')
    (hz : φ' = 0 ↔ φ = 0) : tConv_solve la (Spec.tWithAngles s θ' φ' ψ) = tConv_solve la (Spec.tWithAngles s θ φ ψ) := by
  refine tConv_solve_turned la (Spec.tWithAngles s θ φ ψ) (θ := θ') (φ := some φ') hd.1 hd.2.1 hd.2.2 ?_
  unfold tGratingType
  simp only [reduceCtorEq, Option.some.injEq, false_or, hz]

/-- **C83 on PyTorch.** Whole turns of the polar angle change nothing, in contrast to NumPy and JAX. -/
theorem C83_torch_turn (la : LinAlg) (s : TSettings) (k : ℤ) :
    tConv_solve la { s with p := { s.p with theta := s.p.theta + k * (2 * Real.pi) } } = tConv_solve la s :=
  tConv_solve_turned la s (θ := s.p.theta + k * (2 * Real.pi)) (φ := s.p.phi) (Complex.cos_add_int_mul_two_pi _ _)
    (by rw [Complex.sin_add_int_mul_two_pi]) (by rw [Complex.sin_add_int_mul_two_pi]) rfl

/-- **C83 on PyTorch.** Half turns of the polarization angle change the sign of the field only. -/
theorem C83_torch_psi (la : LinAlg) (s : TSettings) (hg : tGratingType s ≠ 0) (ha : s.algo = .tmm) (k : ℤ)
    (sol : Solved s.p.fto.1 s.p.fto.2) (h : tConv_solve la s = .ok sol) :
    ∃ sol' : Solved s.p.fto.1 s.p.fto.2, tConv_solve la (Spec.tWithPsi s (s.p.psi + k * Real.pi)) = .ok sol' ∧
      sol'.result.res_te_inc = sol.result.res_te_inc ∧ sol'.result.res_tm_inc = sol.result.res_tm_inc ∧
      ∃ r r', sol.result.res = some r ∧ sol'.result.res = some r' ∧ Spec.TimesPhase ((-1) ^ k) r r' := by
  refine tConv_solve_psi h hg ha ?_ ?_ ?_ ?_
  · rw [Complex.cos_antiperiodic.add_int_mul_eq k, Int.cast_negOnePow]
  · rw [Complex.sin_antiperiodic.add_int_mul_eq k, Int.cast_negOnePow]
  · rw [norm_zpow, norm_neg, norm_one, _root_.one_zpow]
  · rw [star_zpow₀, star_neg, star_one]

/-! ### Examples -/

/-- The film of C83 solves on JAX. -/
example (env : Jax.Env) (hb : Spec.ReturnsBasis env.la) (pol : ℝ) (f g : ℕ) : ∃ sol, Jax.conv_solve env (C83.film pol f g) = .ok sol ∧
    Spec.NoDiscretePinv (C83.film pol f g) ∧ gratingType (C83.film pol f g) ≠ 0 := by
  obtain ⟨sol, h⟩ := C83.film_solves pol f g
  obtain ⟨sol', h', -⟩ := C57_other_eig exLA env hb (C83.film pol f g) rfl sol h
  exact ⟨sol', h', Or.inl rfl, by simp [C83.film, gratingType, Spec.homogeneousRaster]⟩

/-- A conical problem on PyTorch at any real polarization angle. -/
example (psi : ℝ) (k : ℤ) : ∃ t t' : Solved 0 0, tConv_solve exLA (mixSettings psi).torch = .ok t ∧
    tConv_solve exLA (Spec.tWithPsi (mixSettings psi).torch (psi + k * Real.pi)) = .ok t' ∧
    ∃ r r', t.result.res = some r ∧ t'.result.res = some r' ∧ Spec.TimesPhase ((-1) ^ k) r r' := by
  obtain ⟨o, ho, -⟩ := mix_ok psi
  have hphi : (mixSettings psi).p.phi ≠ some 0 := by
    simp only [mixSettings, mixParams, ne_eq, Option.some.injEq]
    intro h0
    have := Real.arctan_pos.mpr (show (0 : ℝ) < 1 / 2 by norm_num)
    exact this.ne' (by exact_mod_cast h0)
  obtain ⟨-, t, -, ht, -⟩ := torch_runs (mixLossless psi) rfl (fun _ => Or.inl hphi) ho (fun o h => by cases h)
  obtain ⟨t', h1, -, -, h2⟩ := C83_torch_psi exLA (mixSettings psi).torch (by
    unfold tGratingType
    have h0 : (mixSettings psi).torch.p.phi ≠ some 0 := hphi
    have h1 : (mixSettings psi).torch.p.phi ≠ none := by simp [Settings.torch, mixSettings, mixParams]
    simp only [h0, h1, or_self, false_and, and_false, if_false]
    split <;> simp
    split_ifs <;> simp) rfl k t ht
  exact ⟨t, t', ht, h1, h2⟩

end Meent

#print axioms Meent.C83_jax_direction_partial
#print axioms Meent.C83_jax_azimuth
#print axioms Meent.C83_jax_psi
#print axioms Meent.C83_jax_negation
#print axioms Meent.C83_torch_direction
#print axioms Meent.C83_torch_turn
#print axioms Meent.C83_torch_psi
