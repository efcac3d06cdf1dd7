import Verif.Lemmas.Orders
import Verif.Props.C13

/-!
# C10: polarization superposition (NumPy backend; the PyTorch backend is in `C10Torch`)
-/

open Matrix

namespace Meent

private theorem finalB_super {m : Type} (δ : m → ℂ) (psi th nt : ℂ) :
    finalB δ psi th nt = Complex.sin psi • finalB δ ((Real.pi / 2 : ℝ) : ℂ) th nt + Complex.cos psi • finalB δ 0 th nt := by
  have h1 : Complex.sin ((Real.pi / 2 : ℝ) : ℂ) = 1 := by rw [← Complex.ofReal_sin, Real.sin_pi_div_two]; norm_num
  have h2 : Complex.cos ((Real.pi / 2 : ℝ) : ℂ) = 0 := by rw [← Complex.ofReal_cos, Real.cos_pi_div_two]; norm_num
  ext k
  rcases k with (k | k) | (k | k) <;>
    simp only [finalB, Pi.add_apply, Pi.smul_apply, smul_eq_mul, h1, h2, Complex.sin_zero, Complex.cos_zero] <;> ring

/-- **C10.**  Conical and 2D solves: each amplitude array of `res` is `sin ψ` times that of `res_te_inc` plus
`cos ψ` times that of `res_tm_inc` (whether or not pseudo-inverses are used). -/
theorem C10_superposition (la : LinAlg) (s : Settings) (hg : gratingType s ≠ 0) (ha : s.algo = .tmm)
    (sol : Solved s.p.fto.1 s.p.fto.2) (h : conv_solve la s = .ok sol) :
    ∃ x te tm, sol.result = ⟨some x, some te, some tm⟩ ∧
      (∀ j i, x.R_s j i = Complex.sin s.p.psi * te.R_s j i + Complex.cos s.p.psi * tm.R_s j i) ∧
      (∀ j i, x.R_p j i = Complex.sin s.p.psi * te.R_p j i + Complex.cos s.p.psi * tm.R_p j i) ∧
      (∀ j i, x.T_s j i = Complex.sin s.p.psi * te.T_s j i + Complex.cos s.p.psi * tm.T_s j i) ∧
      (∀ j i, x.T_p j i = Complex.sin s.p.psi * te.T_p j i + Complex.cos s.p.psi * tm.T_p j i) := by
  obtain ⟨x, t, b, hr, hx⟩ := solved4 h hg ha
  obtain ⟨N, h1, h2, h3⟩ := out4_results hx
  refine ⟨_, _, _, hr, ?_⟩
  rw [h1, h2, h3, finalB_super, mulVec_add, mulVec_smul, mulVec_smul]
  have hadd : ∀ (a b : ℂ) (u v : (FlatIdx s.p.fto.1 s.p.fto.2 ⊕ FlatIdx s.p.fto.1 s.p.fto.2) ⊕ _ → ℂ),
      (t.T *ᵥ fun k => (a • u + b • v) (.inr k)) = a • (t.T *ᵥ fun k => u (.inr k)) + b • (t.T *ᵥ fun k => v (.inr k)) := by
    intro a b u v
    rw [← mulVec_smul, ← mulVec_smul, ← mulVec_add]
    rfl
  exact ⟨fun j i => rfl, fun j i => rfl, fun j i => congrFun (hadd _ _ _ _) (.inl (finProdFinEquiv (j, i))),
    fun j i => congrFun (hadd _ _ _ _) (.inr (finProdFinEquiv (j, i)))⟩

/-- **C10, the two pure polarizations.**  At `ψ = π/2` (`pol = 0`) the dictionary `res` is `res_te_inc`, at
`ψ = 0` (`pol = 1`) it is `res_tm_inc`: all amplitudes and efficiencies. -/
theorem C10_pure (la : LinAlg) (s : Settings) (hg : gratingType s ≠ 0) (ha : s.algo = .tmm)
    (hpol : s.p.psi = ((Real.pi / 2 * (1 - s.p.pol) : ℝ) : ℂ))
    (sol : Solved s.p.fto.1 s.p.fto.2) (h : conv_solve la s = .ok sol) :
    (s.p.pol = 0 → sol.result.res ≠ none ∧ sol.result.res = sol.result.res_te_inc) ∧
    (s.p.pol = 1 → sol.result.res ≠ none ∧ sol.result.res = sol.result.res_tm_inc) := by
  obtain ⟨x, t, b, hr, hx⟩ := solved4 h hg ha
  obtain ⟨N, h1, h2, h3⟩ := out4_results hx
  rw [hr]
  constructor
  · intro h0
    refine ⟨by simp, ?_⟩
    simp only [h1, h2, hpol, h0, sub_zero, mul_one]
  · intro h0
    refine ⟨by simp, ?_⟩
    simp only [h1, h3, hpol, h0, sub_self, mul_zero, Complex.ofReal_zero]

/-- Non-vacuity: the two-pixel grating in the conical and in the 2D solver, any polarization. -/
example (pol : ℝ) : (∃ o, conv_solve exLA (exSettings pol (some 0)) = .ok (.conical o)) ∧
    (∃ o, conv_solve exLA (Spec.withUcell (exSettings pol (some 0)) (Spec.yInvariant 2 2 [exRow])) = .ok (.twoD o)) ∧
    gratingType (exSettings pol (some 0)) ≠ 0 ∧
    (exSettings pol (some 0)).p.psi = ((Real.pi / 2 * (1 - (exSettings pol (some 0)).p.pol) : ℝ) : ℂ) :=
  ⟨exCon_ok pol, exTwoD_ok pol, by simp [gratingType, exSettings, exCell, exParams], rfl⟩

end Meent

#print axioms Meent.C10_superposition
#print axioms Meent.C10_pure
