import Verif.Lemmas.ScatteringTmmExample
import Verif.Lemmas.PassiveExample

/-!
# The matrix of a film that may absorb (helper lemmas)
-/

open Matrix

namespace Meent

theorem film_scatters {n : Type} [Fintype n] [DecidableEq n] {k0 d : ℝ} (hk : 0 ≤ k0) (hd : 0 ≤ d) {q v : ℂ} (hq : 0 ≤ q.re) (hv : 0 < v.im) :
    ∃ S, Spec.scatteringMatrix k0 ((Complex.I * ((Real.sqrt 3 / 2 : ℝ) : ℂ)) • (1 : Matrix n n ℂ)) ((Complex.I * ((Real.sqrt 3 / 2 : ℝ) : ℂ)) • 1)
      ((Complex.I * ((Real.sqrt 3 / 2 : ℝ) : ℂ)) • 1) [⟨1, diagonal fun _ => v, fun _ => q, d⟩] = .ok S := by
  obtain ⟨hA0, hB⟩ := absScalars hv
  have hB := hB _ (absPhase hq hk hd)
  have hs0 : 0 < Real.sqrt 3 / 2 := by positivity
  unfold dr at hB
  set s := Real.sqrt 3 / 2 with hsd
  have hs : (s : ℂ) ≠ 0 := by exact_mod_cast hs0.ne'
  have hvc : v ≠ 0 := ne_of_im hv.ne'
  have hIs : Complex.I * (s : ℂ) ≠ 0 := mul_ne_zero Complex.I_ne_zero hs
  have hg : IsUnit ((Complex.I * (s : ℂ)) • (1 : Matrix n n ℂ)).det := by
    rw [det_smul, det_one, mul_one]
    exact (isUnit_iff_ne_zero.mpr hIs).pow _
  have hdiag : ∀ c : ℂ, (diagonal fun _ => c : Matrix n n ℂ) = c • 1 := by
    intro c
    rw [← diagonal_one, ← diagonal_smul]
    congr 1
    funext i
    simp
  have hAB : A_B_matrices (1 : Matrix n n ℂ) 1 (diagonal fun _ => v) ((Complex.I * (s : ℂ)) • 1) =
      .ok ((1 + Complex.I * s / v) • 1, (1 - Complex.I * s / v) • 1) := by
    rw [hdiag]
    refine Except.bind_ok.mpr ⟨_, npInv_one, Except.bind_ok.mpr ⟨_, npInv_scalar hvc, ?_⟩⟩
    rw [smul_mul_smul_comm, mul_one, show v⁻¹ * (Complex.I * (s : ℂ)) = Complex.I * s / v by ring]
    congr 2
    · module
    · module
  set x := Complex.exp (-(k0 : ℂ) * q * (d : ℂ)) with hxd
  have hx : (diagonal fun _ => Complex.exp (-q * (d : ℂ) * (k0 : ℂ)) : Matrix n n ℂ) = x • 1 := by
    rw [hdiag, show -q * (d : ℂ) * (k0 : ℂ) = -(k0 : ℂ) * q * (d : ℂ) by ring]
  have hT : (1 + Complex.I * s / v) - x * (1 - Complex.I * s / v) * (1 + Complex.I * s / v)⁻¹ * x * (1 - Complex.I * s / v) ≠ 0 := by
    intro h0
    apply hB
    have e : Complex.I * (s : ℂ) = v * (Complex.I * s / v) := by field_simp
    have e2 : v * (1 - x ^ 2 * ((1 - Complex.I * s / v) / (1 + Complex.I * s / v))) + v * (Complex.I * s / v) * (1 + x ^ 2 * ((1 - Complex.I * s / v) / (1 + Complex.I * s / v))) = 0 := by
      rw [div_eq_mul_inv (1 - Complex.I * s / v)]
      linear_combination v * h0
    rw [← e] at e2
    exact e2
  obtain ⟨S, hS⟩ : ∃ S, S_layer ((1 + Complex.I * s / v) • (1 : Matrix n n ℂ)) ((1 - Complex.I * s / v) • 1) d k0 (fun _ => q) = .ok S := by
    unfold S_layer
    dsimp only
    rw [hx]
    refine ⟨_, Except.bind_ok.mpr ⟨_, npInv_scalar hA0, Except.bind_ok.mpr ⟨_, (congrArg npInv ?_).trans (npInv_scalar hT), rfl⟩⟩⟩
    simp only [smul_mul_smul_comm, mul_one, ← sub_smul]
  exact ⟨S, film_matrix hg hAB hS⟩

end Meent
