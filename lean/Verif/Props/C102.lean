import Verif.Lemmas.ScatteringSource
import Verif.Spec.ScatteringSource
import Mathlib.Topology.Instances.Complex

/-!
# C102: the incident wave of the 2D scattering functions
-/

open Matrix Filter Topology

namespace Meent

theorem zeroFlat_iff {fx fy : ℕ} (i : FlatIdx fx fy) : Spec.IsZeroOrder i ↔ i = zeroFlat fx fy := by
  constructor
  · rintro ⟨h1, h2⟩
    have : finProdFinEquiv (i.divNat, i.modNat) = i := finProdFinEquiv.apply_symm_apply i
    rw [← this]
    unfold zeroFlat
    congr 2
    · exact Fin.ext h2
    · exact Fin.ext h1
  · rintro rfl
    exact ⟨by rw [zeroFlat_mod], by rw [zeroFlat_div]⟩

/-- **C102, oblique incidence.**  The field that `initial_conditions` builds for light of TE and TM amplitudes `pte` and `ptm` is transverse, has their norm, and is horizontal for TE
light.  The source is this field in the zero order and nothing in the others. -/
theorem C102_source_partial (n θ φ : ℝ) (hn : 0 < n) (h0 : 0 < θ) (h1 : θ < Real.pi) (pte ptm : ℂ) (fx fy : ℕ) (E : Fin 3 → ℂ) (src : FlatIdx fx fy ⊕ FlatIdx fx fy → ℂ)
    (h : initial_conditions (Spec.incident n θ φ) θ ![0, 0, 1] pte ptm fy fx = (E, src)) :
    ∑ j, E j * Spec.incident n θ φ j = 0 ∧ (∑ j, Complex.normSq (E j) = Complex.normSq pte + Complex.normSq ptm) ∧ (ptm = 0 → E 2 = 0) ∧
      ∀ i, (Spec.IsZeroOrder i → src (.inl i) = E 0 ∧ src (.inr i) = E 1) ∧ (¬ Spec.IsZeroOrder i → src (.inl i) = 0 ∧ src (.inr i) = 0) := by
  have hθ := Real.sin_pos_of_pos_of_lt_pi h0 h1
  have hE := polarization_eq (φ := φ) hn h0.ne' hθ pte ptm fy fx
  have hs := source_eq (kInc n θ φ) ![0, 0, 1] θ pte ptm fy fx
  have hK : Spec.incident n θ φ = kInc n θ φ := rfl
  rw [hK] at h ⊢
  rw [h] at hE hs
  dsimp only at hE hs
  have hsφ := Real.sin_sq_add_cos_sq φ
  have hsθ := Real.sin_sq_add_cos_sq θ
  refine ⟨?_, ?_, ?_, ?_⟩
  · have hc : Complex.sin φ ^ 2 + Complex.cos φ ^ 2 = 1 := Complex.sin_sq_add_cos_sq _
    rw [hE, Fin.sum_univ_three]
    unfold kInc
    simp only [cons_val_zero, cons_val_one, cons_val]
    linear_combination -(ptm * n * Complex.sin θ * Complex.cos θ) * hc
  · rw [hE, Fin.sum_univ_three]
    simp only [cons_val_zero, cons_val_one, cons_val]
    rw [← Complex.ofReal_sin, ← Complex.ofReal_cos, ← Complex.ofReal_sin, ← Complex.ofReal_cos]
    simp only [Complex.normSq_apply, Complex.sub_re, Complex.sub_im, Complex.mul_re, Complex.mul_im, Complex.neg_re, Complex.neg_im, Complex.ofReal_re, Complex.ofReal_im]
    linear_combination (pte.re ^ 2 + pte.im ^ 2 + Real.cos θ ^ 2 * (ptm.re ^ 2 + ptm.im ^ 2)) * hsφ + (ptm.re ^ 2 + ptm.im ^ 2) * hsθ
  · intro h
    rw [hE, h]
    simp
  · intro i
    rw [zeroFlat_iff, hs]
    refine ⟨?_, ?_⟩
    · rintro rfl
      simp
    · intro hi
      simp [Pi.single_eq_of_ne hi]

/-- **C102, power.**  In the orders of the upper medium the source carries the power `n cos θ` per unit of its amplitudes, by which the efficiencies are divided. -/
theorem C102_power_partial (n θ φ : ℝ) (hn : 0 < n) (h0 : 0 < θ) (h1 : θ < Real.pi / 2) (pte ptm : ℂ) (fx fy : ℕ) (kx ky : FlatIdx fx fy → ℂ)
    (hx : ∀ i, Spec.IsZeroOrder i → kx i = Spec.incident n θ φ 0) (hy : ∀ i, Spec.IsZeroOrder i → ky i = Spec.incident n θ φ 1) :
    Spec.power2D ((n : ℂ) ^ 2) kx ky (initial_conditions (Spec.incident n θ φ) θ ![0, 0, 1] pte ptm fy fx).2 =
      n * Real.cos θ * (Complex.normSq pte + Complex.normSq ptm) := by
  rcases hr : initial_conditions (Spec.incident n θ φ) θ ![0, 0, 1] pte ptm fy fx with ⟨E, src⟩
  obtain ⟨c1, c2, -, c4⟩ := C102_source_partial n θ φ hn h0 (by linarith [Real.pi_pos]) pte ptm fx fy E src hr
  have hcos : 0 < Real.cos θ := Real.cos_pos_of_mem_Ioo ⟨by linarith, h1⟩
  have hz : Spec.IsZeroOrder (zeroFlat fx fy) := (zeroFlat_iff _).mpr rfl
  have hk : Spec.depthWave ((n : ℂ) ^ 2) kx ky (zeroFlat fx fy) = ((n * Real.cos θ : ℝ) : ℂ) := by
    unfold Spec.depthWave
    rw [hx _ hz, hy _ hz]
    have e : (n : ℂ) ^ 2 - Spec.incident n θ φ 0 ^ 2 - Spec.incident n θ φ 1 ^ 2 = ((n * Real.cos θ : ℝ) : ℂ) ^ 2 := by
      unfold Spec.incident
      simp only [cons_val_zero, cons_val_one]
      push_cast
      linear_combination -(n : ℂ) ^ 2 * Complex.sin_sq_add_cos_sq θ - (n : ℂ) ^ 2 * Complex.sin θ ^ 2 * (Complex.sin_sq_add_cos_sq φ)
    rw [e, csqrt_ofReal_sq (by positivity), Complex.star_def, Complex.conj_ofReal]
  unfold Spec.power2D
  dsimp only
  rw [Finset.sum_eq_single (zeroFlat fx fy)]
  · obtain ⟨s1, s2⟩ := (c4 _).1 hz
    have hne : ((n * Real.cos θ : ℝ) : ℂ) ≠ 0 := by exact_mod_cast (mul_pos hn hcos).ne'
    have e3 : -(kx (zeroFlat fx fy) * E 0 + ky (zeroFlat fx fy) * E 1) / ((n * Real.cos θ : ℝ) : ℂ) = E 2 := by
      rw [div_eq_iff hne, hx _ hz, hy _ hz]
      rw [Fin.sum_univ_three] at c1
      have : Spec.incident n θ φ 2 = ((n * Real.cos θ : ℝ) : ℂ) := by
        unfold Spec.incident
        simp
      rw [this] at c1
      linear_combination -c1
    rw [s1, s2, hk, e3, Complex.ofReal_re, ← c2, Fin.sum_univ_three]
    simp only [Complex.normSq_eq_norm_sq]
  · intro i _ hi
    obtain ⟨s1, s2⟩ := (c4 i).2 (fun h => hi ((zeroFlat_iff i).mp h))
    rw [s1, s2]
    simp
  · intro h
    exact absurd (Finset.mem_univ _) h

/-- **C102 is violated at normal incidence.**  TE light at normal incidence is not the limit of TE light at small angles in the same plane of incidence, unless `φ` is a half turn:
the code sets its field to `(0, 1, 0)` whatever `φ` is. -/
theorem C102_negation (n φ : ℝ) (hn : 0 < n) (hφ : Real.cos φ ≠ -1) (fx fy : ℕ) :
    ¬ Tendsto (fun θ : ℝ => (initial_conditions (Spec.incident n θ φ) θ ![0, 0, 1] 1 0 fy fx).1 1) (𝓝[>] 0)
      (𝓝 ((initial_conditions (Spec.incident n 0 φ) ((0 : ℝ) : ℂ) ![0, 0, 1] 1 0 fy fx).1 1)) := by
  have h1 : (initial_conditions (Spec.incident n 0 φ) ((0 : ℝ) : ℂ) ![0, 0, 1] 1 0 fy fx).1 1 = 1 := by
    unfold initial_conditions
    simp
  rw [h1]
  intro h
  have h2 : (fun θ : ℝ => (initial_conditions (Spec.incident n θ φ) θ ![0, 0, 1] 1 0 fy fx).1 1) =ᶠ[𝓝[>] 0] fun _ => -Complex.cos φ := by
    filter_upwards [Ioo_mem_nhdsGT Real.pi_pos] with θ hθ
    have := polarization_eq (φ := φ) hn hθ.1.ne' (Real.sin_pos_of_pos_of_lt_pi hθ.1 hθ.2) 1 0 fy fx
    rw [show Spec.incident n θ φ = kInc n θ φ from rfl, this]
    simp
  have h3 := tendsto_nhds_unique (h.congr' h2) tendsto_const_nhds
  rw [← Complex.ofReal_cos] at h3
  have h4 := congrArg Complex.re h3
  rw [Complex.neg_re, Complex.ofReal_re, Complex.one_re] at h4
  exact hφ (by linarith)

/-- Non-vacuity: 30° in glass, at 45° to the axes, three orders. -/
example : (0 : ℝ) < 3 / 2 ∧ 0 < Real.pi / 6 ∧ Real.pi / 6 < Real.pi / 2 ∧ Real.cos (Real.pi / 4) ≠ -1 ∧
    ∃ i : FlatIdx 1 0, Spec.IsZeroOrder i := by
  refine ⟨by norm_num, by positivity, by linarith [Real.pi_pos], ?_, zeroFlat 1 0, (zeroFlat_iff _).mpr rfl⟩
  rw [Real.cos_pi_div_four]
  have : (0 : ℝ) ≤ Real.sqrt 2 / 2 := by positivity
  linarith

end Meent

#print axioms Meent.C102_source_partial
#print axioms Meent.C102_power_partial
#print axioms Meent.C102_negation
