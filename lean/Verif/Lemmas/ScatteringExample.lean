import Verif.Lemmas.Scattering

/-!
# Examples of scattering matrices (helper lemmas)
-/

open Matrix

namespace Meent

variable {n : Type} [Fintype n] [DecidableEq n]

/-! ### A film between two half spaces like the gaps -/

theorem npInv_scalar {c : ℂ} (hc : c ≠ 0) : npInv (c • (1 : Matrix n n ℂ)) = .ok (c⁻¹ • 1) := by
  have hu : IsUnit (c • (1 : Matrix n n ℂ)).det := by
    rw [det_smul, det_one, mul_one]
    exact (isUnit_iff_ne_zero.mpr hc).pow _
  refine npInv_ok.mpr ⟨hu, (inv_eq_right_inv ?_).symm⟩
  rw [smul_mul_smul_comm, mul_one, mul_inv_cancel₀ hc, one_smul]

theorem npInv_one : npInv (1 : Matrix n n ℂ) = .ok 1 := by
  simpa using npInv_scalar (n := n) one_ne_zero

/-- The half space filled with the medium of the gaps leaves all waves as they are. -/
theorem half_same {Vg : Matrix n n ℂ} (h : IsUnit Vg.det) : A_B_matrices_half_space Vg Vg = .ok ((2 : ℂ) • 1, 0) := by
  refine Except.bind_ok.mpr ⟨_, npInv_ok.mpr ⟨h, rfl⟩, ?_⟩
  rw [nonsing_inv_mul _ h, sub_self, two_smul]

theorem S_RT_same (r : Bool) : S_RT ((2 : ℂ) • (1 : Matrix n n ℂ)) 0 r = .ok ⟨0, 1, 1, 0⟩ := by
  refine Except.bind_ok.mpr ⟨_, npInv_scalar two_ne_zero, ?_⟩
  cases r <;> simp [smul_smul]

theorem star_one_left (S : SDict n) : RedhefferStar ⟨0, 1, 1, 0⟩ S = .ok S := by
  refine Except.bind_ok.mpr ⟨1, by simpa using npInv_one, Except.bind_ok.mpr ⟨1, by simpa using npInv_one, ?_⟩⟩
  simp

theorem star_one_right (S : SDict n) : RedhefferStar S ⟨0, 1, 1, 0⟩ = .ok S := by
  refine Except.bind_ok.mpr ⟨1, by simpa using npInv_one, Except.bind_ok.mpr ⟨1, by simpa using npInv_one, ?_⟩⟩
  simp

theorem film_matrix {k0 : ℝ} {Vg : Matrix n n ℂ} (h : IsUnit Vg.det) {L : Spec.SLayer n} {A B : Matrix n n ℂ} {S : SDict n}
    (hAB : A_B_matrices L.W 1 L.V Vg = .ok (A, B)) (hS : S_layer A B L.d k0 L.q = .ok S) : Spec.scatteringMatrix k0 Vg Vg Vg [L] = .ok S := by
  refine Except.bind_ok.mpr ⟨_, half_same h, Except.bind_ok.mpr ⟨_, S_RT_same _, Except.bind_ok.mpr ⟨S, ?_, Except.bind_ok.mpr ⟨_, half_same h,
    Except.bind_ok.mpr ⟨_, S_RT_same _, star_one_right S⟩⟩⟩⟩⟩
  exact Except.bind_ok.mpr ⟨S, Except.bind_ok.mpr ⟨_, hAB, Except.bind_ok.mpr ⟨_, hS, star_one_left S⟩⟩, rfl⟩

end Meent
