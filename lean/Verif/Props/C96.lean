import Verif.Lemmas.Scattering2D
import Verif.Lemmas.Example1D
import Verif.Spec.Optics

/-!
# C96: the modes of the 2D scattering functions
-/

open Matrix

namespace Meent

variable {m : Type} [Fintype m] [DecidableEq m]

/-- **C96, layers.**  Each mode of a layer that `scattering_2d_wv` returns solves Maxwell's curl equations with the decay constant returned for it, whatever eigensolver is used. -/
theorem C96_layer_maxwell (la : LinAlg) (kx ky : m → ℂ) (c : Conv m) (M : Modes (m ⊕ m)) (h : scattering_2d_wv la kx ky c = .ok M) (j : m ⊕ m) :
    Spec.CurlMode kx ky c (M.q j) (fun i => M.W i j) (fun i => M.V i j) :=
  scattering_2d_wv_curl h j

/-- **C96, the solver.**  `scattering_2d_wv` returns the modes of the 2D solver with the magnetic fields reversed, and succeeds exactly when the solver has modes and the
matrix of the inverse permittivity is invertible. -/
theorem C96_layer_solver (la : LinAlg) (kx ky : m → ℂ) (c : Conv m) (M : Modes (m ⊕ m)) :
    scattering_2d_wv la kx ky c = .ok M ↔ IsUnit c.epzi.det ∧ transfer_2d_2 la kx ky c false = .ok { W := M.W, V := -M.V, q := M.q } :=
  scattering_2d_wv_ok

theorem real_sqrt_sq {kx ky : ℂ} {e : ℂ} (he : Spec.IsReal e) (hx : Spec.IsReal kx) (hy : Spec.IsReal ky) :
    star (csqrt (e - kx ^ 2 - ky ^ 2)) ^ 2 = e - kx ^ 2 - ky ^ 2 := by
  obtain ⟨r, hr⟩ : ∃ r : ℝ, e - kx ^ 2 - ky ^ 2 = (r : ℂ) := by
    refine ⟨e.re - kx.re ^ 2 - ky.re ^ 2, ?_⟩
    have h1 : e = (e.re : ℂ) := Complex.ext rfl he
    have h2 : kx = (kx.re : ℂ) := Complex.ext rfl hx
    have h3 : ky = (ky.re : ℂ) := Complex.ext rfl hy
    rw [h1, h2, h3]
    push_cast
    simp
  rw [hr, ← star_pow, csqrt_sq, Complex.star_def, Complex.conj_ofReal]

/-- **C96, half spaces (partial).**  In a lossless medium without grazing orders, both modes that `homogeneous_module` returns for an order solve the curl equations, if the order
has wave numbers along x and along y. -/
theorem C96_half_space_partial (kx ky : m → ℂ) (e : ℂ) (he : Spec.IsReal e) (he0 : e ≠ 0) (hx : ∀ i, Spec.IsReal (kx i)) (hy : ∀ i, Spec.IsReal (ky i))
    (hz : ∀ i, e ≠ kx i ^ 2 + ky i ^ 2) (V : Matrix (m ⊕ m) (m ⊕ m) ℂ) (Kz : m → ℂ) (h : homogeneous_module kx ky e = .ok (V, Kz)) (i : m) (h0 : kx i * ky i ≠ 0) :
    Spec.CurlMode kx ky (Spec.constant m e) (Complex.I * Kz i) (Pi.single (.inl i) 1) (fun a => V a (.inl i)) ∧
    Spec.CurlMode kx ky (Spec.constant m e) (Complex.I * Kz i) (Pi.single (.inr i) 1) (fun a => V a (.inr i)) := by
  have hz' : ∀ i, e - kx i ^ 2 - ky i ^ 2 ≠ 0 := fun i k => hz i (by linear_combination k)
  have k := fun j hj => homogeneous_module_curl he0 (fun i => real_sqrt_sq he (hx i) (hy i)) hz' h i j hj
  exact ⟨(k _ (.inl rfl)).mpr h0, (k _ (.inr rfl)).mpr h0⟩

/-- **C96 is violated by half spaces in planes of incidence along an axis.**  If an order has no wave number along x or none along y, neither of its modes solves the curl
equations: `homogeneous_module` takes the zero on the diagonal of `Q` for a singularity and replaces it. -/
theorem C96_half_space_negation (kx ky : m → ℂ) (e : ℂ) (he : Spec.IsReal e) (he0 : e ≠ 0) (hx : ∀ i, Spec.IsReal (kx i)) (hy : ∀ i, Spec.IsReal (ky i))
    (hz : ∀ i, e ≠ kx i ^ 2 + ky i ^ 2) (V : Matrix (m ⊕ m) (m ⊕ m) ℂ) (Kz : m → ℂ) (h : homogeneous_module kx ky e = .ok (V, Kz)) (i : m) (h0 : kx i * ky i = 0) :
    ¬ Spec.CurlMode kx ky (Spec.constant m e) (Complex.I * Kz i) (Pi.single (.inl i) 1) (fun a => V a (.inl i)) ∧
    ¬ Spec.CurlMode kx ky (Spec.constant m e) (Complex.I * Kz i) (Pi.single (.inr i) 1) (fun a => V a (.inr i)) := by
  have hz' : ∀ i, e - kx i ^ 2 - ky i ^ 2 ≠ 0 := fun i k => hz i (by linear_combination k)
  have k := fun j hj => homogeneous_module_curl he0 (fun i => real_sqrt_sq he (hx i) (hy i)) hz' h i j hj
  exact ⟨fun c => (k _ (.inl rfl)).mp c h0, fun c => (k _ (.inr rfl)).mp c h0⟩

/-- Non-vacuity, layers: glass of permittivity 4, two orders. -/
example : ∃ M, scattering_2d_wv exLA (fun _ : Fin 2 => (1 / 2 : ℂ)) (fun _ => 1 / 2) (Spec.constant _ 4) = .ok M := by
  have hd : IsUnit (Spec.constant (Fin 2) 4).epzi.det := by
    unfold Spec.constant
    rw [det_diagonal, isUnit_iff_ne_zero, Finset.prod_ne_zero_iff]
    intros
    norm_num
  unfold scattering_2d_wv
  refine ⟨_, Except.bind_ok.mpr ⟨_, P_Q_kz_ok.mpr ⟨hd, rfl⟩, Except.bind_ok.mpr ⟨_, npInv_ok.mpr ⟨?_, rfl⟩, rfl⟩⟩⟩
  dsimp only
  rw [P_mul_Q, omega2LR_constant _ _ (by norm_num), exLA_eig_diagonal, det_diagonal, isUnit_iff_ne_zero, Finset.prod_ne_zero_iff]
  rintro (i | i) - h0
  · have h1 := csqrt_sq (-(4 - (1 / 2) ^ 2 - (1 / 2) ^ 2))
    rw [show csqrt (-(4 - (1 / 2) ^ 2 - (1 / 2) ^ 2)) = 0 from h0] at h1
    norm_num at h1
  · have h1 := csqrt_sq (-(4 - (1 / 2) ^ 2 - (1 / 2) ^ 2))
    rw [show csqrt (-(4 - (1 / 2) ^ 2 - (1 / 2) ^ 2)) = 0 from h0] at h1
    norm_num at h1

/-- Non-vacuity, half spaces: one order in the plane of incidence along x and one out of it, in a medium of permittivity 4. -/
example : ∃ x, homogeneous_module (fun _ : Fin 2 => (1 / 2 : ℂ)) (fun i => if i = 0 then 0 else 1 / 2) 4 = .ok x ∧
    (∀ i : Fin 2, (4 : ℂ) ≠ (1 / 2) ^ 2 + (if i = 0 then 0 else 1 / 2) ^ 2) := by
  unfold homogeneous_module
  refine ⟨_, Except.bind_ok.mpr ⟨_, npInv_ok.mpr ⟨?_, rfl⟩, rfl⟩, ?_⟩
  · rw [det_diagonal, isUnit_iff_ne_zero, Finset.prod_ne_zero_iff]
    rintro (i | i) - <;>
    · refine mul_ne_zero Complex.I_ne_zero ?_
      have hr : ∀ (z : ℂ) [Decidable (z = 0)], (if z = 0 then (1 / 10 ^ 10 : ℂ) else z) ≠ 0 := by
        intro z _
        split
        · norm_num
        · assumption
      exact hr _
  · intro i
    split <;> norm_num

end Meent

#print axioms Meent.C96_layer_maxwell
#print axioms Meent.C96_layer_solver
#print axioms Meent.C96_half_space_partial
#print axioms Meent.C96_half_space_negation
