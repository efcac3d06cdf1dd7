import Verif.Lemmas.FieldSpec
import Verif.Lemmas.Example1D

/-!
# Fields of the TE example (helper lemmas)
-/

open Matrix

namespace Meent

/-- A solve with one layer leaves one record, with that layer's matrix. -/
theorem one_layer {n : Type} [Fintype n] [DecidableEq n] {la : LinAlg} {p : Params} {k0 : ℝ} {kx : n → ℂ} {c : Conv n}
    {d : ℝ} {s : TState n} {r : TState n × List (LayerInfo n n)}
    (h : runLayers (step1d la p k0 kx) [(c, d)] (s, []) = .ok r) : ∃ L, r.2 = [L] ∧ L.epzi = c.epzi := by
  simp only [runLayers, step1d, Except.bind_ok, Except.ok.injEq] at h
  obtain ⟨a, rfl, y, ⟨m, hm, t, ht, rfl⟩, rfl⟩ := h
  exact ⟨_, rfl, rfl⟩

/-- If the fields of a TE layer do not change when they are evaluated for `pol = 1`, the tangential ones vanish. -/
theorem block_change {n : Type} [Fintype n] [DecidableEq n] {k0 P : ℝ} {rx rz : ℕ} {kx : n → ℂ} {L : LayerInfo n n}
    {T : n → ℂ} (hk : kx = fun _ => 1 / 2) (hz : L.epzi = diagonal fun _ => 2 / 5)
    (h : block1d k0 0 P kx rx rz L T = block1d k0 1 P kx rx rz L T) (iz : Fin rz) (iy : Fin 1) (ix : Fin rx) :
    (block1d k0 0 P kx rx rz L T iz iy ix).Fy = 0 ∧ (block1d k0 0 P kx rx rz L T iz iy ix).Fx = 0 := by
  have hb := congrFun (congrFun (congrFun h iz) iy) ix
  have d1 : (diagonal fun _ : n => (1 / 2 : ℂ)) = (1 / 2 : ℂ) • (1 : Matrix n n ℂ) := by
    ext i j; rcases eq_or_ne i j with rfl | hij
    · simp
    · simp [hij]
  have d2 : (diagonal fun _ : n => (2 / 5 : ℂ)) = (2 / 5 : ℂ) • (1 : Matrix n n ℂ) := by
    ext i j; rcases eq_or_ne i j with rfl | hij
    · simp
    · simp [hij]
  simp only [block1d, amps1d, if_true, one_ne_zero, if_false, hk, hz, d1, d2, smul_mulVec, one_mulVec, dotProduct_smul,
    smul_eq_mul, Field3.mk.injEq, true_and] at hb ⊢
  obtain ⟨h1, h2⟩ := hb
  constructor
  · generalize invFourier1d k0 _ _ ⬝ᵥ L.modes.W *ᵥ _ = D at h2 ⊢
    linear_combination (10 / 7) * h2 + D * Complex.I_sq
  · linear_combination (1 / 2) * h1

/-- Incident and reflected wave of the TE example do not cancel in both tangential components. -/
theorem above_ne (r : SubRes 1 (2 * (exParams 0 none).fto.1 + 1)) (x : ℝ) :
    ¬Spec.superpose1d (exParams 0 none) x (Spec.above1d (exParams 0 none) r) ⟨0, 0, 0, 0⟩ := by
  rintro ⟨-, h1, h2, -⟩
  have key : ∀ f : Fin (2 * (exParams 0 none).fto.1 + 1) → ℂ, ∑ j, f j = f ⟨0, Nat.succ_pos _⟩ :=
    fun f => Fin.sum_univ_one f
  rw [key] at h1 h2
  have h3 := (mul_eq_zero.mp h1.symm).resolve_left (Complex.exp_ne_zero _)
  have h4 := (mul_eq_zero.mp h2.symm).resolve_left (Complex.exp_ne_zero _)
  have hkz : Spec.kzOf 1 (1 / 2) 0 = ((Real.sqrt 3 / 2 : ℝ) : ℂ) := by
    have := exKz 0 ⟨0, Nat.succ_pos _⟩
    unfold kz1d at this
    rw [exKx] at this
    rw [← this, Spec.kzOf]
    congr 2; ring
  have hc : Complex.cos ((Real.pi / 6 : ℝ) : ℂ) = ((Real.sqrt 3 / 2 : ℝ) : ℂ) := by
    rw [← Complex.ofReal_cos, Real.cos_pi_div_six]
  have e1 : kxVec (exParams 0 none) (exParams 0 none).wavelength ⟨0, Nat.succ_pos _⟩ = 1 / 2 := exKx 0 _
  simp only [Spec.above1d, e1] at h3 h4
  generalize r.R_s 0 ⟨0, Nat.succ_pos _⟩ = ρ at h3 h4
  simp only [exParams, if_true, hkz, hc] at h3 h4
  have a3 : (1 : ℂ) + ρ = 0 := by
    have : ∀ a b : Spec.Tangential, (a + b).Ey = a.Ey + b.Ey := fun _ _ => rfl
    simpa [this, Spec.planeWave] using h3
  have a4 : ((Real.sqrt 3 / 2 : ℝ) : ℂ) * (1 - ρ) = 0 := by
    have : ∀ a b : Spec.Tangential, (a + b).Hx = a.Hx + b.Hx := fun _ _ => rfl
    rw [this] at h4
    simp only [Spec.planeWave, Complex.cos_zero, Complex.sin_zero] at h4
    linear_combination h4
  have hs : ((Real.sqrt 3 / 2 : ℝ) : ℂ) ≠ 0 := by
    rw [Complex.ofReal_ne_zero]; positivity
  have a5 := (mul_eq_zero.mp a4).resolve_left hs
  have : (2 : ℂ) = 0 := by linear_combination a3 + a5
  norm_num at this

/-- Fields of the TE example at the origin and what becomes of them when they are evaluated for `pol = 1`. -/
theorem exFields {o : Out1D 1} (ho : conv_solve exLA (exSettings 0 none) = .ok (.tetm o)) :
    field_dist_1d (exParams 0 none) o 1 1 ≠ field_dist_1d (exParams 1 none) o 1 1 := by
  obtain ⟨cs, hc, -, -, h1⟩ := conv_solve_tetm.mp ho
  rw [exConvMats] at hc
  obtain rfl := Except.ok.inj hc
  have hm := matched1d (p := exParams 0 none) (o := o) rfl one_ne_zero h1 1 1
  obtain ⟨hl, init, r, x, h2, hr, hx, rfl⟩ := (solve_1d_iff (p := exParams 0 none) rfl).mp h1
  obtain ⟨L, hL, hz⟩ := one_layer (c := exConv.row) (d := 1 / 3) hr
  rw [exConv_row] at hz
  intro heq
  have e : ∀ pol, field_dist_1d (exParams pol none) (⟨x.1, x.2, r.2⟩ : Out1D 1) 1 1
      = [block1d (2 * Real.pi / 1) pol 1 (kxVec (exParams pol none) 1) 1 1 L x.2] := by
    intro pol
    unfold field_dist_1d
    rw [hL]
    rfl
  have heq' := (e 0).symm.trans (heq.trans (e 1))
  have hb := block_change (funext (exKx 0)) hz (List.cons.inj heq').1 0 0 0
  have ht := hm.2.top _ (congrArg List.head? (e 0)) 0 rfl 0 0
  have ht' : Spec.superpose1d (exParams 0 none) (Spec.samplePoint (exParams 0 none).period.1 1 0)
      (Spec.above1d (exParams 0 none) x.1) ⟨0, 0, 0, 0⟩ := by
    have hf : Spec.tangential3 (exParams 0 none).pol
        (block1d (2 * Real.pi / 1) 0 1 (kxVec (exParams 0 none) 1) 1 1 L x.2 0 0 0) = ⟨0, 0, 0, 0⟩ := by
      unfold Spec.tangential3
      refine (if_pos rfl).trans ?_
      rw [hb.1, hb.2]
    exact hf ▸ ht
  exact above_ne _ _ ht'

end Meent
