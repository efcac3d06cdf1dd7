import Verif.Props.C102

/-!
# C103: the efficiencies of the 2D scattering functions
-/

open Matrix

namespace Meent

/-- The in-plane wave numbers of `scattering_2d_1` in air are real. -/
theorem air_orders (θ φ k0 : ℝ) (period : ℝ × ℝ) (fx fy : ℕ) (i : FlatIdx fx fy) :
    ∃ x y : ℝ, (K_matrix_cubic_2D (1 * Complex.sin θ * Complex.cos φ) (1 * Complex.sin θ * Complex.sin φ) k0 period.1 period.2 fx fy).1 i = x ∧
      (K_matrix_cubic_2D (1 * Complex.sin θ * Complex.cos φ) (1 * Complex.sin θ * Complex.sin φ) k0 period.1 period.2 fx fy).2 i = y := by
  refine ⟨Real.sin θ * Real.cos φ - 2 * Real.pi * (((i.modNat : ℕ) : ℝ) - fx) / (k0 * period.1),
    Real.sin θ * Real.sin φ - 2 * Real.pi * (((i.divNat : ℕ) : ℝ) - fy) / (k0 * period.2), ?_, ?_⟩
  · unfold K_matrix_cubic_2D
    push_cast
    ring
  · unfold K_matrix_cubic_2D
    push_cast
    ring

/-- The efficiencies of empty space: all light goes into the zero order, with the square of the horizontal field. -/
theorem empty_total (θ φ k0 : ℝ) (h0 : 0 < θ) (h1 : θ < Real.pi / 2) (period : ℝ × ℝ) (fx fy : ℕ) (kx : Fin (2 * fx + 1) → ℂ) (ky : Fin (2 * fy + 1) → ℂ)
    (hx : ∀ i : Fin (2 * fx + 1), (i : ℕ) = fx → kx i = Spec.incident 1 θ φ 0) (hy : ∀ i : Fin (2 * fy + 1), (i : ℕ) = fy → ky i = Spec.incident 1 θ φ 1)
    (hxy : ∀ i, (K_matrix_cubic_2D (1 * Complex.sin θ * Complex.cos φ) (1 * Complex.sin θ * Complex.sin φ) k0 period.1 period.2 fx fy).1 i *
      (K_matrix_cubic_2D (1 * Complex.sin θ * Complex.cos φ) (1 * Complex.sin θ * Complex.sin φ) k0 period.1 period.2 fx fy).2 i ≠ 0)
    (hz : ∀ i, Spec.depthWave 1 (K_matrix_cubic_2D (1 * Complex.sin θ * Complex.cos φ) (1 * Complex.sin θ * Complex.sin φ) k0 period.1 period.2 fx fy).1
      (K_matrix_cubic_2D (1 * Complex.sin θ * Complex.cos φ) (1 * Complex.sin θ * Complex.sin φ) k0 period.1 period.2 fx fy).2 i ≠ 0)
    (pol : ℝ) (pt : ℂ × ℂ) (hp : (if pol = 0 then .ok (1, 0) else if pol = 1 then .ok (0, 1) else .error .valueError : Res (ℂ × ℂ)) = .ok pt) :
    ∃ d, Spec.interface2D 1 1 θ φ k0 period fx fy kx ky pol = .ok d ∧
      Spec.total2D d = Complex.normSq ((initial_conditions (kInc 1 θ φ) θ ![0, 0, 1] pt.1 pt.2 fy fx).1 0) +
        Complex.normSq ((initial_conditions (kInc 1 θ φ) θ ![0, 0, 1] pt.1 pt.2 fy fx).1 1) := by
  set K := K_matrix_cubic_2D (1 * Complex.sin θ * Complex.cos φ) (1 * Complex.sin θ * Complex.sin φ) k0 period.1 period.2 fx fy with hK
  have hs : ∀ i, Spec.depthWave 1 K.1 K.2 i ^ 2 = 1 - K.1 i ^ 2 - K.2 i ^ 2 := by
    intro i
    obtain ⟨x, y, ex, ey⟩ := air_orders θ φ k0 period fx fy i
    unfold Spec.depthWave
    rw [← star_pow, csqrt_sq, hK, ex, ey, Complex.star_def]
    simp
  obtain ⟨V, hV, hu⟩ := homogeneous_isUnit one_ne_zero hxy hz hs
  have e1 : scattering_2d_1 1 1 θ φ k0 period fx fy kx ky = .ok ⟨V, V, ⟨0, 1, 1, 0⟩, fun i => star (csqrt (1 ^ 2 - kx i.modNat ^ 2 - ky i.divNat ^ 2)),
      fun i => star (csqrt (1 ^ 2 - kx i.modNat ^ 2 - ky i.divNat ^ 2))⟩ := by
    have hV' : homogeneous_module K.1 K.2 (1 ^ 2) = .ok (V, Spec.depthWave 1 K.1 K.2) := by rw [one_pow, hV]
    unfold scattering_2d_1
    exact Except.bind_ok.mpr ⟨_, hV, Except.bind_ok.mpr ⟨_, hV', Except.bind_ok.mpr ⟨_, hV', Except.bind_ok.mpr ⟨_, half_same hu, Except.bind_ok.mpr ⟨_, S_RT_same true, rfl⟩⟩⟩⟩⟩
  refine ⟨?d, Except.bind_ok.mpr ⟨_, e1, ?h⟩, ?_⟩
  case h =>
    unfold scattering_2d_3
    refine Except.bind_ok.mpr ⟨_, hp, ?_⟩
    refine Except.bind_ok.mpr ⟨_, half_same hu, ?_⟩
    refine Except.bind_ok.mpr ⟨_, S_RT_same false, Except.bind_ok.mpr ⟨_, star_one_left _, ?_⟩⟩
    dsimp only
    rfl
  have hcos : 0 < Real.cos θ := Real.cos_pos_of_mem_Ioo ⟨by linarith, h1⟩
  have hk : star (csqrt (1 ^ 2 - kx (zeroFlat fx fy).modNat ^ 2 - ky (zeroFlat fx fy).divNat ^ 2)) = ((Real.cos θ : ℝ) : ℂ) := by
    rw [hx _ (by rw [zeroFlat_mod]), hy _ (by rw [zeroFlat_div])]
    have e : (1 : ℂ) ^ 2 - Spec.incident 1 θ φ 0 ^ 2 - Spec.incident 1 θ φ 1 ^ 2 = ((Real.cos θ : ℝ) : ℂ) ^ 2 := by
      unfold Spec.incident
      simp only [cons_val_zero, cons_val_one]
      push_cast
      linear_combination -Complex.sin_sq_add_cos_sq θ - Complex.sin θ ^ 2 * (Complex.sin_sq_add_cos_sq φ)
    rw [e, csqrt_ofReal_sq hcos.le, Complex.star_def, Complex.conj_ofReal]
  have hq : (![(1 : ℂ) * (Complex.sin θ * Complex.cos φ), 1 * (Complex.sin θ * Complex.sin φ), 1 * Complex.cos θ] : Fin 3 → ℂ) = kInc 1 θ φ := by
    unfold kInc
    simp
  unfold Spec.total2D
  dsimp only
  rw [hq, source_eq]
  rw [Finset.sum_eq_single (zeroFlat fx fy)]
  · rw [hk, ← Complex.ofReal_cos]
    have hc : ((Real.cos θ : ℝ) : ℂ) ≠ 0 := by exact_mod_cast hcos.ne'
    simp only [zero_mulVec, one_mulVec, Pi.zero_apply, norm_zero, Sum.elim_inl, Sum.elim_inr, Pi.single_eq_same, one_pow, div_one, one_mul, div_self hc, Complex.one_re, mul_one,
      Complex.normSq_eq_norm_sq]
    norm_num
  · intro i _ hi
    simp [Pi.single_eq_of_ne hi]
  · intro h
    exact absurd (Finset.mem_univ _) h

/-- **C103, TE light in empty space.**  The efficiencies sum to one. -/
theorem C103_te_partial (θ φ k0 : ℝ) (h0 : 0 < θ) (h1 : θ < Real.pi / 2) (period : ℝ × ℝ) (fx fy : ℕ) (kx : Fin (2 * fx + 1) → ℂ) (ky : Fin (2 * fy + 1) → ℂ)
    (hx : ∀ i : Fin (2 * fx + 1), (i : ℕ) = fx → kx i = Spec.incident 1 θ φ 0) (hy : ∀ i : Fin (2 * fy + 1), (i : ℕ) = fy → ky i = Spec.incident 1 θ φ 1)
    (hxy : ∀ i, (K_matrix_cubic_2D (1 * Complex.sin θ * Complex.cos φ) (1 * Complex.sin θ * Complex.sin φ) k0 period.1 period.2 fx fy).1 i *
      (K_matrix_cubic_2D (1 * Complex.sin θ * Complex.cos φ) (1 * Complex.sin θ * Complex.sin φ) k0 period.1 period.2 fx fy).2 i ≠ 0)
    (hz : ∀ i, Spec.depthWave 1 (K_matrix_cubic_2D (1 * Complex.sin θ * Complex.cos φ) (1 * Complex.sin θ * Complex.sin φ) k0 period.1 period.2 fx fy).1
      (K_matrix_cubic_2D (1 * Complex.sin θ * Complex.cos φ) (1 * Complex.sin θ * Complex.sin φ) k0 period.1 period.2 fx fy).2 i ≠ 0) :
    ∃ d, Spec.interface2D 1 1 θ φ k0 period fx fy kx ky 0 = .ok d ∧ Spec.total2D d = 1 := by
  obtain ⟨d, hd, ht⟩ := empty_total θ φ k0 h0 h1 period fx fy kx ky hx hy hxy hz 0 (1, 0) (by simp)
  refine ⟨d, hd, ?_⟩
  rw [ht, polarization_eq one_pos h0.ne' (Real.sin_pos_of_pos_of_lt_pi h0 (by linarith [Real.pi_pos]))]
  simp only [cons_val_zero, cons_val_one]
  simp only [← Complex.ofReal_sin, ← Complex.ofReal_cos]
  simp only [Complex.normSq_apply, Complex.sub_re, Complex.sub_im, Complex.mul_re, Complex.mul_im, Complex.neg_re, Complex.neg_im, Complex.ofReal_re, Complex.ofReal_im, Complex.one_re,
    Complex.one_im, Complex.zero_re, Complex.zero_im]
  linear_combination Real.sin_sq_add_cos_sq φ

/-- The efficiencies of horizontal fields are their power over the incident power. -/
theorem horizontal_power {m : Type} [Fintype m] [DecidableEq m] (θ : ℝ) (kx ky : m → ℂ) (a : m ⊕ m → ℂ) (h : ∀ i, kx i * a (.inl i) + ky i * a (.inr i) = 0) :
    ∑ i, (‖a (.inl i)‖ ^ 2 * (Spec.depthWave 1 kx ky i / (1 * Complex.cos θ)).re + ‖a (.inr i)‖ ^ 2 * (Spec.depthWave 1 kx ky i / 1 ^ 2 / (1 * Complex.cos θ)).re) =
      Spec.power2D 1 kx ky a / Real.cos θ := by
  unfold Spec.power2D
  rw [Finset.sum_div]
  refine Finset.sum_congr rfl fun i _ => ?_
  rw [h i, one_pow, div_one, one_mul, ← Complex.ofReal_cos, Complex.div_ofReal_re]
  simp
  ring

/-- **C103, horizontal fields.**  In air the reflected efficiencies of any problem sum to the reflected power over the incident power, and the transmitted efficiencies to the transmitted
power over the incident power, for all outgoing fields without a component along the depth. -/
theorem C103_horizontal_partial {fx fy : ℕ} (Vt Vg : Matrix (FlatIdx fx fy ⊕ FlatIdx fx fy) (FlatIdx fx fy ⊕ FlatIdx fx fy) ℂ) (Sg : SDict (FlatIdx fx fy ⊕ FlatIdx fx fy))
    (kx ky lx ly : FlatIdx fx fy → ℂ) (pol θ φ : ℝ) (d : Efficiencies2 fx fy) (hd : scattering_2d_3 Vt Vg Sg (Spec.depthWave 1 kx ky) (Spec.depthWave 1 lx ly) 1 1 pol θ φ = .ok d) :
    ∃ AB St S pt, A_B_matrices_half_space Vt Vg = .ok AB ∧ S_RT AB.1 AB.2 false = .ok St ∧ RedhefferStar Sg St = .ok S ∧ (pol = 0 ∧ pt = ((1 : ℂ), (0 : ℂ)) ∨ pol = 1 ∧ pt = (0, 1)) ∧
      ((∀ i, kx i * (S.S11 *ᵥ (initial_conditions (Spec.incident 1 θ φ) θ ![0, 0, 1] pt.1 pt.2 fy fx).2) (.inl i) +
          ky i * (S.S11 *ᵥ (initial_conditions (Spec.incident 1 θ φ) θ ![0, 0, 1] pt.1 pt.2 fy fx).2) (.inr i) = 0) →
        ∑ i, (d.de_ri_s i + d.de_ri_p i) = Spec.power2D 1 kx ky (S.S11 *ᵥ (initial_conditions (Spec.incident 1 θ φ) θ ![0, 0, 1] pt.1 pt.2 fy fx).2) / Real.cos θ) ∧
      ((∀ i, lx i * (S.S21 *ᵥ (initial_conditions (Spec.incident 1 θ φ) θ ![0, 0, 1] pt.1 pt.2 fy fx).2) (.inl i) +
          ly i * (S.S21 *ᵥ (initial_conditions (Spec.incident 1 θ φ) θ ![0, 0, 1] pt.1 pt.2 fy fx).2) (.inr i) = 0) →
        ∑ i, (d.de_ti_s i + d.de_ti_p i) = Spec.power2D 1 lx ly (S.S21 *ᵥ (initial_conditions (Spec.incident 1 θ φ) θ ![0, 0, 1] pt.1 pt.2 fy fx).2) / Real.cos θ) := by
  have hq : (![(1 : ℂ) * (Complex.sin θ * Complex.cos φ), 1 * (Complex.sin θ * Complex.sin φ), 1 * Complex.cos θ] : Fin 3 → ℂ) = Spec.incident 1 θ φ := by
    unfold Spec.incident
    simp
  unfold scattering_2d_3 at hd
  rw [hq] at hd
  obtain ⟨pt, hp, hd⟩ := Except.bind_ok.mp hd
  obtain ⟨AB, hAB, hd⟩ := Except.bind_ok.mp hd
  obtain ⟨St, hSt, hd⟩ := Except.bind_ok.mp hd
  obtain ⟨S, hS, hd⟩ := Except.bind_ok.mp hd
  dsimp only at hd
  rw [Except.ok.injEq] at hd
  subst hd
  refine ⟨AB, St, S, pt, hAB, hSt, hS, ?_, ?_, ?_⟩
  · split_ifs at hp with a b
    · exact .inl ⟨a, (Except.ok.inj hp).symm⟩
    · exact .inr ⟨b, (Except.ok.inj hp).symm⟩
  · exact horizontal_power θ kx ky _
  · exact horizontal_power θ lx ly _

/-- Non-vacuity: TE light through empty space has horizontal fields. -/
example (θ φ : ℝ) (h0 : 0 < θ) (h1 : θ < Real.pi / 2) (kz lz : FlatIdx 1 1 → ℂ) :
    (∃ d, scattering_2d_3 1 1 ⟨0, 1, 1, 0⟩ kz lz 1 1 0 θ φ = .ok d) ∧ RedhefferStar (n := FlatIdx 1 1 ⊕ FlatIdx 1 1) ⟨0, 1, 1, 0⟩ ⟨0, 1, 1, 0⟩ = .ok ⟨0, 1, 1, 0⟩ ∧
      ∀ i, Spec.incident 1 θ φ 0 * ((1 : Matrix (FlatIdx 1 1 ⊕ FlatIdx 1 1) (FlatIdx 1 1 ⊕ FlatIdx 1 1) ℂ) *ᵥ (initial_conditions (Spec.incident 1 θ φ) θ ![0, 0, 1] 1 0 1 1).2) (.inl i) +
        Spec.incident 1 θ φ 1 * ((1 : Matrix (FlatIdx 1 1 ⊕ FlatIdx 1 1) (FlatIdx 1 1 ⊕ FlatIdx 1 1) ℂ) *ᵥ (initial_conditions (Spec.incident 1 θ φ) θ ![0, 0, 1] 1 0 1 1).2) (.inr i) =
          0 := by
  refine ⟨?_, star_one_left _, fun i => ?_⟩
  · unfold scattering_2d_3
    exact ⟨_, Except.bind_ok.mpr ⟨(1, 0), by simp, Except.bind_ok.mpr ⟨_, half_same (by simp), Except.bind_ok.mpr ⟨_, S_RT_same false, Except.bind_ok.mpr ⟨_, star_one_left _, by dsimp only⟩⟩⟩⟩⟩
  · have hE := polarization_eq (φ := φ) one_pos h0.ne' (Real.sin_pos_of_pos_of_lt_pi h0 (by linarith [Real.pi_pos])) 1 0 1 1
    rw [one_mulVec, source_eq, show Spec.incident 1 θ φ = kInc 1 θ φ from rfl, hE, Sum.elim_inl, Sum.elim_inr, Pi.single_apply, Pi.single_apply]
    unfold kInc
    split_ifs
    · simp
      ring
    · simp

/-- **C103 is violated by TM light.**  In empty space the efficiencies sum to the square of the cosine of the angle of incidence: the component of the field along the depth is left out. -/
theorem C103_negation (θ φ k0 : ℝ) (h0 : 0 < θ) (h1 : θ < Real.pi / 2) (period : ℝ × ℝ) (fx fy : ℕ) (kx : Fin (2 * fx + 1) → ℂ) (ky : Fin (2 * fy + 1) → ℂ)
    (hx : ∀ i : Fin (2 * fx + 1), (i : ℕ) = fx → kx i = Spec.incident 1 θ φ 0) (hy : ∀ i : Fin (2 * fy + 1), (i : ℕ) = fy → ky i = Spec.incident 1 θ φ 1)
    (hxy : ∀ i, (K_matrix_cubic_2D (1 * Complex.sin θ * Complex.cos φ) (1 * Complex.sin θ * Complex.sin φ) k0 period.1 period.2 fx fy).1 i *
      (K_matrix_cubic_2D (1 * Complex.sin θ * Complex.cos φ) (1 * Complex.sin θ * Complex.sin φ) k0 period.1 period.2 fx fy).2 i ≠ 0)
    (hz : ∀ i, Spec.depthWave 1 (K_matrix_cubic_2D (1 * Complex.sin θ * Complex.cos φ) (1 * Complex.sin θ * Complex.sin φ) k0 period.1 period.2 fx fy).1
      (K_matrix_cubic_2D (1 * Complex.sin θ * Complex.cos φ) (1 * Complex.sin θ * Complex.sin φ) k0 period.1 period.2 fx fy).2 i ≠ 0) :
    ∃ d, Spec.interface2D 1 1 θ φ k0 period fx fy kx ky 1 = .ok d ∧ Spec.total2D d = Real.cos θ ^ 2 ∧ Spec.total2D d < 1 := by
  obtain ⟨d, hd, ht⟩ := empty_total θ φ k0 h0 h1 period fx fy kx ky hx hy hxy hz 1 (0, 1) (by simp)
  have hsin := Real.sin_pos_of_pos_of_lt_pi h0 (by linarith [Real.pi_pos])
  have h2 : Spec.total2D d = Real.cos θ ^ 2 := by
    rw [ht, polarization_eq one_pos h0.ne' hsin]
    simp only [cons_val_zero, cons_val_one]
    simp only [← Complex.ofReal_sin, ← Complex.ofReal_cos]
    simp only [Complex.normSq_apply, Complex.sub_re, Complex.sub_im, Complex.mul_re, Complex.mul_im, Complex.neg_re, Complex.neg_im, Complex.ofReal_re, Complex.ofReal_im, Complex.one_re,
    Complex.one_im, Complex.zero_re, Complex.zero_im]
    linear_combination Real.cos θ ^ 2 * Real.sin_sq_add_cos_sq φ
  refine ⟨d, hd, h2, ?_⟩
  rw [h2]
  nlinarith [Real.sin_sq_add_cos_sq θ, mul_pos hsin hsin]

/-- Non-vacuity: one order, any angles off the axes meet all hypotheses. -/
example (θ φ k0 : ℝ) (h0 : 0 < θ) (h1 : θ < Real.pi / 2) (hφ : Real.cos φ * Real.sin φ ≠ 0) (period : ℝ × ℝ) :
    ∃ d, Spec.interface2D 1 1 θ φ k0 period 0 0 (fun _ => Spec.incident 1 θ φ 0) (fun _ => Spec.incident 1 θ φ 1) 1 = .ok d ∧ Spec.total2D d = Real.cos θ ^ 2 := by
  have hsin := Real.sin_pos_of_pos_of_lt_pi h0 (by linarith [Real.pi_pos])
  have hcos : 0 < Real.cos θ := Real.cos_pos_of_mem_Ioo ⟨by linarith, h1⟩
  have hi : ∀ i : FlatIdx 0 0, ((i.modNat : ℕ) : ℝ) - ((0 : ℕ) : ℝ) = 0 ∧ ((i.divNat : ℕ) : ℝ) - ((0 : ℕ) : ℝ) = 0 := by
    intro i
    have a := i.modNat.isLt
    have b := i.divNat.isLt
    have a' : (i.modNat : ℕ) = 0 := by omega
    have b' : (i.divNat : ℕ) = 0 := by omega
    rw [a', b']
    simp
  have hK1 : ∀ i, (K_matrix_cubic_2D (1 * Complex.sin θ * Complex.cos φ) (1 * Complex.sin θ * Complex.sin φ) k0 period.1 period.2 0 0).1 i = ((Real.sin θ * Real.cos φ : ℝ) : ℂ) := by
    intro i
    unfold K_matrix_cubic_2D
    dsimp only
    rw [(hi i).1]
    simp
  have hK2 : ∀ i, (K_matrix_cubic_2D (1 * Complex.sin θ * Complex.cos φ) (1 * Complex.sin θ * Complex.sin φ) k0 period.1 period.2 0 0).2 i = ((Real.sin θ * Real.sin φ : ℝ) : ℂ) := by
    intro i
    unfold K_matrix_cubic_2D
    dsimp only
    rw [(hi i).2]
    simp
  obtain ⟨d, hd, ht, -⟩ := C103_negation θ φ k0 h0 h1 period 0 0 (fun _ => Spec.incident 1 θ φ 0) (fun _ => Spec.incident 1 θ φ 1) (fun _ _ => rfl) (fun _ _ => rfl)
    (by
      intro i
      rw [hK1, hK2, ← Complex.ofReal_mul]
      have : Real.sin θ * Real.cos φ * (Real.sin θ * Real.sin φ) = Real.sin θ ^ 2 * (Real.cos φ * Real.sin φ) := by ring
      rw [this]
      exact_mod_cast mul_ne_zero (pow_ne_zero 2 hsin.ne') hφ)
    (by
      intro i
      unfold Spec.depthWave
      rw [hK1, hK2]
      have e : (1 : ℂ) - ((Real.sin θ * Real.cos φ : ℝ) : ℂ) ^ 2 - ((Real.sin θ * Real.sin φ : ℝ) : ℂ) ^ 2 = ((Real.cos θ : ℝ) : ℂ) ^ 2 := by
        push_cast
        linear_combination -Complex.sin_sq_add_cos_sq θ - Complex.sin θ ^ 2 * (Complex.sin_sq_add_cos_sq φ)
      rw [e, csqrt_ofReal_sq hcos.le, Complex.star_def, Complex.conj_ofReal]
      exact_mod_cast hcos.ne')
  exact ⟨d, hd, ht⟩

end Meent

#print axioms Meent.C103_te_partial
#print axioms Meent.C103_horizontal_partial
#print axioms Meent.C103_negation
