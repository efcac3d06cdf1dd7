import Verif.Lemmas.TorchSolve
import Verif.Lemmas.Example2D

/-!
# A conical problem where the backends disagree (helper lemmas)

Cover and substrate of index 3, in-plane wavenumber `(2, 1)`, one layer of two pixels with permittivities 1 and
17 at truncation order 0 (so an effective uniaxial layer), thickness 9/8 of the wavelength.
-/

set_option linter.unusedSectionVars false
set_option linter.unusedSimpArgs false

open Matrix

namespace Meent

section

variable {m : Type} [Fintype m] [DecidableEq m]

/-- A 2 × 2 matrix of multiples of the identity. -/
def sc (m : Type) [DecidableEq m] (a b c d : ℂ) : Matrix (m ⊕ m) (m ⊕ m) ℂ :=
  fromBlocks (diagonal fun _ => a) (diagonal fun _ => b) (diagonal fun _ => c) (diagonal fun _ => d)

theorem sc_mul (a b c d a' b' c' d' : ℂ) : sc m a b c d * sc m a' b' c' d'
    = sc m (a * a' + b * c') (a * b' + b * d') (c * a' + d * c') (c * b' + d * d') := by
  simp only [sc, fromBlocks_multiply, diagonal_mul_diagonal, diagonal_add]

theorem sc_add (a b c d a' b' c' d' : ℂ) :
    sc m a b c d + sc m a' b' c' d' = sc m (a + a') (b + b') (c + c') (d + d') := by
  simp only [sc, fromBlocks_add, diagonal_add]

theorem sc_sub (a b c d a' b' c' d' : ℂ) :
    sc m a b c d - sc m a' b' c' d' = sc m (a - a') (b - b') (c - c') (d - d') := by
  rw [sub_eq_add_neg, sub_eq_add_neg, sub_eq_add_neg, sub_eq_add_neg, sub_eq_add_neg, ← sc_add]
  congr 1
  simp only [sc, fromBlocks_neg, diagonal_neg]

theorem sc_smul (k a b c d : ℂ) : k • sc m a b c d = sc m (k * a) (k * b) (k * c) (k * d) := by
  simp only [sc, fromBlocks_smul, ← diagonal_smul]
  rfl

theorem sc_one : sc m 1 0 0 1 = 1 := by
  simp only [sc, diagonal_one, diagonal_zero, fromBlocks_one]

theorem sc_meeinv (la : LinAlg) {a b c d e : ℂ} (he : (a * d - b * c) * e = 1) :
    meeinv la (sc m a b c d) false = .ok (sc m (d * e) (-b * e) (-c * e) (a * e)) := by
  have h : sc m (d * e) (-b * e) (-c * e) (a * e) * sc m a b c d = 1 := by
    rw [sc_mul, ← sc_one]
    congr 1
    · linear_combination he
    · ring
    · ring
    · linear_combination he
  rw [meeinv_false_ok]
  exact ⟨isUnit_det_of_left_inverse h, (inv_eq_left_inv h).symm⟩

theorem sc_mulVec_inl (a b c d : ℂ) (u : m ⊕ m → ℂ) (i : m) :
    (sc m a b c d *ᵥ u) (.inl i) = a * u (.inl i) + b * u (.inr i) := by
  simp [sc, fromBlocks_mulVec, mulVec_diagonal]

theorem sc_mulVec_inr (a b c d : ℂ) (u : m ⊕ m → ℂ) (i : m) :
    (sc m a b c d *ᵥ u) (.inr i) = c * u (.inl i) + d * u (.inr i) := by
  simp [sc, fromBlocks_mulVec, mulVec_diagonal]

theorem mixVarphi : varphiAll (fun _ : m => (2 : ℂ)) (fun _ => 1) = .ok (fun _ => ((Real.arctan (1 / 2) : ℝ) : ℂ)) := by
  have h : varphi1 (2 : ℂ) 1 = some ((Real.arctan (1 / 2) : ℝ) : ℂ) := by
    rw [Complex.ofReal_arctan]
    simp [varphi1]
  unfold varphiAll
  rw [dif_pos (fun _ => by rw [h]; rfl)]
  simp only [h, Option.get_some]

theorem mixKz (i : m) : kz2d 3 (fun _ : m => (2 : ℂ)) (fun _ => 1) i = 2 := by
  unfold kz2d
  have : (3 : ℂ) ^ 2 - 2 ^ 2 - 1 ^ 2 = ((2 : ℝ) : ℂ) ^ 2 := by push_cast; norm_num
  simp only [this]
  rw [csqrt_ofReal_sq (by norm_num), Complex.star_def, Complex.conj_ofReal]
  norm_num

theorem mixInit : transfer_2d_1 (fun _ : m => (2 : ℂ)) (fun _ => 1) 3 3
    = .ok (fun _ => 2, fun _ => 2, fun _ => ((Real.arctan (1 / 2) : ℝ) : ℂ),
        ⟨sc m 1 0 0 (2 * Complex.I / 9), sc m (2 * Complex.I) 0 0 1, 1⟩) := by
  have e : (kz2d 3 (fun _ : m => (2 : ℂ)) (fun _ => 1)) = fun _ => 2 := funext fun i => mixKz i
  unfold transfer_2d_1
  rw [mixVarphi]
  simp only [bind, Except.bind, Except.ok.injEq, Prod.mk.injEq, TState.mk.injEq, e]
  refine ⟨trivial, trivial, trivial, ?_, ?_, trivial⟩
  · unfold sc
    simp only [diagonal_one, diagonal_zero, ← diagonal_smul]
    congr 2; funext i; simp only [Pi.smul_apply, smul_eq_mul]; ring
  · unfold sc
    simp only [diagonal_one, diagonal_zero, ← diagonal_smul]
    congr 2; funext i; simp only [Pi.smul_apply, smul_eq_mul]; ring

/-- Matrices of the layer. -/
noncomputable def mixC (m : Type) [DecidableEq m] : Conv m :=
  ⟨diagonal fun _ => 17 / 9, diagonal fun _ => 9, diagonal fun _ => 1 / 9⟩

/-- Modes of the layer. -/
noncomputable def mixM (m : Type) [DecidableEq m] : ConModes m :=
  ⟨1, 1, diagonal fun _ => -2 * Complex.I / 5, diagonal fun _ => -2 / 5, diagonal fun _ => -2 / 5,
    diagonal fun _ => -2 * Complex.I / 5, fun _ => Complex.I * ((2 : ℝ) : ℂ), fun _ => Complex.I * ((2 / 9 : ℝ) : ℂ)⟩

theorem mixModes : transfer_1d_conical_2 exLA (fun _ : m => (2 : ℂ)) (fun _ => 1) (mixC m) false = .ok (mixM m) := by
  have q1 : csqrt (-4 : ℂ) = Complex.I * ((2 : ℝ) : ℂ) := by
    rw [← csqrt_neg_sq (by norm_num)]; congr 1; push_cast; norm_num
  have q2 : csqrt (-4 / 81 : ℂ) = Complex.I * ((2 / 9 : ℝ) : ℂ) := by
    rw [← csqrt_neg_sq (by norm_num)]; congr 1; push_cast; norm_num
  unfold transfer_1d_conical_2 mixC mixM
  have eA : (diagonal fun _ : m => (2 : ℂ) ^ 2) - (diagonal fun _ : m => (9 : ℂ)) = diagonal fun _ => -5 := by
    rw [diagonal_sub]; congr 1; funext i; norm_num
  have eB : (diagonal fun _ : m => (2 : ℂ)) * (diagonal fun _ : m => (1 / 9 : ℂ)) * (diagonal fun _ : m => (2 : ℂ)) - 1
      = diagonal fun _ => -5 / 9 := by
    rw [diagonal_mul_diagonal, diagonal_mul_diagonal, ← diagonal_one, diagonal_sub]; congr 1; funext i; norm_num
  have eRL : (diagonal fun _ : m => (1 : ℂ) ^ 2) + (diagonal fun _ : m => (-5 : ℂ)) = diagonal fun _ => -4 := by
    rw [diagonal_add]; congr 1; funext i; norm_num
  have eLR : (diagonal fun _ : m => (1 : ℂ) ^ 2) + (diagonal fun _ : m => (-5 / 9 : ℂ)) * (diagonal fun _ : m => (17 / 9 : ℂ))
      = diagonal fun _ => -4 / 81 := by
    rw [diagonal_mul_diagonal, diagonal_add]; congr 1; funext i; norm_num
  simp only [eA, eB, eRL, eLR, exLA_eig_diagonal]
  simp only [meeinv_diagonal exLA (fun _ : m => (by norm_num : (-5 : ℂ) ≠ 0)),
    meeinv_diagonal exLA (fun _ : m => (by norm_num : (-5 / 9 : ℂ) ≠ 0)), bind, Except.bind, q1, q2, Matrix.mul_one,
    diagonal_mul_diagonal, Except.ok.injEq, ConModes.mk.injEq, true_and, and_true]
  refine ⟨?_, ?_, ?_, ?_⟩ <;>
  · congr 1; funext i
    push_cast
    ring

/-- The scale of the rotated mode matrices: a fifth of the sine of the in-plane angle. -/
noncomputable def mixG : ℂ := ((Real.sin (Real.arctan (1 / 2)) / 5 : ℝ) : ℂ)

theorem mix_cos : Real.cos (Real.arctan (1 / 2)) = 2 * Real.sin (Real.arctan (1 / 2)) := by
  rw [Real.cos_arctan, Real.sin_arctan]
  ring

theorem mix_sin_sq : Real.sin (Real.arctan (1 / 2)) ^ 2 = 1 / 5 := by
  have := Real.sin_sq_add_cos_sq (Real.arctan (1 / 2))
  rw [mix_cos] at this
  linarith

theorem mixG_sq : mixG ^ 2 = 1 / 125 := by
  unfold mixG
  rw [← Complex.ofReal_pow, div_pow, mix_sin_sq]
  push_cast
  norm_num

theorem mixG_ne : mixG ≠ 0 := by
  intro h
  have := mixG_sq
  rw [h] at this
  norm_num at this

theorem mixW : conW (fun _ : m => ((Real.arctan (1 / 2) : ℝ) : ℂ)) (mixM m)
    = sc m (-4 * Complex.I * mixG) (-9 * mixG) (-2 * Complex.I * mixG) (8 * mixG) := by
  have hs : Complex.sin ((Real.arctan (1 / 2) : ℝ) : ℂ) = 5 * mixG := by
    rw [← Complex.ofReal_sin]; unfold mixG; push_cast; ring
  have hc : Complex.cos ((Real.arctan (1 / 2) : ℝ) : ℂ) = 10 * mixG := by
    rw [← Complex.ofReal_cos, mix_cos]; unfold mixG; push_cast; ring
  unfold conW mixM sc
  simp only [hs, hc, Matrix.mul_one, diagonal_mul_diagonal, diagonal_sub, diagonal_add]
  congr 2 <;> funext i <;> ring

theorem mixV : conV (fun _ : m => ((Real.arctan (1 / 2) : ℝ) : ℂ)) (mixM m)
    = sc m (8 * mixG) (-2 * Complex.I * mixG) (-9 * mixG) (-4 * Complex.I * mixG) := by
  have hs : Complex.sin ((Real.arctan (1 / 2) : ℝ) : ℂ) = 5 * mixG := by
    rw [← Complex.ofReal_sin]; unfold mixG; push_cast; ring
  have hc : Complex.cos ((Real.arctan (1 / 2) : ℝ) : ℂ) = 10 * mixG := by
    rw [← Complex.ofReal_cos, mix_cos]; unfold mixG; push_cast; ring
  unfold conV mixM sc
  simp only [hs, hc, Matrix.mul_one, diagonal_mul_diagonal, diagonal_sub, diagonal_add]
  congr 2 <;> funext i <;> ring

theorem mix_exp (z : ℂ) (h : z = -(Real.pi / 2 * Complex.I) ∨ z = -(Real.pi / 2 * Complex.I) - 2 * (2 * Real.pi * Complex.I)) :
    Complex.exp z = -Complex.I := by
  have h0 : Complex.exp (-(Real.pi / 2 * Complex.I)) = -Complex.I := by
    rw [Complex.exp_neg, Complex.exp_pi_div_two_mul_I, Complex.inv_I]
  rcases h with rfl | rfl
  · exact h0
  · rw [Complex.exp_sub, h0]
    have : Complex.exp (2 * (2 * Real.pi * Complex.I)) = 1 := by
      rw [two_mul, Complex.exp_add, Complex.exp_two_pi_mul_I, one_mul]
    rw [this, div_one]

theorem mixX : phaseX (2 * Real.pi / 1) (Sum.elim (mixM m).q1 (mixM m).q2) (9 / 8)
    = sc m (-Complex.I) 0 0 (-Complex.I) := by
  unfold phaseX sc mixM
  rw [diagonal_zero, fromBlocks_diagonal]
  congr 1
  funext i
  rcases i with i | i <;> simp only [Sum.elim_inl, Sum.elim_inr]
  · refine mix_exp _ (Or.inr ?_)
    push_cast; ring
  · refine mix_exp _ (Or.inl ?_)
    push_cast; ring

theorem mixStep : ∃ T A B, tmmStep exLA false (sc m (-Complex.I) 0 0 (-Complex.I))
      (sc m (-4 * Complex.I * mixG) (-9 * mixG) (-2 * Complex.I * mixG) (8 * mixG))
      (sc m (8 * mixG) (-2 * Complex.I * mixG) (-9 * mixG) (-4 * Complex.I * mixG))
      ⟨sc m 1 0 0 (2 * Complex.I / 9), sc m (2 * Complex.I) 0 0 1, 1⟩
    = .ok (⟨sc m (-4 * Complex.I * mixG) (-81 / 5 * mixG) (-2 * Complex.I * mixG) (72 / 5 * mixG),
        sc m (8 * mixG) (-2 / 5 * Complex.I * mixG) (-9 * mixG) (-4 / 5 * Complex.I * mixG), T⟩, A, B) := by
  have hg := mixG_sq
  have hI := Complex.I_sq
  generalize mixG = g at hg ⊢
  have eA : ((1 / 2 : ℂ)) • (sc m (8 * g * (5 / 2 * Complex.I)) (-(-9 * g) * (5 / 2 * Complex.I))
        (-(-2 * Complex.I * g) * (5 / 2 * Complex.I)) (-4 * Complex.I * g * (5 / 2 * Complex.I))
        * sc m 1 0 0 (2 * Complex.I / 9)
      + sc m (-4 * Complex.I * g * (5 / 2 * Complex.I)) (-(-2 * Complex.I * g) * (5 / 2 * Complex.I))
        (-(-9 * g) * (5 / 2 * Complex.I)) (8 * g * (5 / 2 * Complex.I)) * sc m (2 * Complex.I) 0 0 1)
      = sc m (20 * g * Complex.I) (-5 * g) (-25 * g) (100 / 9 * g * Complex.I) := by
    rw [sc_mul, sc_mul, sc_add, sc_smul]
    congr 1
    · linear_combination (-10 * g * Complex.I) * hI
    · linear_combination (5 * g) * hI
    · linear_combination (25 * g) * hI
    · linear_combination (-(10 / 9) * g * Complex.I) * hI
  have eB : ((1 / 2 : ℂ)) • (sc m (8 * g * (5 / 2 * Complex.I)) (-(-9 * g) * (5 / 2 * Complex.I))
        (-(-2 * Complex.I * g) * (5 / 2 * Complex.I)) (-4 * Complex.I * g * (5 / 2 * Complex.I))
        * sc m 1 0 0 (2 * Complex.I / 9)
      - sc m (-4 * Complex.I * g * (5 / 2 * Complex.I)) (-(-2 * Complex.I * g) * (5 / 2 * Complex.I))
        (-(-9 * g) * (5 / 2 * Complex.I)) (8 * g * (5 / 2 * Complex.I)) * sc m (2 * Complex.I) 0 0 1)
      = sc m 0 0 (20 * g) (-80 / 9 * g * Complex.I) := by
    rw [sc_mul, sc_mul, sc_sub, sc_smul]
    congr 1
    · linear_combination (10 * g * Complex.I) * hI
    · ring
    · linear_combination (-20 * g) * hI
    · linear_combination (-(10 / 9) * g * Complex.I) * hI
  unfold tmmStep
  simp only [sc_meeinv exLA (m := m) (a := -4 * Complex.I * g) (b := -9 * g) (c := -2 * Complex.I * g) (d := 8 * g)
      (e := 5 / 2 * Complex.I) (by linear_combination (-125 * g ^ 2) * hI + 125 * hg),
    sc_meeinv exLA (m := m) (a := 8 * g) (b := -2 * Complex.I * g) (c := -9 * g) (d := -4 * Complex.I * g)
      (e := 5 / 2 * Complex.I) (by linear_combination (-125 * g ^ 2) * hI + 125 * hg), bind, Except.bind, eA, eB,
    sc_meeinv exLA (m := m) (a := 20 * g * Complex.I) (b := -5 * g) (c := -25 * g) (d := 100 / 9 * g * Complex.I)
      (e := -9 / 25) (by linear_combination (-80 * g ^ 2) * hI + 125 * hg)]
  have eP : sc m (-Complex.I) 0 0 (-Complex.I) * sc m 0 0 (20 * g) (-80 / 9 * g * Complex.I)
      * sc m (100 / 9 * g * Complex.I * (-9 / 25)) (-(-5 * g) * (-9 / 25)) (-(-25 * g) * (-9 / 25))
          (20 * g * Complex.I * (-9 / 25)) * sc m (-Complex.I) 0 0 (-Complex.I) = sc m 0 0 0 (4 / 5) := by
    rw [sc_mul, sc_mul, sc_mul]
    congr 1
    · ring
    · ring
    · ring
    · linear_combination (64 * Complex.I ^ 2 * g ^ 2 - 100 * g ^ 2) * hI + 100 * hg
  have eF : sc m (-4 * Complex.I * g) (-9 * g) (-2 * Complex.I * g) (8 * g) * (1 + sc m 0 0 0 (4 / 5))
      = sc m (-4 * Complex.I * g) (-81 / 5 * g) (-2 * Complex.I * g) (72 / 5 * g) := by
    rw [← sc_one, sc_add, sc_mul]
    congr 1 <;> ring
  have eG : sc m (8 * g) (-2 * Complex.I * g) (-9 * g) (-4 * Complex.I * g) * (1 - sc m 0 0 0 (4 / 5))
      = sc m (8 * g) (-2 / 5 * Complex.I * g) (-9 * g) (-4 / 5 * Complex.I * g) := by
    rw [← sc_one, sc_sub, sc_mul]
    congr 1 <;> ring
  simp only [eP, eF, eG]
  exact ⟨_, _, _, rfl⟩

/-- The solution of the final system. -/
theorem mixSolve {th ps : ℂ} (hth : Complex.cos th = 2 / 3) {δ : m → ℂ} {T : Matrix (m ⊕ m) (m ⊕ m) ℂ}
    {rt : (m ⊕ m) ⊕ (m ⊕ m) → ℂ}
    (h : finalA 3 (fun _ => 2) ⟨sc m (-4 * Complex.I * mixG) (-81 / 5 * mixG) (-2 * Complex.I * mixG) (72 / 5 * mixG),
        sc m (8 * mixG) (-2 / 5 * Complex.I * mixG) (-9 * mixG) (-4 / 5 * Complex.I * mixG), T⟩ *ᵥ rt
      = finalB δ ps th 3) (i : m) :
    mixG * rt (.inr (.inl i)) = Complex.I * (4 * Complex.sin ps - 3 * Complex.cos ps) / 25 * δ i ∧
    mixG * rt (.inr (.inr i)) = -(9 * Complex.sin ps + 12 * Complex.cos ps) / 205 * δ i ∧
    rt (.inl (.inl i)) = (72 * Complex.sin ps + 96 * Complex.cos ps) / 205 * δ i ∧
    rt (.inl (.inr i)) = -Complex.I * (288 * Complex.sin ps + 384 * Complex.cos ps) / 205 * δ i := by
  obtain ⟨e1, e2, e3, e4⟩ := final_eqs h
  have e1 := e1 i
  have e2 := e2 i
  have e3 := e3 i
  have e4 := e4 i
  simp only [sc_mulVec_inl, sc_mulVec_inr, hth] at e1 e2 e3 e4
  have hI := Complex.I_sq
  have hI3 : Complex.I ^ 3 = -Complex.I := by rw [pow_succ, hI]; ring
  generalize Complex.sin ps = S at *
  generalize Complex.cos ps = C at *
  generalize hu1 : mixG * rt (.inr (.inl i)) = u1
  generalize hu2 : mixG * rt (.inr (.inr i)) = u2
  generalize rt (.inl (.inl i)) = Rs at *
  generalize rt (.inl (.inr i)) = Rp at *
  have f1 : -4 * Complex.I * u1 - 81 / 5 * u2 = Rs + S * δ i := by rw [← hu1, ← hu2, ← e1]; ring
  have f2 : -2 * Complex.I * u1 + 72 / 5 * u2 = -(Complex.I * (2 / 3 ^ 2) * Rp) - C * (2 / 3) * δ i := by
    rw [← hu1, ← hu2, ← e2]; ring
  have f3 : 8 * u1 - 2 / 5 * Complex.I * u2 = -(Complex.I * 2 * Rs) + Complex.I * S * 3 * (2 / 3) * δ i := by
    rw [← hu1, ← hu2, ← e3]; ring
  have f4 : -9 * u1 - 4 / 5 * Complex.I * u2 = Rp + Complex.I * 3 * C * δ i := by rw [← hu1, ← hu2, ← e4]; ring
  have g1 : 16 * u1 - 164 / 5 * Complex.I * u2 = 4 * Complex.I * S * δ i := by
    linear_combination f3 + 2 * Complex.I * f1 + 8 * u1 * hI
  have g2 : -4 * Complex.I * u1 + 656 / 45 * u2 = -(4 / 3) * C * δ i := by
    linear_combination f2 + 2 / 9 * Complex.I * f4 + (8 / 45 * u2 + 2 / 3 * C * δ i) * hI
  have k2 : u2 = -(9 * S + 12 * C) / 205 * δ i := by
    linear_combination (9 / 820 * Complex.I) * g1 + (9 / 205) * g2 + (-(9 / 820) * 4 * S * δ i - 9 * 164 / 5 / 820 * u2) * (-hI)
  have k1 : u1 = Complex.I * (4 * S - 3 * C) / 25 * δ i := by
    linear_combination (1 / 16) * g1 + (164 / 80 * Complex.I) * k2
  have k3 : Rs = (72 * S + 96 * C) / 205 * δ i := by
    linear_combination -f1 - 4 * Complex.I * k1 - 81 / 5 * k2 - 4 * (4 * S - 3 * C) / 25 * δ i * hI
  refine ⟨k1, k2, k3, ?_⟩
  linear_combination -f4 - 9 * k1 - 4 / 5 * Complex.I * k2

end

/-- Two pixels of permittivity 1 and 17. -/
noncomputable def mixCell : Ucell := ⟨1, 2, [fun _ j => if j = 0 then 1 else ((Real.sqrt 17 : ℝ) : ℂ)]⟩

theorem sqrt17_sq : ((Real.sqrt 17 : ℝ) : ℂ) ^ 2 = 17 := by
  rw [← Complex.ofReal_pow, Real.sq_sqrt (by norm_num)]
  norm_num

theorem mixCell_conv (la : LinAlg) :
    to_conv_mat_raster_discrete la mixCell 0 0 false false = .ok [mixC (FlatIdx 0 0)] := by
  unfold to_conv_mat_raster_discrete
  rw [mapM_ok]
  simp only [Ucell.rasters, mixCell, List.map_cons, List.map_nil]
  refine List.Forall₂.cons ?_ List.Forall₂.nil
  rw [convDiscrete_fromCell]
  have e : enlarge ⟨1, 2, fun _ j => if j = 0 then 1 else ((Real.sqrt 17 : ℝ) : ℂ)⟩ 0 0 false
      = ⟨1, 2, fun _ j => if j = 0 then 1 else ((Real.sqrt 17 : ℝ) : ℂ)⟩ := by
    simp [enlarge]
  rw [e]
  have h17 := sqrt17_sq
  refine ⟨by norm_num, by norm_num, diagonal fun _ => 9, ?_⟩
  have hne : ∀ (x : Fin 2) (y : Fin 1), (if x = 0 then (1 : ℂ) else ((Real.sqrt 17 : ℝ) : ℂ)) ^ 2 ≠ 0 := by
    intro x y; split
    · norm_num
    · rw [h17]; norm_num
  refine ⟨?_, ?_, ?_, isUnit_det_diagonal fun _ => by norm_num, ?_⟩
  · rw [genConv_00_tt]
    simp [dftCoeff_zero, Raster.sq, h17]; norm_num
  · rw [genConv_00_tf]
    · simp [dftCoeff_zero, Raster.sq, mixC, h17]; norm_num
    · exact hne
    · intro x
      simp [dftCoeff_zero, Raster.sq]
      split
      · norm_num
      · exact hne 1 0
  · rw [genConv_00_ft]
    · simp [dftCoeff_zero, Raster.sq, mixC, h17]; norm_num
    · intro x
      simp [dftCoeff_zero, Raster.sq]
      split
      · norm_num
      · exact hne 1 0
    · simp [dftCoeff_zero, Raster.sq, h17]; norm_num
  · rw [inv_diagonal' fun _ => by norm_num]
    simp [mixC]

/-- The witness: index 3 on both sides, in-plane wavenumber (2, 1). -/
noncomputable def mixParams (psi : ℂ) : Params where
  n_top := 3
  n_bot := 3
  theta := ((Real.arccos (2 / 3) : ℝ) : ℂ)
  phi := some ((Real.arctan (1 / 2) : ℝ) : ℂ)
  psi := psi
  pol := 1 / 2
  fto := (0, 0)
  period := (1, 1)
  wavelength := 1
  thickness := [9 / 8]
  use_pinv := false

noncomputable def mixSettings (psi : ℂ) : Settings where
  p := mixParams psi
  ucell := .raster mixCell
  fourier_type := 0
  enhanced_dfs := false
  algo := .tmm

theorem mixIncidence (psi : ℂ) : RealIncidence (mixParams psi) 3 (Real.arccos (2 / 3)) := by
  have h1 := Real.pi_pos
  have h0 := Real.arccos_nonneg (2 / 3)
  refine ⟨by simp [mixParams], by norm_num, rfl, by linarith, ?_⟩
  exact Real.arccos_lt_pi_div_two.mpr (by norm_num)

theorem mix_cosTheta : Complex.cos ((Real.arccos (2 / 3) : ℝ) : ℂ) = 2 / 3 := by
  rw [← Complex.ofReal_cos, Real.cos_arccos (by norm_num) (by norm_num)]
  norm_num

theorem mix_k : 3 * Real.sin (Real.arccos (2 / 3)) * Real.sin (Real.arctan (1 / 2)) = 1 := by
  rw [Real.sin_arccos, Real.sin_arctan, ← mul_div_assoc, mul_one_div, div_eq_one_iff_eq (by positivity)]
  rw [show (1 : ℝ) - (2 / 3) ^ 2 = (2 / 3) ^ 2 * (1 + (1 / 2) ^ 2) by norm_num, Real.sqrt_mul (by norm_num),
    Real.sqrt_sq (by norm_num)]
  ring

theorem mixKx (psi : ℂ) : kxF (mixParams psi) 1 = fun _ => 2 := by
  funext i
  unfold kxF tileX
  rw [(mixIncidence psi).kx_eq' (ph := Real.arctan (1 / 2)) (by simp [mixParams]) 1 (i.modNat)]
  have : ((i.modNat (m := 2 * (mixParams psi).fto.2 + 1) (n := 2 * (mixParams psi).fto.1 + 1) : ℕ) : ℤ)
      - (((mixParams psi).fto.1 : ℕ) : ℤ) = 0 := by
    have := (i.modNat (m := 2 * (mixParams psi).fto.2 + 1) (n := 2 * (mixParams psi).fto.1 + 1)).2
    simp only [mixParams] at this ⊢
    omega
  rw [this, mix_cos, show 3 * Real.sin (Real.arccos (2 / 3)) * (2 * Real.sin (Real.arctan (1 / 2)))
    = 2 * (3 * Real.sin (Real.arccos (2 / 3)) * Real.sin (Real.arctan (1 / 2))) by ring, mix_k]
  simp

theorem mixKy (psi : ℂ) : kyF (mixParams psi) 1 = fun _ => 1 := by
  funext i
  unfold kyF tileY
  rw [(mixIncidence psi).ky_eq' (ph := Real.arctan (1 / 2)) (by simp [mixParams]) 1 (i.divNat)]
  have : ((i.divNat (m := 2 * (mixParams psi).fto.2 + 1) (n := 2 * (mixParams psi).fto.1 + 1) : ℕ) : ℤ)
      - (((mixParams psi).fto.2 : ℕ) : ℤ) = 0 := by
    have := (i.divNat (m := 2 * (mixParams psi).fto.2 + 1) (n := 2 * (mixParams psi).fto.1 + 1)).2
    simp only [mixParams] at this ⊢
    omega
  rw [this, mix_k]
  simp

theorem mix4 {T : Matrix (FlatIdx 0 0 ⊕ FlatIdx 0 0) (FlatIdx 0 0 ⊕ FlatIdx 0 0) ℂ} (psi : ℂ) :
    ∃ x : Out4 0 0, transfer_2d_4 exLA
      ⟨sc _ (-4 * Complex.I * mixG) (-81 / 5 * mixG) (-2 * Complex.I * mixG) (72 / 5 * mixG),
        sc _ (8 * mixG) (-2 / 5 * Complex.I * mixG) (-9 * mixG) (-4 / 5 * Complex.I * mixG), T⟩
      (fun _ => 2) (fun _ => 2) psi ((Real.arccos (2 / 3) : ℝ) : ℂ) 3 3 false = .ok x ∧
      x.res.R_s 0 0 = (72 * Complex.sin psi + 96 * Complex.cos psi) / 205 ∧
      x.res.R_p 0 0 = -Complex.I * (288 * Complex.sin psi + 384 * Complex.cos psi) / 205 ∧
      x.res.de_ri 0 0 = Complex.normSq (x.res.R_s 0 0) + Complex.normSq (x.res.R_p 0 0) / 9 := by
  set st : TState (FlatIdx 0 0 ⊕ FlatIdx 0 0) :=
    ⟨sc _ (-4 * Complex.I * mixG) (-81 / 5 * mixG) (-2 * Complex.I * mixG) (72 / 5 * mixG),
        sc _ (8 * mixG) (-2 / 5 * Complex.I * mixG) (-9 * mixG) (-4 / 5 * Complex.I * mixG), T⟩ with hst
  have hu : IsUnit (finalA 3 (fun _ => 2) st).det := by
    rw [isUnit_iff_ne_zero]
    intro h0
    obtain ⟨v, hv, hz⟩ := exists_mulVec_eq_zero_iff.mpr h0
    have hB : finalB (fun _ : FlatIdx 0 0 => (0 : ℂ)) 0 ((Real.arccos (2 / 3) : ℝ) : ℂ) 3 = 0 := by
      funext i
      rcases i with (i | i) | (i | i) <;> simp [finalB]
    refine hv (funext fun i => ?_)
    have := fun i => mixSolve mix_cosTheta (hz.trans hB.symm) i
    simp only [mul_zero, mul_eq_zero, mixG_ne, false_or] at this
    rcases i with (i | i) | (i | i)
    · exact (this i).2.2.1
    · exact (this i).2.2.2
    · exact (this i).1
    · exact (this i).2.1
  have hsol := mixSolve (ps := psi) (δ := deltaI0) mix_cosTheta (T := T)
    (rt := (finalA 3 (fun _ => 2) st)⁻¹ *ᵥ finalB deltaI0 psi ((Real.arccos (2 / 3) : ℝ) : ℂ) 3)
    (by rw [mulVec_mulVec, ← hst, mul_nonsing_inv _ hu, one_mulVec]) (finProdFinEquiv (0, 0))
  have hd : (deltaI0 : FlatIdx 0 0 → ℂ) (finProdFinEquiv (0, 0)) = 1 := by simp [deltaI0]
  rw [hd] at hsol
  simp only [mul_one] at hsol
  unfold transfer_2d_4
  refine ⟨_, Except.bind_ok.mpr ⟨_, meeinv_false_ok.mpr ⟨hu, rfl⟩, rfl⟩, hsol.2.2.1, hsol.2.2.2, ?_⟩
  simp only [subResOf, effOf_eq, mix_cosTheta]
  norm_num
  ring

theorem mixSolveCon (psi : ℂ) : ∃ o : OutCon 0 0, solve_1d_conical exLA (mixParams psi) 1 [mixC (FlatIdx 0 0)] = .ok o ∧
      o.out.res.R_s 0 0 = (72 * Complex.sin psi + 96 * Complex.cos psi) / 205 ∧
      o.out.res.R_p 0 0 = -Complex.I * (288 * Complex.sin psi + 384 * Complex.cos psi) / 205 ∧
      o.out.res.de_ri 0 0 = Complex.normSq (o.out.res.R_s 0 0) + Complex.normSq (o.out.res.R_p 0 0) / 9 := by
  obtain ⟨T, A, B, hstep⟩ := mixStep (m := FlatIdx 0 0)
  obtain ⟨x, h4, hx⟩ := mix4 (T := T) psi
  have hr : ∃ r : TState (FlatIdx 0 0 ⊕ FlatIdx 0 0) × LayerInfoCon (FlatIdx 0 0),
      stepCon exLA false (2 * Real.pi / 1) (fun _ => 2) (fun _ => 1) (fun _ => ((Real.arctan (1 / 2) : ℝ) : ℂ))
        (mixC _) (9 / 8) ⟨sc _ 1 0 0 (2 * Complex.I / 9), sc _ (2 * Complex.I) 0 0 1, 1⟩ = .ok r ∧
      r.1 = ⟨sc _ (-4 * Complex.I * mixG) (-81 / 5 * mixG) (-2 * Complex.I * mixG) (72 / 5 * mixG),
        sc _ (8 * mixG) (-2 / 5 * Complex.I * mixG) (-9 * mixG) (-4 / 5 * Complex.I * mixG), T⟩ := by
    unfold stepCon
    rw [mixModes]
    simp only [bind, Except.bind, transfer_1d_conical_3_eq]
    rw [mixX, mixW, mixV, hstep]
    exact ⟨_, rfl, rfl⟩
  obtain ⟨r, hr, er⟩ := hr
  refine ⟨⟨x, [r.2]⟩, (solve_con_iff (p := mixParams psi) rfl).mpr ⟨by simp [mixParams], rfl,
    (fun _ => 2, fun _ => 2, fun _ => ((Real.arctan (1 / 2) : ℝ) : ℂ),
        ⟨sc _ 1 0 0 (2 * Complex.I / 9), sc _ (2 * Complex.I) 0 0 1, 1⟩), (r.1, [r.2]), x, ?_, ?_, ?_, rfl⟩, hx⟩
  · rw [mixKx, mixKy]; exact mixInit
  · rw [mixKx, mixKy]
    simp only [mixParams, List.zip_cons_cons, List.zip_nil_right]
    exact runLayers_cons.mpr ⟨_, rfl, r, hr, rfl⟩
  · rw [er]; exact h4

theorem mix_ok (psi : ℂ) : ∃ o : OutCon 0 0, conv_solve exLA (mixSettings psi) = .ok (.conical o) ∧
      o.out.res.R_s 0 0 = (72 * Complex.sin psi + 96 * Complex.cos psi) / 205 ∧
      o.out.res.R_p 0 0 = -Complex.I * (288 * Complex.sin psi + 384 * Complex.cos psi) / 205 ∧
      o.out.res.de_ri 0 0 = Complex.normSq (o.out.res.R_s 0 0) + Complex.normSq (o.out.res.R_p 0 0) / 9 := by
  have hg : gratingType (mixSettings psi) = 1 := by
    simp [gratingType, mixSettings, mixCell, mixParams]
  obtain ⟨o, ho, h⟩ := mixSolveCon psi
  have hc : convMats exLA (mixSettings psi) = .ok [mixC (FlatIdx 0 0)] := by
    unfold convMats
    simp only [mixSettings, mixParams, if_true]
    exact mixCell_conv exLA
  exact ⟨o, conv_solve_conical.mpr ⟨_, hc, hg, rfl, ho⟩, h⟩

/-- The witness has lossless claddings. -/
theorem mixLossless (psi : ℝ) : Spec.LosslessCladdings (mixSettings (psi : ℂ)).p := by
  have hinc := mixIncidence (psi : ℂ)
  have h1 := hinc.lo
  have h2 := hinc.hi
  refine { n_top_real := ?_, n_top_pos := ?_, theta_real := ?_, theta_lo := ?_, theta_hi := ?_, phi_real := ?_,
           psi_real := ?_, wavelength_pos := ?_, period_x_pos := ?_, period_y_pos := ?_, n_bot_real := ?_,
           n_bot_pos := ?_ } <;> simp only [mixSettings, mixParams, Spec.IsReal, Complex.ofReal_im, Complex.ofReal_re]
  · norm_num
  · norm_num
  · exact h1
  · exact h2
  · intro φ h
    cases h
    exact Complex.ofReal_im _
  all_goals norm_num

end Meent
