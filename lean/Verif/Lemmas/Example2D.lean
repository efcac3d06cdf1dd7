import Verif.Lemmas.Example1D
import Verif.Lemmas.Energy2D
import Verif.Lemmas.ConTo2D

/-!
# Concrete instances of the conical and 2D solvers (helper lemmas)
-/

open Matrix

namespace Meent

set_option linter.unusedSectionVars false
set_option linter.unusedSimpArgs false

section
variable {m : Type} [Fintype m] [DecidableEq m]

/-- The final system of a diagonal state is regular when no scalar denominator vanishes. -/
theorem finalA_diag {nt : ℂ} {kzt : m → ℂ} {f g : m ⊕ m → ℂ} {T : Matrix (m ⊕ m) (m ⊕ m) ℂ}
    (hs : ∀ i, g (.inl i) + Complex.I * kzt i * f (.inl i) ≠ 0)
    (hp : ∀ i, f (.inr i) + Complex.I * (kzt i / nt ^ 2) * g (.inr i) ≠ 0) :
    IsUnit (finalA nt kzt ⟨diagonal f, diagonal g, T⟩).det := by
  rw [isUnit_iff_ne_zero]
  intro h0
  obtain ⟨v, hv, hz⟩ := exists_mulVec_eq_zero_iff.mpr h0
  have hB : finalB (fun _ : m => (0 : ℂ)) 0 0 nt = 0 := by
    funext i
    rcases i with (i | i) | (i | i) <;> simp [finalB]
  obtain ⟨e1, e2, e3, e4⟩ := final_eqs (δ := fun _ : m => (0 : ℂ)) (ps := 0) (th := 0) (hz.trans hB.symm)
  simp only [mulVec_diagonal, mul_zero, add_zero, sub_zero] at e1 e2 e3 e4
  have t1 : ∀ i, v (.inr (.inl i)) = 0 := by
    intro i
    refine (mul_eq_zero.mp (?_ : (g (.inl i) + Complex.I * kzt i * f (.inl i)) * v (.inr (.inl i)) = 0)).resolve_left (hs i)
    linear_combination e3 i + Complex.I * kzt i * e1 i
  have t2 : ∀ i, v (.inr (.inr i)) = 0 := by
    intro i
    refine (mul_eq_zero.mp (?_ : (f (.inr i) + Complex.I * (kzt i / nt ^ 2) * g (.inr i)) * v (.inr (.inr i)) = 0)).resolve_left (hp i)
    linear_combination e2 i + Complex.I * (kzt i / nt ^ 2) * e4 i
  refine hv (funext fun i => ?_)
  rcases i with (i | i) | (i | i)
  · have := e1 i; rw [t1 i, mul_zero] at this; exact this.symm
  · have := e4 i; rw [t2 i, mul_zero] at this; exact this.symm
  · exact t1 i
  · exact t2 i

end

theorem exKxF (pol : ℝ) : kxF (exParams pol (some 0)) 1 = fun _ => 1 / 2 := by
  funext i
  unfold kxF tileX
  have h := (exIncidence pol (some 0)).kx_eq' (ph := 0) (by simp [exParams]) 1 (i.modNat)
  rw [h]
  have : ((i.modNat (m := 2 * (exParams pol (some 0)).fto.2 + 1) (n := 2 * (exParams pol (some 0)).fto.1 + 1) : ℕ) : ℤ)
      - (((exParams pol (some 0)).fto.1 : ℕ) : ℤ) = 0 := by
    have := (i.modNat (m := 2 * (exParams pol (some 0)).fto.2 + 1) (n := 2 * (exParams pol (some 0)).fto.1 + 1)).2
    simp only [exParams] at this ⊢
    omega
  rw [this, Real.sin_pi_div_six]
  push_cast
  norm_num

theorem exKyF (pol : ℝ) : kyF (exParams pol (some 0)) 1 = fun _ => 0 := by
  funext i
  unfold kyF tileY
  have h := (exIncidence pol (some 0)).ky_eq' (ph := 0) (by simp [exParams]) 1 (i.divNat)
  rw [h]
  have : ((i.divNat (m := 2 * (exParams pol (some 0)).fto.2 + 1) (n := 2 * (exParams pol (some 0)).fto.1 + 1) : ℕ) : ℤ)
      - (((exParams pol (some 0)).fto.2 : ℕ) : ℤ) = 0 := by
    have := (i.divNat (m := 2 * (exParams pol (some 0)).fto.2 + 1) (n := 2 * (exParams pol (some 0)).fto.1 + 1)).2
    simp only [exParams] at this ⊢
    omega
  rw [this]
  simp

theorem exKz2 {k : ℂ} (hk : k ^ 2 = 1 / 4) : ∀ {m : Type} (i : m), kz2d 1 (fun _ : m => k) (fun _ => 0) i = ((Real.sqrt 3 / 2 : ℝ) : ℂ) := by
  intro m i
  unfold kz2d
  have h3 : (Real.sqrt 3) ^ 2 = 3 := Real.sq_sqrt (by norm_num)
  have : (1 : ℂ) ^ 2 - k ^ 2 - 0 ^ 2 = ((Real.sqrt 3 / 2 : ℝ) : ℂ) ^ 2 := by
    rw [hk, ← Complex.ofReal_pow, div_pow (Real.sqrt 3), h3]; push_cast; norm_num
  simp only [this]
  rw [csqrt_ofReal_sq (by positivity), Complex.star_def, Complex.conj_ofReal]

theorem exInitK {m : Type} [Fintype m] [DecidableEq m] {k : ℂ} (hk : k ^ 2 = 1 / 4) :
    transfer_2d_1 (fun _ : m => k) (fun _ => 0) 1 1
      = .ok (fun _ => ((Real.sqrt 3 / 2 : ℝ) : ℂ), fun _ => ((Real.sqrt 3 / 2 : ℝ) : ℂ), fun _ => 0,
        ⟨diagonal (Sum.elim (fun _ => 1) fun _ => Complex.I * ((Real.sqrt 3 / 2 : ℝ) : ℂ)),
         diagonal (Sum.elim (fun _ => Complex.I * ((Real.sqrt 3 / 2 : ℝ) : ℂ)) fun _ => 1), diagonal fun _ => 1⟩) := by
  have hk0 : k ≠ 0 := by rintro rfl; norm_num at hk
  have hv : varphiAll (fun _ : m => k) (fun _ => 0) = .ok (fun _ => 0) := by
    have ha : Complex.arctan 0 = 0 := by
      rw [← Complex.ofReal_zero, ← Complex.ofReal_arctan, Real.arctan_zero]
    have h : varphi1 k 0 = some 0 := by simp [varphi1, ha, hk0]
    unfold varphiAll
    rw [dif_pos (fun _ => by rw [h]; rfl)]
    simp only [h, Option.get_some]
  have e : (fun i : m => kz2d 1 (fun _ : m => k) (fun _ => 0) i) = fun _ => ((Real.sqrt 3 / 2 : ℝ) : ℂ) :=
    funext fun i => exKz2 hk i
  unfold transfer_2d_1
  rw [hv]
  simp only [bind, Except.bind, Except.ok.injEq, Prod.mk.injEq, TState.mk.injEq]
  refine ⟨e, e, trivial, ?_, ?_, ?_⟩
  · rw [← fromBlocks_diagonal]
    simp only [one_div, one_pow, inv_one, one_smul, diagonal_one, ← diagonal_smul]
    congr 2; funext i; simp only [Pi.smul_apply, smul_eq_mul]; rw [← congrFun e i]
  · rw [← fromBlocks_diagonal]
    simp only [diagonal_one, ← diagonal_smul]
    congr 2; funext i; simp only [Pi.smul_apply, smul_eq_mul]; rw [← congrFun e i]
  · rw [diagonal_one]

theorem exInit {m : Type} [Fintype m] [DecidableEq m] :
    transfer_2d_1 (fun _ : m => (1 / 2 : ℂ)) (fun _ => 0) 1 1
      = .ok (fun _ => ((Real.sqrt 3 / 2 : ℝ) : ℂ), fun _ => ((Real.sqrt 3 / 2 : ℝ) : ℂ), fun _ => 0,
        ⟨diagonal (Sum.elim (fun _ => 1) fun _ => Complex.I * ((Real.sqrt 3 / 2 : ℝ) : ℂ)),
         diagonal (Sum.elim (fun _ => Complex.I * ((Real.sqrt 3 / 2 : ℝ) : ℂ)) fun _ => 1), diagonal fun _ => 1⟩) :=
  exInitK (by norm_num)

/-- Modes of the example layer. -/
theorem exConModes {m : Type} [Fintype m] [DecidableEq m] {k : ℂ} (hk : k ^ 2 = 1 / 4) :
    transfer_1d_conical_2 exLA (fun _ : m => k) (fun _ => 0)
      ⟨diagonal fun _ => 8 / 5, diagonal fun _ => 5 / 2, diagonal fun _ => 2 / 5⟩ false
      = .ok ⟨1, 1, diagonal fun _ => 1 / (Complex.I * ((3 / 2 : ℝ) : ℂ)), 0, 0,
          diagonal fun _ => 1 / (Complex.I * ((3 / 4 : ℝ) : ℂ)),
          fun _ => Complex.I * ((3 / 2 : ℝ) : ℂ), fun _ => Complex.I * ((6 / 5 : ℝ) : ℂ)⟩ := by
  have q1 : csqrt (-9 / 4 : ℂ) = Complex.I * ((3 / 2 : ℝ) : ℂ) := by
    rw [← csqrt_neg_sq (by norm_num)]; congr 1; push_cast; norm_num
  have q2 : csqrt (-36 / 25 : ℂ) = Complex.I * ((6 / 5 : ℝ) : ℂ) := by
    rw [← csqrt_neg_sq (by norm_num)]; congr 1; push_cast; norm_num
  unfold transfer_1d_conical_2
  have eA : (diagonal fun _ : m => k ^ 2) - (diagonal fun _ : m => (5 / 2 : ℂ)) = diagonal fun _ => -9 / 4 := by
    rw [diagonal_sub]; congr 1; funext i; rw [hk]; norm_num
  have eB : (diagonal fun _ : m => k) * (diagonal fun _ : m => (2 / 5 : ℂ)) * (diagonal fun _ : m => k) - 1
      = diagonal fun _ => -9 / 10 := by
    rw [diagonal_mul_diagonal, diagonal_mul_diagonal, ← diagonal_one, diagonal_sub]; congr 1; funext i
    linear_combination (2 / 5) * hk
  have e0 : (diagonal fun _ : m => (0 : ℂ) ^ 2) = 0 := by simp
  have e0' : (diagonal fun _ : m => (0 : ℂ)) = 0 := by simp
  have eBx : (diagonal fun _ : m => (-9 / 10 : ℂ)) * (diagonal fun _ : m => (8 / 5 : ℂ)) = diagonal fun _ => -36 / 25 := by
    rw [diagonal_mul_diagonal]; congr 1; funext i; norm_num
  simp only [eA, eB, e0, e0', eBx, zero_add, exLA_eig_diagonal]
  simp only [meeinv_diagonal exLA (fun _ : m => (by norm_num : (-9 / 4 : ℂ) ≠ 0)),
    meeinv_diagonal exLA (fun _ : m => (by norm_num : (-9 / 10 : ℂ) ≠ 0)), bind, Except.bind, q1, q2, Matrix.mul_one,
    Matrix.zero_mul, diagonal_mul_diagonal, Except.ok.injEq, ConModes.mk.injEq, true_and, and_true]
  constructor <;>
  · congr 1; funext i
    have : Complex.I ≠ 0 := Complex.I_ne_zero
    push_cast
    field_simp
    rw [Complex.I_sq]; norm_num

section
variable {m : Type} [Fintype m] [DecidableEq m]

noncomputable def exF : m ⊕ m → ℂ := Sum.elim (fun _ => 1) fun _ => Complex.I * ((Real.sqrt 3 / 2 : ℝ) : ℂ)
noncomputable def exG : m ⊕ m → ℂ := Sum.elim (fun _ => Complex.I * ((Real.sqrt 3 / 2 : ℝ) : ℂ)) fun _ => 1
noncomputable def exW : m ⊕ m → ℂ := Sum.elim (fun _ => 1 / (Complex.I * ((3 / 2 : ℝ) : ℂ))) fun _ => 1
noncomputable def exV : m ⊕ m → ℂ := Sum.elim (fun _ => 1) fun _ => 1 / (Complex.I * ((3 / 4 : ℝ) : ℂ))
noncomputable def exQ : m ⊕ m → ℂ := Sum.elim (fun _ => Complex.I * ((3 / 2 : ℝ) : ℂ))
    fun _ => Complex.I * ((6 / 5 : ℝ) : ℂ)

/-- Modes of the example layer. -/
noncomputable def exM (m : Type) [DecidableEq m] : ConModes m :=
  ⟨1, 1, diagonal fun _ => 1 / (Complex.I * ((3 / 2 : ℝ) : ℂ)), 0, 0,
          diagonal fun _ => 1 / (Complex.I * ((3 / 4 : ℝ) : ℂ)),
          fun _ => Complex.I * ((3 / 2 : ℝ) : ℂ), fun _ => Complex.I * ((6 / 5 : ℝ) : ℂ)⟩

/-- Matrices of the example layer. -/
noncomputable def exC (m : Type) [DecidableEq m] : Conv m :=
  ⟨diagonal fun _ => 8 / 5, diagonal fun _ => 5 / 2, diagonal fun _ => 2 / 5⟩

theorem ex_add_ne {a b : ℝ} (ha : 0 < a) (hb : 0 < b) : Complex.I * (a : ℂ) + Complex.I * (b : ℂ) ≠ 0 := by
  rw [← mul_add]
  refine mul_ne_zero Complex.I_ne_zero ?_
  rw [← Complex.ofReal_add]
  exact_mod_cast (by linarith : (a + b : ℝ) ≠ 0)

theorem exA_ne (i : m ⊕ m) : exF i / exW i + exG i / exV i ≠ 0 := by
  have hy : 0 < Real.sqrt 3 / 2 := by positivity
  rcases i with i | i
  · simp only [exF, exG, exW, exV, Sum.elim_inl]
    rw [one_div_one_div, div_one]
    exact ex_add_ne (by norm_num) hy
  · simp only [exF, exG, exW, exV, Sum.elim_inr]
    rw [one_div_one_div, div_one]
    exact ex_add_ne hy (by norm_num)

noncomputable def exRho (i : m ⊕ m) : ℂ :=
  Complex.exp (-((2 * Real.pi / 1 : ℝ) : ℂ) * exQ i * ((1 / 3 : ℝ) : ℂ)) ^ 2
        * ((exF i / exW i - exG i / exV i) / (exF i / exW i + exG i / exV i))

theorem exW_ne (i : m ⊕ m) : exW i ≠ 0 := by
  rcases i with i | i <;> simp [exW, Complex.I_ne_zero]

theorem exV_ne (i : m ⊕ m) : exV i ≠ 0 := by
  rcases i with i | i <;> simp [exV, Complex.I_ne_zero]

theorem exStepK {k : ℂ} (hk : k ^ 2 = 1 / 4) : ∃ r : TState (m ⊕ m) × LayerInfoCon m,
    stepCon exLA false (2 * Real.pi / 1) (fun _ => k) (fun _ => 0) (fun _ => 0) (exC m) (1 / 3)
      ⟨diagonal exF, diagonal exG, diagonal fun _ => 1⟩ = .ok r ∧
    r.1.F = (diagonal fun i => exW i * (1 + exRho i)) ∧ r.1.G = (diagonal fun i => exV i * (1 - exRho i)) := by
  have eW : conW (fun _ : m => (0 : ℂ)) (exM m) = diagonal exW := by
    unfold conW exM exW
    rw [← fromBlocks_diagonal]
    simp
  have eV : conV (fun _ : m => (0 : ℂ)) (exM m) = diagonal exV := by
    unfold conV exM exV
    rw [← fromBlocks_diagonal]
    simp
  have hm : transfer_1d_conical_2 exLA (fun _ : m => k) (fun _ => 0) (exC m) false = .ok (exM m) := exConModes hk
  have hstep : tmmStep exLA false (phaseX (2 * Real.pi / 1) exQ (1 / 3)) (diagonal exW) (diagonal exV)
      ⟨diagonal (exF (m := m)), diagonal exG, diagonal fun _ => 1⟩ = _ := tmmStep_diag exLA exW_ne exV_ne exA_ne
  have hq : Sum.elim (exM m).q1 (exM m).q2 = exQ := rfl
  unfold stepCon
  rw [hm]
  simp only [bind, Except.bind, transfer_1d_conical_3_eq]
  rw [hq, eW, eV, hstep]
  exact ⟨_, rfl, rfl, rfl⟩

theorem exFinal {r : TState (m ⊕ m)} (hF : r.F = (diagonal fun i => exW i * (1 + exRho i)))
    (hG : r.G = (diagonal fun i => exV i * (1 - exRho i))) :
    IsUnit (finalA 1 (fun _ => ((Real.sqrt 3 / 2 : ℝ) : ℂ)) r).det := by
  have hI : Complex.I ≠ 0 := Complex.I_ne_zero
  have hy : 0 < Real.sqrt 3 / 2 := by positivity
  have : r = ⟨r.F, r.G, r.T⟩ := rfl
  rw [this, hF, hG]
  refine finalA_diag ?_ ?_
  · intro i
    simp only [exRho, exF, exG, exW, exV, exQ, Sum.elim_inl]
    have h1 := (exScalars (v := 3 / 2) (by norm_num)).2 _ (exPhase (2 * Real.pi / 1) (3 / 2) (1 / 3))
    generalize Complex.exp (-((2 * Real.pi / 1 : ℝ) : ℂ) * (Complex.I * ((3 / 2 : ℝ) : ℂ)) * ((1 / 3 : ℝ) : ℂ)) ^ 2 = X at h1 ⊢
    have h0 : (Complex.I * ((3 / 2 : ℝ) : ℂ)) ≠ 0 := by simp [hI]
    have e : (1 / (1 / (Complex.I * ((3 / 2 : ℝ) : ℂ))) - Complex.I * ((Real.sqrt 3 / 2 : ℝ) : ℂ) / 1)
        / (1 / (1 / (Complex.I * ((3 / 2 : ℝ) : ℂ))) + Complex.I * ((Real.sqrt 3 / 2 : ℝ) : ℂ) / 1)
        = dr (Complex.I * ((3 / 2 : ℝ) : ℂ)) ((Real.sqrt 3 / 2 : ℝ) : ℂ) := by
      unfold dr
      generalize (Complex.I * ((3 / 2 : ℝ) : ℂ)) = z at h0 ⊢
      rw [one_div_one_div, div_one]
      field_simp
    rw [e]
    intro h2
    refine h1 ?_
    generalize dr (Complex.I * ((3 / 2 : ℝ) : ℂ)) ((Real.sqrt 3 / 2 : ℝ) : ℂ) = ρ at h2 ⊢
    generalize (Complex.I * ((3 / 2 : ℝ) : ℂ)) = z at h0 h2 ⊢
    field_simp at h2
    linear_combination h2
  · intro i
    simp only [exRho, exF, exG, exW, exV, exQ, Sum.elim_inr]
    have h1 := (exScalars (v := 3 / 4) (by norm_num)).2 _ (exPhase (2 * Real.pi / 1) (6 / 5) (1 / 3))
    generalize Complex.exp (-((2 * Real.pi / 1 : ℝ) : ℂ) * (Complex.I * ((6 / 5 : ℝ) : ℂ)) * ((1 / 3 : ℝ) : ℂ)) ^ 2 = X at h1 ⊢
    have hzy := ex_add_ne (a := 3 / 4) (by norm_num) hy
    have h0 : (Complex.I * ((3 / 4 : ℝ) : ℂ)) ≠ 0 := by simp [hI]
    have e : (Complex.I * ((Real.sqrt 3 / 2 : ℝ) : ℂ) / 1 - 1 / (1 / (Complex.I * ((3 / 4 : ℝ) : ℂ))))
        / (Complex.I * ((Real.sqrt 3 / 2 : ℝ) : ℂ) / 1 + 1 / (1 / (Complex.I * ((3 / 4 : ℝ) : ℂ))))
        = -dr (Complex.I * ((3 / 4 : ℝ) : ℂ)) ((Real.sqrt 3 / 2 : ℝ) : ℂ) := by
      unfold dr
      generalize (Complex.I * ((3 / 4 : ℝ) : ℂ)) = z at h0 hzy ⊢
      generalize Complex.I * ((Real.sqrt 3 / 2 : ℝ) : ℂ) = w at hzy ⊢
      have h3 : w + z ≠ 0 := by rw [add_comm]; exact hzy
      have h4 : 1 + w / z ≠ 0 := by
        intro h; apply hzy; field_simp at h; rw [h, mul_zero]
      rw [one_div_one_div, div_one]
      field_simp
      ring
    rw [e]
    intro h2
    refine h1 ?_
    generalize dr (Complex.I * ((3 / 4 : ℝ) : ℂ)) ((Real.sqrt 3 / 2 : ℝ) : ℂ) = ρ at h2 ⊢
    generalize (Complex.I * ((3 / 4 : ℝ) : ℂ)) = z at h0 h2 ⊢
    field_simp at h2
    linear_combination h2

end

theorem exSolveConK {k : ℂ} (hk : k ^ 2 = 1 / 4) {p : Params} (hp : p.use_pinv = false) (ht : p.n_top = 1) (hb : p.n_bot = 1)
    (hd : p.thickness = [1 / 3]) (hf : p.fto.2 = 0) (hx : kxF p 1 = fun _ => k) (hy : kyF p 1 = fun _ => 0) :
    ∃ o, solve_1d_conical exLA p 1 [exC _] = .ok o := by
  obtain ⟨r, hr, hF, hG⟩ := exStepK hk (m := FlatIdx p.fto.1 p.fto.2)
  have hfin := exFinal hF hG
  have h4 : ∃ x : Out4 p.fto.1 p.fto.2, transfer_2d_4 exLA r.1 (fun _ => ((Real.sqrt 3 / 2 : ℝ) : ℂ))
      (fun _ => ((Real.sqrt 3 / 2 : ℝ) : ℂ)) p.psi p.theta 1 1 false = .ok x := by
    unfold transfer_2d_4
    simp only [Except.bind_ok, meeinv_false_ok, Except.ok.injEq]
    exact ⟨_, _, ⟨hfin, rfl⟩, rfl⟩
  obtain ⟨x, h4⟩ := h4
  refine ⟨⟨x, [r.2]⟩, (solve_con_iff hp).mpr ⟨by rw [hd]; simp, hf,
    (fun _ => ((Real.sqrt 3 / 2 : ℝ) : ℂ), fun _ => ((Real.sqrt 3 / 2 : ℝ) : ℂ), fun _ => 0,
        ⟨diagonal exF, diagonal exG, diagonal fun _ => 1⟩), (r.1, [r.2]), x, ?_, ?_, ?_, rfl⟩⟩
  · rw [hx, hy, ht, hb]; exact exInitK hk
  · rw [hx, hy, hd]
    simp only [List.zip_cons_cons, List.zip_nil_right]
    exact runLayers_cons.mpr ⟨_, rfl, r, hr, rfl⟩
  · rw [ht, hb]; exact h4

theorem exSolveCon {p : Params} (hp : p.use_pinv = false) (ht : p.n_top = 1) (hb : p.n_bot = 1)
    (hd : p.thickness = [1 / 3]) (hf : p.fto.2 = 0) (hx : kxF p 1 = fun _ => 1 / 2) (hy : kyF p 1 = fun _ => 0) :
    ∃ o, solve_1d_conical exLA p 1 [exC _] = .ok o :=
  exSolveConK (by norm_num) hp ht hb hd hf hx hy

theorem exCon_ok (pol : ℝ) : ∃ o, conv_solve exLA (exSettings pol (some 0)) = .ok (.conical o) := by
  have hg : gratingType (exSettings pol (some 0)) = 1 := by
    simp [gratingType, exSettings, exCell, exParams]
  obtain ⟨o, ho⟩ := exSolveCon (p := exParams pol (some 0)) rfl rfl rfl rfl rfl (exKxF pol) (exKyF pol)
  exact ⟨o, conv_solve_conical.mpr ⟨[exConv], exConvMats pol (some 0), hg, rfl, ho⟩⟩

end Meent
