import Verif.Lemmas.PhiZero
import Verif.Lemmas.Stacks
import Verif.Lemmas.ConTo2D
import Verif.Lemmas.LayerCount
import Verif.Lemmas.Flat
import Verif.Props.C18
import Verif.Spec.Substrate

/-!
# A layer of substrate material (helper lemmas)
-/

open Matrix

namespace Meent

set_option linter.unusedSectionVars false
set_option linter.unusedSimpArgs false

section
variable {n : Type} [Fintype n] [DecidableEq n]

/-- Same fields up to an invertible right factor; the transmission matrices may differ. -/
def FGEquiv (s t : TState n) : Prop := ∃ M : Matrix n n ℂ, IsUnit M.det ∧ t.F = s.F * M ∧ t.G = s.G * M

/-- A step from a state already matched to the layer only changes the representation. -/
theorem StepData.matched {X W V : Matrix n n ℂ} {s s' : TState n} {Ai B : Matrix n n ℂ}
    (h : StepData X W V s s' Ai B) (hm : V * W⁻¹ * s.F = s.G) : FGEquiv s s' := by
  have hB : B = 0 := by
    rw [h.B_eq, ← hm, ← Matrix.mul_assoc, ← Matrix.mul_assoc, nonsing_inv_mul _ h.hV, Matrix.one_mul, sub_self, smul_zero]
  refine ⟨Ai, ?_, ?_, ?_⟩
  · rw [h.Ai_eq]; exact isUnit_nonsing_inv_det_iff.mpr h.hA
  · rw [h.F_Ai, h.s'_eq, hB]; simp
  · rw [h.G_Ai, h.s'_eq, hB]; simp

theorem HasModes.run_withT {C L : Type} {k0 : ℝ} {step : C → ℝ → TState n → Res (TState n × L)} (hm : HasModes k0 step)
    (T0 : Matrix n n ℂ) (xs : List (C × ℝ)) {t : TState n} {ls : List L} {r : TState n × List L}
    (h : runLayers step xs (t, ls) = .ok r) :
    ∃ r', runLayers step xs ({ t with T := T0 }, ls) = .ok r' ∧ r'.1.F = r.1.F ∧ r'.1.G = r.1.G := by
  induction xs generalizing r with
  | nil =>
    simp only [runLayers, Except.ok.injEq] at h ⊢
    subst h
    exact ⟨_, rfl, rfl, rfl⟩
  | cons x xs ih =>
    rw [runLayers_cons] at h
    obtain ⟨a, ha, b, hb, rfl⟩ := h
    obtain ⟨a', ha', e1, e2⟩ := ih ha
    obtain ⟨W, V, q, hiff⟩ := hm x.1 x.2 a.1 b hb
    obtain ⟨Ai, B, hd⟩ := (hiff x.2 a.1 b.1).mp ⟨b.2, hb⟩
    have hA : stepA W V a'.1 = stepA W V a.1 := by simp only [stepA, e1, e2]
    have hd' : StepData (phaseX k0 q x.2) W V a'.1
        ⟨b.1.F, b.1.G, a'.1.T * Ai * phaseX k0 q x.2⟩ Ai B := by
      refine ⟨hd.hW, hd.hV, by rw [hA]; exact hd.hA, by rw [hA]; exact hd.Ai_eq, by rw [e1, e2]; exact hd.B_eq, ?_⟩
      have := hd.s'_eq
      rw [this]
    obtain ⟨l, hl⟩ := (hiff x.2 a'.1 _).mpr ⟨_, _, hd'⟩
    exact ⟨_, runLayers_cons.mpr ⟨a', ha', _, hl, rfl⟩, rfl, rfl⟩

theorem HasModes.run_fg {C L : Type} {k0 : ℝ} {step : C → ℝ → TState n → Res (TState n × L)} (hm : HasModes k0 step)
    (xs : List (C × ℝ)) {s t : TState n} {ls lt : List L} {r : TState n × List L} (he : FGEquiv s t)
    (h : runLayers step xs (t, lt) = .ok r) :
    ∃ r' u, runLayers step xs (s, ls) = .ok r' ∧ SEquiv r'.1 u ∧ u.F = r.1.F ∧ u.G = r.1.G := by
  obtain ⟨M, hM, e1, e2⟩ := he
  obtain ⟨r1, h1, f1, f2⟩ := hm.run_withT (s.T * M) xs h
  have hs : SEquiv s { t with T := s.T * M } := ⟨M, hM, by simp only [TState.rmul, e1, e2]⟩
  obtain ⟨r', h', he'⟩ := hm.run_equiv xs (s := s) (ls := ls) hs h1
  exact ⟨r', r1.1, h', he', f1, f2⟩

end

theorem transfer_1d_4_FG {ff : ℕ} {la : LinAlg} {pol : ℝ} {s t : TState (Fin ff)}
    {kzt kzb : Fin ff → ℂ} {theta nt nb : ℂ} {o : SubRes 1 ff × (Fin ff → ℂ)} (hF : s.F = t.F) (hG : s.G = t.G)
    (h : transfer_1d_4 la pol t kzt kzb theta nt nb false = .ok o) :
    ∃ o', transfer_1d_4 la pol s kzt kzb theta nt nb false = .ok o' ∧ Spec.SameRefl o'.1 o.1 := by
  obtain ⟨F, G, T⟩ := s
  obtain ⟨F', G', T'⟩ := t
  simp only at hF hG
  subst hF hG
  unfold transfer_1d_4 at h ⊢
  by_cases h0 : pol = 0
  · simp only [h0, if_true, Except.bind_ok, meeinv_false_ok] at h ⊢
    obtain ⟨M, hu, T1, e1, e2⟩ := h
    simp only [Except.ok.injEq] at e2 ⊢
    subst e2
    exact ⟨_, ⟨M, hu, T1, Except.ok.inj e1, rfl⟩, ⟨rfl, rfl, rfl, rfl, rfl⟩⟩
  · by_cases h1 : pol = 1
    · simp only [h1, if_true, if_false, Except.bind_ok, meeinv_false_ok, one_ne_zero] at h ⊢
      obtain ⟨M, hu, T1, e1, e2⟩ := h
      simp only [Except.ok.injEq] at e2 ⊢
      subst e2
      exact ⟨_, ⟨M, hu, T1, Except.ok.inj e1, rfl⟩, ⟨rfl, rfl, rfl, rfl, rfl⟩⟩
    · simp only [h0, h1, if_false] at h
      simp [bind, Except.bind] at h

theorem transfer_2d_4_FG {fx fy : ℕ} {la : LinAlg} {s t : TState (FlatIdx fx fy ⊕ FlatIdx fx fy)}
    {kzt kzb : FlatIdx fx fy → ℂ} {psi theta nt nb : ℂ} {o : Out4 fx fy} (hF : s.F = t.F) (hG : s.G = t.G)
    (h : transfer_2d_4 la t kzt kzb psi theta nt nb false = .ok o) :
    ∃ o', transfer_2d_4 la s kzt kzb psi theta nt nb false = .ok o' ∧ Spec.SameRefl o'.res o.res ∧
      Spec.SameRefl o'.res_te o.res_te ∧ Spec.SameRefl o'.res_tm o.res_tm := by
  obtain ⟨F, G, T⟩ := s
  obtain ⟨F', G', T'⟩ := t
  simp only at hF hG
  subst hF hG
  unfold transfer_2d_4 at h ⊢
  simp only [Except.bind_ok, Except.ok.injEq] at h ⊢
  obtain ⟨M, hu, rfl⟩ := h
  exact ⟨_, ⟨M, hu, rfl⟩, ⟨rfl, rfl, rfl, rfl, rfl⟩, ⟨rfl, rfl, rfl, rfl, rfl⟩, ⟨rfl, rfl, rfl, rfl, rfl⟩⟩

/-- On real arguments the cladding branch and the layer branch of the square root agree. -/
theorem I_mul_star_csqrt (x : ℝ) : Complex.I * star (csqrt (x : ℂ)) = csqrt (-(x : ℂ)) := by
  rcases lt_trichotomy x 0 with h | rfl | h
  rotate_left
  · simp [csqrt]
  · have e1 : csqrt (x : ℂ) = (Real.sqrt x : ℂ) := by
      have := csqrt_ofReal_sq (Real.sqrt_nonneg x)
      rw [← Complex.ofReal_pow, Real.sq_sqrt h.le] at this
      exact this
    have e2 : csqrt (-(x : ℂ)) = Complex.I * (Real.sqrt x : ℂ) := by
      have := csqrt_neg_sq (Real.sqrt_pos.mpr h)
      rw [← this]
      congr 1
      rw [← Complex.ofReal_pow, Real.sq_sqrt h.le]
    rw [e1, e2, Complex.star_def, Complex.conj_ofReal]
  · have e1 : csqrt (-(x : ℂ)) = (Real.sqrt (-x) : ℂ) := by
      have := csqrt_ofReal_sq (Real.sqrt_nonneg (-x))
      rw [← Complex.ofReal_pow, Real.sq_sqrt (by linarith), Complex.ofReal_neg] at this
      exact this
    have e2 : csqrt (x : ℂ) = Complex.I * (Real.sqrt (-x) : ℂ) := by
      have := csqrt_neg_sq (Real.sqrt_pos.mpr (neg_pos.mpr h))
      rw [← this]
      congr 1
      rw [← Complex.ofReal_pow, Real.sq_sqrt (by linarith)]
      push_cast; ring
    rw [e1, e2, Complex.star_def, map_mul, Complex.conj_I, Complex.conj_ofReal]
    linear_combination (-(Real.sqrt (-x) : ℂ)) * Complex.I_sq

/-- The scalar convolution matrices over any index type. -/
noncomputable def scalarC (m : Type) [DecidableEq m] (nn : ℂ) : Conv m := ⟨nn ^ 2 • 1, nn ^ 2 • 1, (nn ^ 2)⁻¹ • 1⟩

section
variable {m : Type} [Fintype m] [DecidableEq m]

theorem eigMat_scalar {nn : ℂ} (hn : nn ≠ 0) (pol : ℝ) (kx : m → ℂ) :
    eigMat1d pol kx (scalarC m nn) = diagonal fun i => kx i ^ 2 - nn ^ 2 := by
  have h2 : nn ^ 2 ≠ 0 := pow_ne_zero _ hn
  unfold eigMat1d scalarC
  split
  · ext i j
    simp only [Matrix.sub_apply, Matrix.smul_apply, diagonal_apply, one_apply, smul_eq_mul]
    split <;> ring
  · simp only [Matrix.mul_smul, Matrix.smul_mul, Matrix.mul_one, Matrix.one_mul, diagonal_mul_diagonal]
    ext i j
    simp only [Matrix.sub_apply, Matrix.smul_apply, diagonal_apply, one_apply, smul_eq_mul]
    split
    · field_simp
    · ring

theorem ModeStep.scalar_matched {nn : ℂ} (hn : nn ≠ 0) {pol : ℝ} {kx : m → ℂ} {P : Matrix m m ℂ} {k0 d : ℝ} {s s' : TState m}
    (h : ModeStep (eigMat1d pol kx (scalarC m nn)) P k0 d s s')
    (hm : P * diagonal (fun i => csqrt (kx i ^ 2 - nn ^ 2)) * s.F = s.G) : FGEquiv s s' := by
  obtain ⟨E, l, W, V, X, Ai, B, hE, hl, hs, h1, h2⟩ := h
  refine hs.matched ?_
  rw [eigMat_scalar hn] at hl
  have := fcalc_unique (W' := 1) (l' := fun i => kx i ^ 2 - nn ^ 2) hl (by simp) hE (by simp) csqrt
  rw [h1, this]
  simpa using hm

theorem omega2LR_scalar {nn : ℂ} (hn : nn ≠ 0) (kx ky : m → ℂ) :
    omega2LR kx ky (scalarC m nn)
      = diagonal (fun i : m ⊕ m => Sum.elim kx kx i ^ 2 + Sum.elim ky ky i ^ 2 - nn ^ 2) := by
  have h2 : nn ^ 2 ≠ 0 := pow_ne_zero _ hn
  have hd : (diagonal (fun i : m ⊕ m => Sum.elim kx kx i ^ 2 + Sum.elim ky ky i ^ 2 - nn ^ 2))
      = fromBlocks (diagonal fun i => kx i ^ 2 + ky i ^ 2 - nn ^ 2) 0 0 (diagonal fun i => kx i ^ 2 + ky i ^ 2 - nn ^ 2) := by
    rw [fromBlocks_diagonal]
    congr 1
    funext i
    cases i <;> rfl
  rw [hd]
  unfold omega2LR scalarC
  simp only [Matrix.mul_smul, Matrix.smul_mul, Matrix.mul_one, Matrix.one_mul, diagonal_mul_diagonal, Matrix.mul_sub,
    Matrix.sub_mul, smul_smul]
  congr 1
  · ext i j
    simp only [Matrix.sub_apply, Matrix.add_apply, Matrix.smul_apply, diagonal_apply, one_apply, smul_eq_mul]
    split
    · field_simp; ring
    · ring
  · ext i j
    simp only [Matrix.sub_apply, Matrix.add_apply, Matrix.smul_apply, diagonal_apply, one_apply, smul_eq_mul, Matrix.zero_apply]
    split
    · field_simp; ring
    · ring
  · ext i j
    simp only [Matrix.sub_apply, Matrix.add_apply, Matrix.smul_apply, diagonal_apply, one_apply, smul_eq_mul, Matrix.zero_apply]
    split
    · field_simp; ring
    · ring
  · ext i j
    simp only [Matrix.sub_apply, Matrix.add_apply, Matrix.smul_apply, diagonal_apply, one_apply, smul_eq_mul]
    split
    · field_simp; ring
    · ring

/-- `big_F` and `big_G` of the substrate. -/
noncomputable def subF (nb : ℂ) (kz : m → ℂ) : Matrix (m ⊕ m) (m ⊕ m) ℂ :=
  fromBlocks 1 0 0 (((1 : ℂ) / nb ^ 2) • (Complex.I • diagonal kz))
/-- See `subF`. -/
noncomputable def subG (kz : m → ℂ) : Matrix (m ⊕ m) (m ⊕ m) ℂ := fromBlocks (Complex.I • diagonal kz) 0 0 1

theorem ModePair.scalar_matched {nn : ℂ} (hn : nn ≠ 0) {kx ky varphi kz : m → ℂ}
    {W V : Matrix (m ⊕ m) (m ⊕ m) ℂ} {q : m ⊕ m → ℂ} (h : ModePair kx ky (scalarC m nn) W V q)
    (hb : OnBranch q) (hq : ∀ i, q i ≠ 0) {k0 d : ℝ} {s s' : TState (m ⊕ m)} {Ai B : Matrix (m ⊕ m) (m ⊕ m) ℂ}
    (hs : StepData (phaseX k0 q d) (rotE varphi * W) (rotH varphi * V) s s' Ai B)
    (hrot : ∀ i, Complex.sin (varphi i) * kx i = Complex.cos (varphi i) * ky i)
    (hkz : ∀ i, Complex.I * kz i = csqrt (kx i ^ 2 + ky i ^ 2 - nn ^ 2))
    (hF : s.F = subF nn kz) (hG : s.G = subG kz) : FGEquiv s s' := by
  have h2 : nn ^ 2 ≠ 0 := pow_ne_zero _ hn
  refine hs.matched ?_
  have hW := isUnit_det_of_mul_right hs.hW
  have hE := isUnit_det_of_mul_left hs.hW
  have he := h.eig
  rw [omega2LR_scalar hn] at he
  have f := fcalc_unique (W' := 1) (l' := fun i : m ⊕ m => Sum.elim kx kx i ^ 2 + Sum.elim ky ky i ^ 2 - nn ^ 2)
    he.symm.symm (by simp) hW (by simp)
  have f1 := f fun z => (csqrt z)⁻¹
  simp only [hb _, Matrix.one_mul, inv_one, Matrix.mul_one] at f1
  have hVW : V * W⁻¹ = omegaR kx ky (scalarC m nn)
      * diagonal (fun i => (csqrt (Sum.elim kx kx i ^ 2 + Sum.elim ky ky i ^ 2 - nn ^ 2))⁻¹) := by
    rw [h.V_eq hq, ← f1]
    simp only [Matrix.mul_assoc]
  have hdet : IsUnit (diagonal fun i : m ⊕ m => Sum.elim kx kx i ^ 2 + Sum.elim ky ky i ^ 2 - nn ^ 2).det := by
    have e := congrArg Matrix.det he
    rw [det_mul, det_mul, mul_comm] at e
    rw [mul_left_cancel₀ hW.ne_zero e]
    rw [det_diagonal, isUnit_iff_ne_zero, Finset.prod_ne_zero_iff]
    exact fun i _ => pow_ne_zero _ (hq i)
  have hq0 : ∀ i, csqrt (kx i ^ 2 + ky i ^ 2 - nn ^ 2) ≠ 0 := by
    intro i h0
    have : kx i ^ 2 + ky i ^ 2 - nn ^ 2 = 0 := by rw [← csqrt_sq (kx i ^ 2 + ky i ^ 2 - nn ^ 2), h0]; ring
    rw [det_diagonal, isUnit_iff_ne_zero, Finset.prod_ne_zero_iff] at hdet
    exact hdet (Sum.inl i) (Finset.mem_univ _) this
  set σ : m → ℂ := fun i => csqrt (kx i ^ 2 + ky i ^ 2 - nn ^ 2) with hσ
  have hsq : ∀ i, σ i ^ 2 = kx i ^ 2 + ky i ^ 2 - nn ^ 2 := fun i => csqrt_sq _
  have hd : (diagonal fun i : m ⊕ m => (csqrt (Sum.elim kx kx i ^ 2 + Sum.elim ky ky i ^ 2 - nn ^ 2))⁻¹)
      = fromBlocks (diagonal fun i => (σ i)⁻¹) 0 0 (diagonal fun i => (σ i)⁻¹) := by
    rw [fromBlocks_diagonal]
    congr 1
    funext i
    cases i <;> rfl
  have key : rotH varphi * (V * W⁻¹)
      = fromBlocks (diagonal σ) 0 0 (diagonal fun i => nn ^ 2 * (σ i)⁻¹) * rotE varphi := by
    rw [hVW, hd]
    unfold rotH rotE omegaR scalarC
    simp only [fromBlocks_multiply, Matrix.mul_zero, Matrix.zero_mul, add_zero, zero_add]
    congr 1 <;>
    · ext i j
      rcases eq_or_ne i j with rfl | hij
      · have h1 := hrot i
        have h3 := hsq i
        have h4 := hq0 i
        change σ i ≠ 0 at h4
        simp [Matrix.mul_apply, diagonal_apply, one_apply]
        field_simp
        first
          | linear_combination Complex.sin (varphi i) * h3 + kx i * h1
          | linear_combination -Complex.cos (varphi i) * h3 + ky i * h1
          | linear_combination ky i * h1
          | linear_combination -kx i * h1
      · simp [Matrix.mul_apply, diagonal_apply, one_apply, hij]
  have e1 : rotH varphi * V * (rotE varphi * W)⁻¹ = fromBlocks (diagonal σ) 0 0 (diagonal fun i => nn ^ 2 * (σ i)⁻¹) := by
    rw [Matrix.mul_inv_rev, Matrix.mul_assoc, ← Matrix.mul_assoc V, ← Matrix.mul_assoc, key, Matrix.mul_assoc,
      mul_nonsing_inv _ hE, Matrix.mul_one]
  rw [e1, hF, hG]
  unfold subF subG
  have hk : (Complex.I • diagonal kz : Matrix m m ℂ) = diagonal σ := by
    ext i j
    rcases eq_or_ne i j with rfl | hij
    · simp [hkz, hσ]
    · simp [hij]
  rw [hk, fromBlocks_multiply]
  simp only [Matrix.mul_zero, Matrix.zero_mul, add_zero, zero_add, Matrix.mul_one]
  congr 1
  ext i j
  rcases eq_or_ne i j with rfl | hij
  · have h4 := hq0 i
    change σ i ≠ 0 at h4
    simp
    field_simp
  · simp [hij]

end

theorem varphiAll_rot {m : Type} {kx ky varphi : m → ℂ} (h : varphiAll kx ky = .ok varphi)
    (hx : ∀ i, ∃ r : ℝ, kx i = (r : ℂ)) (hy : ∀ i, ∃ r : ℝ, ky i = (r : ℂ)) (i : m) :
    Complex.sin (varphi i) * kx i = Complex.cos (varphi i) * ky i := by
  unfold varphiAll at h
  split at h
  · rename_i hs
    obtain rfl := Except.ok.inj h
    simp only
    obtain ⟨v, hv⟩ := Option.isSome_iff_exists.mp (hs i)
    rw [Option.get_of_eq_some _ hv]
    obtain ⟨a, ea⟩ := hx i
    obtain ⟨b, eb⟩ := hy i
    unfold varphi1 at hv
    by_cases h0 : kx i = 0
    · rw [if_pos h0] at hv
      by_cases h1 : ky i = 0
      · rw [if_pos h1] at hv; cases hv
      · rw [if_neg h1] at hv
        obtain rfl := Option.some.inj hv
        rw [h0]
        split <;> simp
    · rw [if_neg h0] at hv
      obtain rfl := Option.some.inj hv
      have ha : a ≠ 0 := by rintro rfl; exact h0 (by simpa using ea)
      rw [ea, eb, ← Complex.ofReal_div, ← Complex.ofReal_arctan, ← Complex.ofReal_sin, ← Complex.ofReal_cos,
        ← Complex.ofReal_mul, ← Complex.ofReal_mul, Real.sin_arctan, Real.cos_arctan]
      congr 1
      field_simp
  · cases h

theorem scalarConv_row (fx fy : ℕ) (nn : ℂ) : (Spec.scalarConv fx fy nn).row = scalarC _ nn := by
  have hr : ∀ a : ℂ, ((a • (1 : Matrix (FlatIdx fx fy) (FlatIdx fx fy) ℂ)).submatrix rowIdx rowIdx)
      = a • (1 : Matrix (Fin (2 * fx + 1)) (Fin (2 * fx + 1)) ℂ) := by
    intro a
    ext i j
    simp only [submatrix_apply, Matrix.smul_apply, one_apply, rowIdx_inj.eq_iff]
  unfold Spec.scalarConv scalarC Conv.row
  simp only [hr]

theorem convMats_grounded {la : LinAlg} {s : Settings} {u u' : Structure} {th th' : List ℝ} {nn : ℂ} (hn : nn ≠ 0)
    (hx : s.p.period.1 ≠ 0) (hy : s.p.period.2 ≠ 0)
    (h : Spec.Grounded nn u u') {cs' : List (Conv (FlatIdx s.p.fto.1 s.p.fto.2))}
    (hc : convMats la (Spec.withStack s u' th') = .ok cs') :
    ∃ pre : List (Conv (FlatIdx s.p.fto.1 s.p.fto.2)), cs' = pre ++ [Spec.scalarConv s.p.fto.1 s.p.fto.2 nn] ∧
      pre.length = Spec.layerCount u ∧ convMats la (Spec.withStack s u th) = .ok pre := by
  cases h with
  | @raster ny nx h1 h2 ls =>
    obtain ⟨hf, hm⟩ := (convMats_raster rfl).mp hc
    simp only [Ucell.rasters, List.map_append] at hm
    obtain ⟨a, e, ha, he, rfl⟩ := mapM_append_ok.mp hm
    refine ⟨a, ?_, by simpa [Spec.layerCount] using mapM_length ha,
      (convMats_raster (u := ⟨_, _, ls⟩) rfl).mpr ⟨hf, ha⟩⟩
    obtain ⟨c, e', hc1, hc2, rfl⟩ := mapM_cons_ok.mp he
    obtain rfl : e' = [] := by simpa using mapM_length hc2
    congr 2
    unfold rasterConv at hc1
    split at hc1
    · rw [convDiscrete_const la h1 h2 _ _ _ _ hn] at hc1
      exact (Except.ok.inj hc1).symm
    · have := C18_homogeneous_continuous la ny nx h1 h2 [nn] (by simpa using hn) s.p.fto.1 s.p.fto.2 s.p.use_pinv
      unfold to_conv_mat_raster_continuous at this
      rw [mapM_ok] at this
      simp only [Ucell.rasters, Spec.homogeneousRaster, List.map_cons, List.map_nil] at this
      cases this with
      | cons h _ =>
        erw [hc1] at h
        exact Except.ok.inj h
  | vector ls l hl =>
    obtain ⟨a, e, ha, he, rfl⟩ := mapM_append_ok.mp ((convMats_vector rfl).mp hc)
    refine ⟨a, ?_, by simpa [Spec.layerCount] using mapM_length ha,
      (convMats_vector rfl).mpr ha⟩
    obtain ⟨c, e', hc1, hc2, rfl⟩ := mapM_cons_ok.mp he
    obtain rfl : e' = [] := by simpa using mapM_length hc2
    congr 2
    unfold vecConv at hc1
    simp only [Except.bind_ok] at hc1
    obtain ⟨o, ho, cell, hcell, hcc⟩ := hc1
    have hmv : modeling_vector_instruction s.p.period [l] = .ok [cell] := by
      unfold modeling_vector_instruction
      simp only [Except.bind_ok, mapM_ok]
      refine ⟨[(l.base, o)], .cons ?_ .nil, .cons hcell .nil⟩
      exact ⟨o, ho, rfl⟩
    have h := C18_homogeneous_vector la s.p.period hx hy [nn] (by simpa using hn) [l] (.cons hl .nil)
      s.p.fto.1 s.p.fto.2 s.p.use_pinv [cell] hmv
    unfold to_conv_mat_vector at h
    rw [mapM_ok] at h
    cases h with
    | cons h _ =>
      erw [hcc] at h
      exact Except.ok.inj h

theorem gratingType_grounded {s : Settings} {u u' : Structure} {nn : ℂ} {th th' : List ℝ}
    (h : Spec.Grounded nn u u') :
    gratingType (Spec.withStack s u th) = gratingType (Spec.withStack s u' th') := by
  cases h <;> rfl

section
variable {p : Params} {nt th : ℝ}

theorem I_kz1d {x y : ℝ} {z n : ℂ} (hz : z = (x : ℂ)) (hn : n = (y : ℂ)) :
    Complex.I * star (csqrt (n ^ 2 - z ^ 2)) = csqrt (z ^ 2 - n ^ 2) := by
  subst hz hn
  have := I_mul_star_csqrt (y ^ 2 - x ^ 2)
  push_cast at this
  rw [this]
  congr 1
  ring

theorem I_kz2d {x y w : ℝ} {z v n : ℂ} (hz : z = (x : ℂ)) (hv : v = (w : ℂ)) (hn : n = (y : ℂ)) :
    Complex.I * star (csqrt (n ^ 2 - z ^ 2 - v ^ 2)) = csqrt (z ^ 2 + v ^ 2 - n ^ 2) := by
  subst hz hv hn
  have := I_mul_star_csqrt (y ^ 2 - x ^ 2 - w ^ 2)
  push_cast at this
  rw [this]
  congr 1
  ring

/-- The TE/TM step through substrate material above the substrate. -/
theorem step1d_substrate (hi : RealIncidence p nt th) {la : LinAlg} (hp : p.use_pinv = false) (hphi : p.phi = none) {nb : ℝ}
    (hb : p.n_bot = (nb : ℂ)) (hb0 : p.n_bot ≠ 0) {wl d : ℝ} {init r}
    (hinit : transfer_1d_1 p.pol (kxVec p wl) p.n_top p.n_bot = .ok init)
    (h : step1d la p (2 * Real.pi / wl) (kxVec p wl) (scalarC _ p.n_bot) d init.2.2 = .ok r) :
    FGEquiv init.2.2 r.1 := by
  refine (step1d_mode hp h).scalar_matched hb0 ?_
  have hk : ∀ i, csqrt (kxVec p wl i ^ 2 - p.n_bot ^ 2) = Complex.I * kz1d p.n_bot (kxVec p wl) i := fun i =>
    (I_kz1d (hi.kx_eq hphi wl i) hb).symm
  simp only [hk]
  unfold transfer_1d_1 at hinit
  by_cases h0 : p.pol = 0
  · simp only [h0, if_true, Except.ok.injEq] at hinit ⊢
    subst hinit
    ext i j
    rcases eq_or_ne i j with rfl | hij
    · simp
    · simp [hij]
  · by_cases h1 : p.pol = 1
    · simp only [h1, if_true, if_false, Except.ok.injEq, one_ne_zero] at hinit ⊢
      subst hinit
      have hinv : (scalarC (Fin (2 * p.fto.1 + 1)) p.n_bot).epx⁻¹ = (p.n_bot ^ 2)⁻¹ • 1 := by
        refine inv_eq_right_inv ?_
        simp only [scalarC, Matrix.smul_mul, Matrix.one_mul, smul_smul]
        rw [mul_inv_cancel₀ (pow_ne_zero _ hb0), one_smul]
      rw [hinv]
      ext i j
      rcases eq_or_ne i j with rfl | hij
      · simp; ring
      · simp [hij]
    · simp only [h0, h1, if_false] at hinit
      cases hinit

/-- The 2D step through substrate material above the substrate. -/
theorem step2d_substrate (hi : RealIncidence p nt th) {ph : ℝ} (hphi : p.phi.getD 0 = (ph : ℂ)) {la : LinAlg} {nb : ℝ}
    (hb : p.n_bot = (nb : ℂ)) (hb0 : p.n_bot ≠ 0) {wl d : ℝ} {init r}
    (hinit : transfer_2d_1 (kxF p wl) (kyF p wl) p.n_top p.n_bot = .ok init)
    (h : step2d la false (2 * Real.pi / wl) (kxF p wl) (kyF p wl) init.2.2.1 (scalarC _ p.n_bot) d init.2.2.2 = .ok r) :
    FGEquiv init.2.2.2 r.1 := by
  unfold transfer_2d_1 at hinit
  simp only [Except.bind_ok, Except.ok.injEq] at hinit
  obtain ⟨vf, hvf, rfl⟩ := hinit
  unfold step2d at h
  simp only [Except.bind_ok, transfer_2d_3_eq, Except.ok.injEq, bigW2d_eq, bigV2d_eq] at h
  obtain ⟨M, hM, r3, h3, rfl⟩ := h
  have hd := tmmStep_ok.mp h3
  refine (modePair_2d hM).scalar_matched (kz := kz2d p.n_bot (kxF p wl) (kyF p wl)) hb0 (modes2d_branch hM) (modes2d_q_ne hM) hd
    (varphiAll_rot hvf (hi.kxF_real hphi wl) (hi.kyF_real hphi wl)) ?_ rfl rfl
  intro i
  obtain ⟨x, hx⟩ := hi.kxF_real hphi wl i
  obtain ⟨y, hy⟩ := hi.kyF_real hphi wl i
  exact I_kz2d hx hy hb

/-- The conical step through substrate material above the substrate. -/
theorem stepCon_substrate (hi : RealIncidence p nt th) {ph : ℝ} (hphi : p.phi.getD 0 = (ph : ℂ)) {la : LinAlg} {nb : ℝ}
    (hf : p.fto.2 = 0) (hb : p.n_bot = (nb : ℂ)) (hb0 : p.n_bot ≠ 0) {wl d : ℝ} {init r}
    (hinit : transfer_2d_1 (kxF p wl) (kyF p wl) p.n_top p.n_bot = .ok init)
    (h : stepCon la false (2 * Real.pi / wl) (kxF p wl) (kyF p wl) init.2.2.1 (scalarC _ p.n_bot) d init.2.2.2 = .ok r) :
    FGEquiv init.2.2.2 r.1 := by
  obtain ⟨k, hk⟩ := kyF_const hf wl
  unfold transfer_2d_1 at hinit
  simp only [Except.bind_ok, Except.ok.injEq] at hinit
  obtain ⟨vf, hvf, rfl⟩ := hinit
  unfold stepCon at h
  simp only [Except.bind_ok, transfer_1d_conical_3_eq, Except.ok.injEq] at h
  obtain ⟨M, hM, r3, h3, rfl⟩ := h
  rw [conW_eq, conV_eq] at h3
  have hd := tmmStep_ok.mp h3
  have hW := isUnit_det_of_mul_right hd.hW
  have hV := isUnit_det_of_mul_right hd.hV
  have hz : (scalarC (FlatIdx p.fto.1 p.fto.2) p.n_bot).epzi * (scalarC (FlatIdx p.fto.1 p.fto.2) p.n_bot).epy = 1 := by
    simp only [scalarC, Matrix.smul_mul, Matrix.one_mul, smul_smul]
    rw [inv_mul_cancel₀ (pow_ne_zero _ hb0), one_smul]
  have hq := conModes_q_ne hM hW hV
  have hbr := conModes_branch hM
  have hmp : ModePair (kxF p wl) (kyF p wl) (scalarC _ p.n_bot) (conW0 M) (conV0 M) (Sum.elim M.q1 M.q2) := by
    rw [hk] at hM ⊢
    exact modePair_con hz hM
  refine hmp.scalar_matched (kz := kz2d p.n_bot (kxF p wl) (kyF p wl)) hb0 hbr hq hd
    (varphiAll_rot hvf (hi.kxF_real hphi wl) (hi.kyF_real hphi wl)) ?_ rfl rfl
  intro i
  obtain ⟨x, hx⟩ := hi.kxF_real hphi wl i
  obtain ⟨y, hy⟩ := hi.kyF_real hphi wl i
  exact I_kz2d hx hy hb

end

theorem run_grounded {n : Type} [Fintype n] [DecidableEq n] {C L : Type} {k0 : ℝ}
    {step : C → ℝ → TState n → Res (TState n × L)} (hm : HasModes k0 step) {xs : List (C × ℝ)} {c : C} {d : ℝ}
    {s : TState n} {r : TState n × List L}
    (hstep : ∀ b, step c d s = .ok b → FGEquiv s b.1)
    (h : runLayers step (xs ++ [(c, d)]) (s, []) = .ok r) :
    ∃ r' u, runLayers step xs (s, []) = .ok r' ∧ SEquiv r'.1 u ∧ u.F = r.1.F ∧ u.G = r.1.G := by
  rw [runLayers_append, Except.bind_ok] at h
  obtain ⟨a, ha, h⟩ := h
  obtain ⟨z, hz, b, hb, rfl⟩ := runLayers_cons.mp ha
  obtain rfl := Except.ok.inj hz
  exact hm.run_fg xs (hstep b hb) h

/-- Adding substrate material above the substrate keeps the reflection. -/
theorem conv_solve_grounded {la : LinAlg} {s : Settings} {u u' : Structure} {th : List ℝ} {d : ℝ}
    (hp : s.p.use_pinv = false) (hill : Spec.RealIllumination s.p) (hb : Spec.IsReal s.p.n_bot) (hb0 : s.p.n_bot ≠ 0)
    (hg : Spec.Grounded s.p.n_bot u u') (hth : th.length = Spec.layerCount u)
    {sol' : Solved s.p.fto.1 s.p.fto.2} (h : conv_solve la (Spec.withStack s u' (th ++ [d])) = .ok sol') :
    ∃ sol : Solved s.p.fto.1 s.p.fto.2,
      conv_solve la (Spec.withStack s u th) = .ok sol ∧ Spec.SameReflection sol.result sol'.result := by
  have hgt := gratingType_grounded (s := s) (th := th) (th' := th ++ [d]) hg
  have hconv := fun cs' => convMats_grounded (la := la) (s := s) (th := th) (th' := th ++ [d]) hb0
    hill.period_x_pos.ne' hill.period_y_pos.ne' hg (cs' := cs')
  have hi := RealIncidence.of_spec hill
  have hbr : s.p.n_bot = ((s.p.n_bot.re : ℝ) : ℂ) := Complex.ext rfl hb
  have hphi : s.p.phi.getD 0 = (((s.p.phi.getD 0).re : ℝ) : ℂ) := by
    cases hph : s.p.phi with
    | none => simp
    | some φ => exact Complex.ext rfl (hill.phi_real φ hph)
  have hz : ∀ {α : Type} (pre : List α) (c : α), pre.length = th.length →
      (pre ++ [c]).zip (th ++ [d]) = pre.zip th ++ [(c, d)] := by
    intro α pre c hl
    rw [List.zip_append hl]
    rfl
  cases sol' with
  | tetm o' =>
    obtain ⟨cs', h1, h2, h3, h4⟩ := conv_solve_tetm.mp h
    obtain ⟨pre, rfl, hl, h1'⟩ := hconv cs' h1
    obtain ⟨hl', init, r, x, hin, hr, hx, rfl⟩ := (solve_1d_iff (p := (Spec.withStack s u' (th ++ [d])).p) hp).mp h4
    obtain ⟨-, -, -, -, hph, -⟩ := gratingType_zero h2
    simp only [List.map_append, List.map_cons, List.map_nil, scalarConv_row] at hr
    erw [hz _ _ (by simp [hl, hth])] at hr
    obtain ⟨r', v, hr', he, e1, e2⟩ := run_grounded (hasModes_1d la hp _ _)
      (fun b hb' => step1d_substrate (p := s.p) hi hp hph hbr hb0 hin hb') hr
    obtain ⟨x1, hx1, es⟩ := transfer_1d_4_FG e1 e2 hx
    obtain ⟨x', hx', e⟩ := transfer_1d_4_equiv he hx1
    refine ⟨.tetm ⟨x'.1, x'.2, r'.2⟩, ?_, ?_⟩
    · refine conv_solve_tetm.mpr ⟨pre, h1', hgt.trans h2, h3, ?_⟩
      refine (solve_1d_iff (p := (Spec.withStack s u th).p) hp).mpr ?_
      exact ⟨by simp [hl, hth], init, r', x', hin, hr', hx', rfl⟩
    · refine ⟨.some ?_, .none, .none⟩
      simp only [e]
      obtain ⟨a1, a2, a3, a4, a5⟩ := es
      constructor <;> simp only [SubRes.row1, *]
  | conical o' =>
    obtain ⟨cs', h1, h2, h3, h4⟩ := conv_solve_conical.mp h
    obtain ⟨pre, rfl, hl, h1'⟩ := hconv cs' h1
    obtain ⟨hl', h0, init, r, x, hin, hr, hx, rfl⟩ := (solve_con_iff (p := (Spec.withStack s u' (th ++ [d])).p) hp).mp h4
    erw [hz _ _ (by simp [hl, hth])] at hr
    obtain ⟨r', v, hr', he, e1, e2⟩ := run_grounded (hasModes_con la _ _ _ _)
      (fun b hb' => stepCon_substrate (p := s.p) hi hphi h0 hbr hb0 hin hb') hr
    obtain ⟨x1, hx1, es1, es2, es3⟩ := transfer_2d_4_FG e1 e2 hx
    obtain ⟨x', hx', e⟩ := transfer_2d_4_equiv he hx1
    refine ⟨.conical ⟨x', r'.2⟩, ?_, ?_⟩
    · refine conv_solve_conical.mpr ⟨pre, h1', hgt.trans h2, h3, ?_⟩
      refine (solve_con_iff (p := (Spec.withStack s u th).p) hp).mpr ?_
      exact ⟨by simp [hl, hth], h0, init, r', x', hin, hr', hx', rfl⟩
    · simp only [Out4.results, Prod.mk.injEq] at e
      exact ⟨.some (e.1 ▸ es1), .some (e.2.1 ▸ es2), .some (e.2.2 ▸ es3)⟩
  | conicalSmm =>
    obtain ⟨cs', h1, h2⟩ := conv_solve_ok.mp h
    obtain ⟨h2, h3⟩ := solve_for_conv_smm.mp h2
    obtain ⟨pre, -, -, h1'⟩ := hconv cs' h1
    exact ⟨.conicalSmm, conv_solve_ok.mpr ⟨pre, h1', solve_for_conv_smm.mpr ⟨hgt.trans h2, h3⟩⟩, .none, .none, .none⟩
  | twoD o' =>
    obtain ⟨cs', h1, h2, h3, h4⟩ := conv_solve_twoD.mp h
    obtain ⟨pre, rfl, hl, h1'⟩ := hconv cs' h1
    obtain ⟨hl', init, r, x, hin, hr, hx, rfl⟩ := (solve_2d_iff (p := (Spec.withStack s u' (th ++ [d])).p) hp).mp h4
    erw [hz _ _ (by simp [hl, hth])] at hr
    obtain ⟨r', v, hr', he, e1, e2⟩ := run_grounded (hasModes_2d la _ _ _ _)
      (fun b hb' => step2d_substrate (p := s.p) hi hphi hbr hb0 hin hb') hr
    obtain ⟨x1, hx1, es1, es2, es3⟩ := transfer_2d_4_FG e1 e2 hx
    obtain ⟨x', hx', e⟩ := transfer_2d_4_equiv he hx1
    refine ⟨.twoD ⟨x', r'.2⟩, ?_, ?_⟩
    · refine conv_solve_twoD.mpr ⟨pre, h1', hgt.trans h2, h3, ?_⟩
      refine (solve_2d_iff (p := (Spec.withStack s u th).p) hp).mpr ?_
      exact ⟨by simp [hl, hth], init, r', x', hin, hr', hx', rfl⟩
    · simp only [Out4.results, Prod.mk.injEq] at e
      exact ⟨.some (e.1 ▸ es1), .some (e.2.1 ▸ es2), .some (e.2.2 ▸ es3)⟩

end Meent
