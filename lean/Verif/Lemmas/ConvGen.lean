import Verif.Lemmas.Fourier
import Verif.Model.Compress

/-!
# Both Fourier paths as one construction (helper lemmas)

`dfs2d` and `cfs2d` are the same two-step Toeplitz construction over two linear functionals.
-/

open Matrix

namespace Meent

set_option linter.unusedSectionVars false
set_option linter.unusedSimpArgs false

/-- Toeplitz matrix of a coefficient functional. -/
def toepL {N : ℕ} (L : (Fin N → ℂ) → ℤ → ℂ) (f : ℕ) (a : Fin N → ℂ) :
    Matrix (Fin (2 * f + 1)) (Fin (2 * f + 1)) ℂ :=
  Matrix.of fun r c => L a ((c.val : ℤ) - (r.val : ℤ))

/-- Two-level Toeplitz matrix of a coefficient functional. -/
def btoepL {N : ℕ} {m : Type} (L : (Fin N → ℂ) → ℤ → ℂ) (f : ℕ) (a : Fin N → Matrix m m ℂ) :
    Matrix (m × Fin (2 * f + 1)) (m × Fin (2 * f + 1)) ℂ :=
  Matrix.of fun r c => L (fun x => a x r.1 c.1) ((c.2.val : ℤ) - (r.2.val : ℤ))

/-- The common construction. -/
noncomputable def genConv {Nx Ny : ℕ} (Lx : (Fin Nx → ℂ) → ℤ → ℂ) (Ly : (Fin Ny → ℂ) → ℤ → ℂ)
    (cx cy : Bool) (fx fy : ℕ) (cell : Fin Nx → Fin Ny → ℂ) :
    Res (Matrix (FlatIdx fx fy) (FlatIdx fx fy) ℂ) := do
  let c ← invRuleY cy cell
  let a ← invIf (cx ^^ cy) (fun x => toepL Ly fy (c x))
  if cx then .ok (flatten4 (btoepL Lx fx a)) else npInv (flatten4 (btoepL Lx fx a))

theorem dfs2d_iff_gen {cell : Raster} {cx cy : Bool} {fx fy : ℕ}
    {m : Matrix (FlatIdx fx fy) (FlatIdx fx fy) ℂ} :
    dfs2d cell cx cy fx fy = .ok m ↔
      2 * fy < cell.ny ∧ 2 * fx < cell.nx ∧
      genConv Spec.dftCoeff Spec.dftCoeff cx cy fx fy (fun x y => cell.val y x) = .ok m := by
  rw [dfs2d_ok]
  unfold genConv
  simp only [Except.bind_ok]
  constructor
  · rintro ⟨c', hc, h1, h2, a, ha, e⟩
    exact ⟨h1 (by omega), h2, c', hc, a, ha, e⟩
  · rintro ⟨h1, h2, c', hc, a, ha, e⟩
    exact ⟨c', hc, fun _ => h1, h2, a, ha, e⟩

/-- The coefficient functional of `_cfs`. -/
noncomputable def cfsC {k : ℕ} [NeZero k] (x : Fin k → ℝ) (period : ℝ) (a : Fin k → ℂ) (m : ℤ) : ℂ :=
  if m = 0 then
    (∑ j : Fin k, a j * ((if j = 0 then x 0 else x j - x (j - 1) : ℝ) : ℂ)) / (period : ℂ)
  else
    (∑ j : Fin k, (a (j + 1) - a j) *
      Complex.exp (-(Complex.I * 2 * Real.pi * (x j : ℂ) * (m : ℂ) / (period : ℂ))))
      / (Complex.I * 2 * Real.pi * (m : ℂ))

theorem cfs1_eq {ι : Type} {k : ℕ} [NeZero k] (x : Fin k → ℝ) (cell : ι → Fin k → ℂ)
    (fto : ℕ) (period : ℝ) (r : ι) (mode : Fin (4 * fto + 1)) :
    cfs1 x cell fto period r mode = cfsC x period (cell r) ((mode : ℤ) - 2 * (fto : ℤ)) := by
  unfold cfs1 cfsC
  have : (((mode : ℕ) : ℤ) - 2 * (fto : ℤ) = 0) ↔ mode.val = 2 * fto := by omega
  simp only [this]

theorem pyIdx_nonneg {N : ℕ} {j : ℤ} (h0 : 0 ≤ j) (h : (pyIdx N j).isSome) :
    (((pyIdx N j).get h).val : ℤ) = j := by
  have h2 := (pyIdx_isSome.mp h).2
  unfold pyIdx at h ⊢
  simp only [h0, h2, and_self, dif_pos, Option.get_some]
  omega

theorem fancy_cfs_ok {ι : Type} {k f : ℕ} [NeZero k] {x : Fin k → ℝ} {cell : ι → Fin k → ℂ}
    {period : ℝ} {r : ι} {m : Matrix (Fin (2 * f + 1)) (Fin (2 * f + 1)) ℂ} :
    fancy (cfs1 x cell f period r)
      (fun (r c : Fin (2 * f + 1)) => circulant r.val c.val + 2 * (f : ℤ)) = .ok m ↔
      m = toepL (cfsC x period) f (cell r) := by
  rw [fancy_ok]
  have key : ∀ (i c : Fin (2 * f + 1)) (h : (pyIdx (4 * f + 1) (circulant i.val c.val + 2 * (f : ℤ))).isSome),
      cfs1 x cell f period r ((pyIdx (4 * f + 1) (circulant i.val c.val + 2 * (f : ℤ))).get h)
        = toepL (cfsC x period) f (cell r) i c := by
    intro i c h
    rw [cfs1_eq, pyIdx_nonneg (by unfold circulant; omega)]
    simp only [toepL, of_apply, circulant]
    congr 1; ring
  constructor
  · rintro ⟨h1, h2⟩
    ext i c
    rw [h2 i c (pyIdx_isSome.mpr (h1 i c)), key]
  · rintro rfl
    refine ⟨fun r c => ?_, fun r c h => ?_⟩
    · unfold circulant; omega
    · rw [key]

theorem cfs2d_eq_gen (cell : VCell) (cx cy : Bool) (fx fy : ℕ)
    (m : Matrix (FlatIdx fx fy) (FlatIdx fx fy) ℂ) :
    cfs2d cell cx cy fx fy = .ok m ↔
      genConv (cfsC cell.x (cell.x (-1))) (cfsC cell.y (cell.y (-1))) cx cy fx fy
        (fun x y => cell.val y x) = .ok m := by
  unfold cfs2d genConv
  simp only [Except.bind_ok, forAllFin_ok, fancy_cfs_ok]
  constructor
  · rintro ⟨c', hc, a, ha, b, hb, d, hd, e⟩
    have ha' : a = fun x => toepL (cfsC cell.y (cell.y (-1))) fy (c' x) := funext ha
    subst ha'
    refine ⟨c', hc, b, hb, ?_⟩
    have hd' : (Matrix.of fun (r c : Fin (2 * fy + 1) × Fin (2 * fx + 1)) => d r.1 c.1 r.2 c.2)
        = btoepL (cfsC cell.x (cell.x (-1))) fx b := by
      ext r c
      simp only [of_apply, (hd r.1 c.1)]
      rfl
    rw [hd'] at e
    exact e
  · rintro ⟨c', hc, a, ha, e⟩
    exact ⟨c', hc, _, fun _ => rfl, a, ha,
      fun r c => toepL (cfsC cell.x (cell.x (-1))) fx (fun x => a x r c), fun _ _ => rfl, e⟩

/-! ### Hermitian -/

/-- Reality of a coefficient functional. -/
def RealFun {N : ℕ} (L : (Fin N → ℂ) → ℤ → ℂ) : Prop :=
  ∀ a j, star (L a j) = L (fun y => star (a y)) (-j)

theorem realFun_dft {N : ℕ} : RealFun (N := N) Spec.dftCoeff := fun a j => dftCoeff_star a j

theorem realFun_cfsC {k : ℕ} [NeZero k] (x : Fin k → ℝ) (period : ℝ) : RealFun (cfsC x period) := by
  intro a j
  unfold cfsC
  by_cases hj : j = 0
  · subst hj
    simp only [neg_zero, if_true, Complex.star_def, map_div₀, map_sum, map_mul, Complex.conj_ofReal]
  · have : -j ≠ 0 := by simpa using hj
    simp only [hj, this, if_false, Complex.star_def, map_div₀, map_sum, map_mul,
      Complex.conj_ofReal, map_sub, ← Complex.exp_conj, map_neg, Complex.conj_I, map_intCast,
      map_ofNat]
    congr 1
    · refine Finset.sum_congr rfl fun y _ => ?_
      congr 2
      push_cast; ring
    · push_cast; ring

theorem toepL_isHermitian {N f : ℕ} {L : (Fin N → ℂ) → ℤ → ℂ} (hL : RealFun L) (a : Fin N → ℂ)
    (h : ∀ x, star (a x) = a x) : (toepL L f a).IsHermitian := by
  ext r c
  simp only [conjTranspose_apply, toepL, of_apply]
  rw [hL]
  simp only [h]
  congr 1
  ring

theorem btoepL_isHermitian {N f : ℕ} {m : Type} {L : (Fin N → ℂ) → ℤ → ℂ} (hL : RealFun L)
    (a : Fin N → Matrix m m ℂ)
    (h : ∀ x, (a x).IsHermitian) : (btoepL L f a).IsHermitian := by
  ext r c
  simp only [conjTranspose_apply, btoepL, of_apply]
  rw [hL]
  congr 1
  · ext x
    exact (h x).apply _ _
  · ring

theorem genConv_isHermitian {Nx Ny : ℕ} {Lx : (Fin Nx → ℂ) → ℤ → ℂ} {Ly : (Fin Ny → ℂ) → ℤ → ℂ}
    (hx : RealFun Lx) (hy : RealFun Ly)
    {cx cy : Bool} {fx fy : ℕ} {cell : Fin Nx → Fin Ny → ℂ}
    {m : Matrix (FlatIdx fx fy) (FlatIdx fx fy) ℂ}
    (hr : ∀ i j, star (cell i j) = cell i j)
    (h : genConv Lx Ly cx cy fx fy cell = .ok m) : m.IsHermitian := by
  unfold genConv at h
  simp only [Except.bind_ok] at h
  obtain ⟨c', hc, a, ha, hm⟩ := h
  have hc' : ∀ x y, star (c' x y) = c' x y := by
    rcases invRuleY_ok.mp hc with ⟨-, rfl⟩ | ⟨-, -, rfl⟩
    · exact hr
    · intro x y; simp only [star_div₀, star_one, hr]
  have ha' : ∀ x, (a x).IsHermitian := by
    rcases invIf_ok.mp ha with ⟨-, rfl⟩ | ⟨-, -, rfl⟩
    · intro x; exact toepL_isHermitian hy _ (hc' x)
    · intro x; exact (toepL_isHermitian hy _ (hc' x)).inv
  have hb := flatten4_isHermitian (fx := fx) (fy := fy) (btoepL_isHermitian (f := fx) hx a ha')
  split at hm
  · simp only [Except.ok.injEq] at hm; subst hm; exact hb
  · obtain ⟨-, rfl⟩ := npInv_ok.mp hm; exact hb.inv

/-! ### Homogeneous -/

/-- A coefficient functional that sends constants to the zeroth order. -/
def UnitFun {N : ℕ} (L : (Fin N → ℂ) → ℤ → ℂ) (f : ℕ) : Prop :=
  ∀ (a : ℂ) (j : ℤ), |j| ≤ 2 * f → L (fun _ => a) j = if j = 0 then a else 0

theorem toepL_const {N f : ℕ} {L : (Fin N → ℂ) → ℤ → ℂ} (hL : UnitFun L f) (a : ℂ) :
    toepL L f (fun _ => a) = a • (1 : Matrix _ _ ℂ) := by
  ext r c
  have hb : |((c.val : ℤ) - (r.val : ℤ))| ≤ 2 * f := by
    rw [abs_le]; omega
  simp only [toepL, of_apply, hL a _ hb, Matrix.smul_apply, Matrix.one_apply, smul_eq_mul]
  by_cases h : r = c
  · simp [h]
  · have : ((c.val : ℤ) - (r.val : ℤ)) ≠ 0 := by
      intro h'; apply h; ext; omega
    simp [h, this]

theorem btoepL_const {N f : ℕ} {m : Type} [DecidableEq m] {L : (Fin N → ℂ) → ℤ → ℂ}
    (hL : UnitFun L f) (a : ℂ) :
    btoepL L f (fun _ => a • (1 : Matrix m m ℂ)) = a • (1 : Matrix _ _ ℂ) := by
  ext r c
  have hb : |((c.2.val : ℤ) - (r.2.val : ℤ))| ≤ 2 * f := by
    rw [abs_le]; omega
  simp only [btoepL, of_apply, hL _ _ hb, Matrix.smul_apply, Matrix.one_apply, smul_eq_mul]
  obtain ⟨r1, r2⟩ := r
  obtain ⟨c1, c2⟩ := c
  by_cases h : r2 = c2
  · simp [h, Prod.ext_iff]
  · have : ((c2.val : ℤ) - (r2.val : ℤ)) ≠ 0 := by
      intro h'; apply h; ext; omega
    simp [h, this]

theorem flatten4_smul_one {fx fy : ℕ} (a : ℂ) :
    flatten4 (fto_x := fx) (fto_y := fy) (a • 1) = a • 1 := by
  unfold flatten4
  have h : (1 : Matrix (Fin (2 * fy + 1) × Fin (2 * fx + 1)) (Fin (2 * fy + 1) × Fin (2 * fx + 1)) ℂ).submatrix
      finProdFinEquiv.symm finProdFinEquiv.symm = (1 : Matrix (FlatIdx fx fy) (FlatIdx fx fy) ℂ) :=
    Matrix.submatrix_one_equiv _
  rw [← h]
  rfl

theorem smul_one_inv {m : Type} [Fintype m] [DecidableEq m] {a : ℂ} (ha : a ≠ 0) :
    (a • (1 : Matrix m m ℂ))⁻¹ = a⁻¹ • 1 := by
  apply Matrix.inv_eq_right_inv
  rw [smul_mul_smul_comm, Matrix.one_mul, mul_inv_cancel₀ ha, one_smul]

theorem isUnit_det_smul_one {m : Type} [Fintype m] [DecidableEq m] {a : ℂ} (ha : a ≠ 0) :
    IsUnit (a • (1 : Matrix m m ℂ)).det := by
  rw [Matrix.det_smul, Matrix.det_one, mul_one]
  exact (pow_ne_zero _ ha).isUnit

/-- A homogeneous cell gives a scalar matrix for every choice of the continuity flags used. -/
theorem genConv_const {Nx Ny : ℕ} {Lx : (Fin Nx → ℂ) → ℤ → ℂ} {Ly : (Fin Ny → ℂ) → ℤ → ℂ}
    {cx cy : Bool} {fx fy : ℕ} (hx : UnitFun Lx fx) (hy : UnitFun Ly fy) {e : ℂ} (he : e ≠ 0)
    (hc : cx = true ∨ cy = true) :
    genConv Lx Ly cx cy fx fy (fun _ _ => e) = .ok (e • 1) := by
  unfold genConv
  have hne : e⁻¹ ≠ 0 := inv_ne_zero he
  rcases cx with _ | _ <;> rcases cy with _ | _ <;> simp at hc
  · -- cx = 0, cy = 1
    have : invRuleY true (fun (_ : Fin Nx) (_ : Fin Ny) => e) = .ok (fun _ _ => e) :=
      invRuleY_ok.mpr (.inl ⟨rfl, rfl⟩)
    rw [this]
    have h2 : invIf (false ^^ true) (fun _ : Fin Nx => toepL Ly fy (fun _ => e))
        = .ok (fun _ => e⁻¹ • 1) := by
      refine invIf_ok.mpr (.inr ⟨rfl, fun i => ?_, ?_⟩)
      · rw [toepL_const hy]; exact isUnit_det_smul_one he
      · funext i; rw [toepL_const hy, smul_one_inv he]
    simp only [bind, Except.bind]
    rw [h2]
    simp only [Bool.false_eq_true, if_false]
    rw [btoepL_const hx, flatten4_smul_one, npInv_ok.mpr ⟨isUnit_det_smul_one hne, rfl⟩,
      smul_one_inv hne, inv_inv]
  · have : invRuleY false (fun (_ : Fin Nx) (_ : Fin Ny) => e) = .ok (fun _ _ => e⁻¹) :=
      invRuleY_ok.mpr (.inr ⟨rfl, fun _ _ => he, by simp⟩)
    rw [this]
    have h2 : invIf (true ^^ false) (fun _ : Fin Nx => toepL Ly fy (fun _ => e⁻¹))
        = .ok (fun _ => e • 1) := by
      refine invIf_ok.mpr (.inr ⟨rfl, fun i => ?_, ?_⟩)
      · rw [toepL_const hy]; exact isUnit_det_smul_one hne
      · funext i; rw [toepL_const hy, smul_one_inv hne, inv_inv]
    simp only [bind, Except.bind]
    rw [h2]
    simp only [if_true]
    rw [btoepL_const hx, flatten4_smul_one]
  · have : invRuleY true (fun (_ : Fin Nx) (_ : Fin Ny) => e) = .ok (fun _ _ => e) :=
      invRuleY_ok.mpr (.inl ⟨rfl, rfl⟩)
    rw [this]
    have h2 : invIf (true ^^ true) (fun _ : Fin Nx => toepL Ly fy (fun _ => e))
        = .ok (fun _ => e • 1) := by
      refine invIf_ok.mpr (.inl ⟨rfl, ?_⟩)
      funext i; rw [toepL_const hy]
    simp only [bind, Except.bind]
    rw [h2]
    simp only [if_true]
    rw [btoepL_const hx, flatten4_smul_one]

theorem unitFun_dft {N f : ℕ} (h : 2 * f < N) : UnitFun (N := N) Spec.dftCoeff f := by
  intro a j hj
  have hN : (N : ℂ) ≠ 0 := by exact_mod_cast (by omega : N ≠ 0)
  unfold Spec.dftCoeff
  by_cases h0 : j = 0
  · subst h0
    simp [hN]
  · simp only [h0, if_false]
    rw [← Finset.mul_sum]
    set z : ℂ := Complex.exp (-(2 * Real.pi * Complex.I * (j : ℂ) / (N : ℂ))) with hz
    have e : ∀ y : Fin N, Complex.exp (-(2 * Real.pi * Complex.I * (j : ℂ) * (y.val : ℂ) / (N : ℂ)))
        = z ^ y.val := by
      intro y
      rw [hz, ← Complex.exp_nat_mul]
      congr 1; ring
    simp only [e]
    have hz1 : z ≠ 1 := by
      intro h1
      rw [hz, Complex.exp_eq_one_iff] at h1
      obtain ⟨n, hn⟩ := h1
      have hpi : (2 * Real.pi * Complex.I : ℂ) ≠ 0 := Complex.two_pi_I_ne_zero
      have : (j : ℂ) = -((n * N : ℤ) : ℂ) := by
        field_simp at hn
        push_cast
        linear_combination -hn
      have h2 : j = -(n * N) := by exact_mod_cast this
      have h3 : (N : ℤ) ∣ j := ⟨-n, by rw [h2]; ring⟩
      have h4 := Int.le_of_dvd (abs_pos.mpr h0) ((dvd_abs _ _).mpr h3)
      omega
    have hs : ∑ y : Fin N, z ^ y.val = 0 := by
      rw [Fin.sum_univ_eq_sum_range (fun k => z ^ k) N, geom_sum_eq hz1]
      have : z ^ N = 1 := by
        rw [hz, ← Complex.exp_nat_mul, Complex.exp_eq_one_iff]
        exact ⟨-j, by field_simp; push_cast; ring⟩
      rw [this]; simp
    rw [hs]; simp

theorem Fin.neg_one_eq_last' {k : ℕ} : (-1 : Fin (k + 1)) = Fin.last k := by
  rw [Fin.ext_iff, Fin.val_last]
  rcases k with _ | k
  · simp
  · simp

theorem cfsC_widths {k : ℕ} [NeZero k] (x : Fin k → ℝ) :
    ∑ j : Fin k, (if j = 0 then x 0 else x j - x (j - 1)) = x (-1) := by
  obtain ⟨k, rfl⟩ : ∃ m, k = m + 1 := ⟨k - 1, by have := NeZero.ne k; omega⟩
  rw [Fin.sum_univ_succ]
  simp only [if_true, Fin.succ_ne_zero, if_false, Fin.neg_one_eq_last']
  have : ∀ j : Fin k, (j.succ - 1 : Fin (k + 1)) = j.castSucc := by
    intro j
    rw [sub_eq_iff_eq_add, Fin.coeSucc_eq_succ]
  simp only [this]
  have h : ∀ (m : ℕ) (y : Fin (m + 1) → ℝ),
      y 0 + ∑ j : Fin m, (y j.succ - y j.castSucc) = y (Fin.last m) := by
    intro m
    induction m with
    | zero => intro y; simp
    | succ m ih =>
      intro y
      rw [Fin.sum_univ_castSucc]
      have := ih (fun i => y i.castSucc)
      simp only [Fin.castSucc_zero, Fin.succ_last, Fin.succ_castSucc] at this ⊢
      linarith
  exact h k x

theorem unitFun_cfsC {k f : ℕ} [NeZero k] {x : Fin k → ℝ} (h : x (-1) ≠ 0) :
    UnitFun (cfsC x (x (-1))) f := by
  intro a j _
  unfold cfsC
  by_cases h0 : j = 0
  · simp only [h0, if_true]
    rw [← Finset.mul_sum, ← Complex.ofReal_sum, cfsC_widths]
    have : ((x (-1) : ℝ) : ℂ) ≠ 0 := by exact_mod_cast h
    field_simp
  · simp [h0]

end Meent
