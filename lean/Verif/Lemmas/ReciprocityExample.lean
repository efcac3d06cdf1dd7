import Verif.Lemmas.ReciprocitySolve
import Verif.Lemmas.Example2D
import Verif.Props.C13

/-!
# The example problems lit from the opposite side (helper lemmas)
-/

open Matrix

namespace Meent

set_option linter.unusedSectionVars false
set_option linter.unusedSimpArgs false

theorem exParams_real (pol : ℝ) (phi : Option ℂ) (hphi : ∀ φ, phi = some φ → Spec.IsReal φ) :
    Spec.RealIllumination (exParams pol phi) := (exSettings_lossless pol phi hphi).toRealIllumination

/-- The example parameters with the light coming from the other side. -/
noncomputable def oppParams (pol : ℝ) (phi : Option ℂ) : Params := { exParams pol phi with theta := -((Real.pi / 6 : ℝ) : ℂ) }

theorem oppIncidence (pol : ℝ) (phi : Option ℂ) : RealIncidence (oppParams pol phi) 1 (-(Real.pi / 6)) := by
  have := Real.pi_pos
  refine ⟨by simp [oppParams, exParams], by norm_num, ?_, by linarith, by linarith⟩
  simp only [oppParams]; push_cast; ring

theorem oppKx (pol : ℝ) (i : Fin (2 * (oppParams pol none).fto.1 + 1)) :
    kxVec (oppParams pol none) 1 i = -(1 / 2) := by
  rw [(oppIncidence pol none).kx_eq rfl]
  have : ((i : ℕ) : ℤ) - (((oppParams pol none).fto.1 : ℕ) : ℤ) = 0 := by
    have := i.2
    simp only [oppParams, exParams] at this ⊢
    omega
  rw [this, Real.sin_neg, Real.sin_pi_div_six]
  push_cast
  norm_num

theorem oppKz (pol : ℝ) (i : Fin (2 * (oppParams pol none).fto.1 + 1)) :
    kz1d 1 (kxVec (oppParams pol none) 1) i = ((Real.sqrt 3 / 2 : ℝ) : ℂ) := by
  unfold kz1d
  rw [oppKx, neg_sq]
  exact (congrArg (fun k : ℂ => star (csqrt (1 ^ 2 - k ^ 2))) (exKx pol i)).symm.trans (exKz pol i)

theorem oppKxF (pol : ℝ) : kxF (oppParams pol (some 0)) 1 = fun _ => -(1 / 2) := by
  funext i
  unfold kxF tileX
  have h := (oppIncidence pol (some 0)).kx_eq' (ph := 0) (by simp [oppParams, exParams]) 1 (i.modNat)
  rw [h]
  have : ((i.modNat (m := 2 * (oppParams pol (some 0)).fto.2 + 1) (n := 2 * (oppParams pol (some 0)).fto.1 + 1) : ℕ) : ℤ)
      - (((oppParams pol (some 0)).fto.1 : ℕ) : ℤ) = 0 := by
    have := (i.modNat (m := 2 * (oppParams pol (some 0)).fto.2 + 1) (n := 2 * (oppParams pol (some 0)).fto.1 + 1)).2
    simp only [oppParams, exParams] at this ⊢
    omega
  rw [this, Real.sin_neg, Real.sin_pi_div_six]
  push_cast
  norm_num

theorem oppKyF (pol : ℝ) : kyF (oppParams pol (some 0)) 1 = fun _ => 0 := by
  funext i
  unfold kyF tileY
  have h := (oppIncidence pol (some 0)).ky_eq' (ph := 0) (by simp [oppParams, exParams]) 1 (i.divNat)
  rw [h]
  have : ((i.divNat (m := 2 * (oppParams pol (some 0)).fto.2 + 1) (n := 2 * (oppParams pol (some 0)).fto.1 + 1) : ℕ) : ℤ)
      - (((oppParams pol (some 0)).fto.2 : ℕ) : ℤ) = 0 := by
    have := (i.divNat (m := 2 * (oppParams pol (some 0)).fto.2 + 1) (n := 2 * (oppParams pol (some 0)).fto.1 + 1)).2
    simp only [oppParams, exParams] at this ⊢
    omega
  rw [this]
  simp

theorem dq_neg (pol : ℝ) (k a b e : ℂ) : dq pol (-k) a b e = dq pol k a b e := by
  unfold dq
  rw [neg_sq, show -k * e * -k = k * e * k by ring]

theorem dv_neg (pol : ℝ) (k a b e : ℂ) : dv pol (-k) a b e = dv pol k a b e := by
  unfold dv; rw [dq_neg]

theorem ex1d_opp_ok {pol : ℝ} (hpol : pol = 0 ∨ pol = 1) {q v : ℝ} (hv : 0 < v)
    (hq' : dq pol (1 / 2) (8 / 5) (5 / 2) (2 / 5) = Complex.I * q)
    (hv' : dv pol (1 / 2) (8 / 5) (5 / 2) (2 / 5) = Complex.I * v) :
    ∃ o, conv_solve exLA (Spec.opposite (exSettings pol none)) = .ok (.tetm o) := by
  have hy : ∀ z : ℂ, dy pol z 1 = z := by intro z; simp [dy]
  have h : ∃ o, solve_1d exLA (oppParams pol none) 1
      [⟨diagonal fun _ => 8 / 5, diagonal fun _ => 5 / 2, diagonal fun _ => 2 / 5⟩] = .ok o := by
    have hs := exScalars hv
    refine solve_1d_diag_ok rfl hpol rfl _ _ _ (fun _ => by norm_num) ?_ ?_ ?_ []
    · intro i
      simp only [oppKx, show (oppParams pol none).pol = pol from rfl, dv_neg, hv']
      exact mul_ne_zero Complex.I_ne_zero (by exact_mod_cast hv.ne')
    · intro i
      simp only [oppKx, show (oppParams pol none).pol = pol from rfl, dv_neg, hv',
        show (oppParams pol none).n_bot = 1 from rfl, oppKz, hy]
      exact hs.1
    · intro i
      simp only [oppKx, show (oppParams pol none).pol = pol from rfl, dv_neg, dq_neg, hv', hq',
        show (oppParams pol none).n_bot = 1 from rfl,
        show (oppParams pol none).n_top = 1 from rfl, oppKz, hy]
      exact hs.2 _ (exPhase _ _ _)
  obtain ⟨o, ho⟩ := h
  refine ⟨o, conv_solve_tetm.mpr ⟨[exConv], exConvMats pol none, exSettings_grating pol hpol, rfl, ?_⟩⟩
  have : [exConv].map Conv.row = [(⟨diagonal fun _ => 8 / 5, diagonal fun _ => 5 / 2, diagonal fun _ => 2 / 5⟩ :
      Conv (Fin (2 * 0 + 1)))] := by simp only [List.map_cons, List.map_nil, exConv_row]
  exact (congrArg (solve_1d exLA (oppParams pol none) 1) this).trans ho

theorem exTE_opp_ok : ∃ o, conv_solve exLA (Spec.opposite (exSettings 0 none)) = .ok (.tetm o) := by
  have hq : dq 0 (1 / 2) (8 / 5) (5 / 2) (2 / 5) = Complex.I * ((3 / 2 : ℝ) : ℂ) := by
    unfold dq
    rw [if_pos rfl, ← csqrt_neg_sq (by norm_num)]
    congr 1; push_cast; norm_num
  exact ex1d_opp_ok (.inl rfl) (q := 3 / 2) (v := 3 / 2) (by norm_num) hq (by unfold dv; rw [if_pos rfl, hq])

theorem exTM_opp_ok : ∃ o, conv_solve exLA (Spec.opposite (exSettings 1 none)) = .ok (.tetm o) := by
  have hq : dq 1 (1 / 2) (8 / 5) (5 / 2) (2 / 5) = Complex.I * ((6 / 5 : ℝ) : ℂ) := by
    unfold dq
    rw [if_neg one_ne_zero, ← csqrt_neg_sq (by norm_num)]
    congr 1; push_cast; norm_num
  refine ex1d_opp_ok (.inr rfl) (q := 6 / 5) (v := 3 / 4) (by norm_num) hq ?_
  unfold dv
  rw [if_neg one_ne_zero, hq]; push_cast; ring

theorem exCon_opp_ok (pol : ℝ) : ∃ o, conv_solve exLA (Spec.opposite (exSettings pol (some 0))) = .ok (.conical o) := by
  have hr := exParams_real pol (some 0) (by intro φ h; cases h; rfl)
  have hg : gratingType (Spec.opposite (exSettings pol (some 0))) = 1 := by
    simp [gratingType, exSettings, exCell, exParams]
  obtain ⟨o, ho⟩ := exSolveConK (k := -(1 / 2)) (by norm_num) (p := oppParams pol (some 0)) rfl rfl rfl rfl rfl
    (oppKxF pol) (oppKyF pol)
  exact ⟨o, conv_solve_conical.mpr ⟨[exConv], exConvMats pol (some 0), hg, rfl, ho⟩⟩

theorem exTwoD_opp_ok (pol : ℝ) : ∃ o, conv_solve exLA
    (Spec.opposite (Spec.withUcell (exSettings pol (some 0)) (Spec.yInvariant 2 2 [exRow]))) = .ok (.twoD o) := by
  obtain ⟨o, ho⟩ := exCon_opp_ok pol
  have hg : gratingType (Spec.opposite (exSettings pol (some 0))) = 1 := by
    simp [gratingType, exSettings, exCell, exParams]
  obtain ⟨sol', h', -⟩ := C13_conical_eq_2d_success exLA exLA exLA_basis (Spec.opposite (exSettings pol (some 0))) rfl rfl 2 2 le_rfl
    [exRow] hg _ ho
  obtain ⟨-, o', rfl⟩ := C13_conical_eq_2d exLA exLA (Spec.opposite (exSettings pol (some 0))) rfl rfl 2 2 le_rfl
    [exRow] hg _ _ ho h'
  exact ⟨o', h'⟩

end Meent
