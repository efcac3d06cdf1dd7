import Verif.Lemmas.Branch
import Verif.Lemmas.Pinv
import Verif.Lemmas.Shift
import Verif.Spec.Backends

/-!
# NumPy success implies PyTorch success with the same numbers (helper lemmas)
-/

set_option linter.unusedSectionVars false
set_option linter.unusedSimpArgs false
set_option linter.unusedVariables false

open Matrix

namespace Meent

variable {n : Type} [Fintype n] [DecidableEq n]

theorem tMeeinv_of_ok {la : LinAlg} {A M : Matrix n n ℂ} {u : Bool} (h : meeinv la A u = .ok M) :
    tMeeinv la A u = M := by
  unfold meeinv at h
  unfold tMeeinv
  cases u
  · simp only [Bool.false_eq_true, if_false] at h ⊢
    unfold npInv at h
    split_ifs at h with hu
    · rw [if_pos hu]
      exact Except.ok.inj h
  · simp only [if_true] at h ⊢
    exact Except.ok.inj h

theorem tTmmStep_of_ok {la : LinAlg} {u : Bool} {X W V : Matrix n n ℂ} {s : TState n} {r}
    (h : tmmStep la u X W V s = .ok r) : tTmmStep la u X W V s = r := by
  unfold tmmStep at h
  simp only [Except.bind_ok, Except.ok.injEq] at h
  obtain ⟨Wi, h1, Vi, h2, Ai, h3, rfl⟩ := h
  unfold tTmmStep
  simp only [tMeeinv_of_ok h1, tMeeinv_of_ok h2, tMeeinv_of_ok h3]

theorem refines_t1d_2 (la : LinAlg) (pol : ℝ) (kx : n → ℂ) (c : Conv n) (u : Bool) :
    Refines (transfer_1d_2 la pol kx c u) (tTransfer_1d_2 la pol kx c u) := by
  unfold transfer_1d_2 tTransfer_1d_2
  by_cases h0 : pol = 0
  · simp only [h0, if_true]; exact .refl _
  · by_cases h1 : pol = 1
    · simp only [h1, one_ne_zero, if_true, if_false]
      intro a ha
      obtain ⟨M, hM, ha⟩ := Except.bind_ok.mp ha
      rw [tMeeinv_of_ok hM]
      exact ha
    · simp only [h0, h1, if_false]; exact .refl _

theorem refines_tStep1d (la : LinAlg) (p : Params) (k0 : ℝ) (kx : n → ℂ) (c : Conv n) (d : ℝ) (s : TState n) :
    Refines (step1d la p k0 kx c d s) (tStep1d la p k0 kx c d s) := by
  unfold step1d tStep1d transfer_1d_3
  refine (refines_t1d_2 la _ _ _ _).bind fun m => ?_
  intro a ha
  obtain ⟨r, hr, ha⟩ := Except.bind_ok.mp ha
  rw [tTmmStep_of_ok hr]
  exact ha

theorem refines_tStepCon (la : LinAlg) (u : Bool) (k0 : ℝ) (kx ky varphi : n → ℂ) (c : Conv n) (d : ℝ)
    (s : TState (n ⊕ n)) :
    Refines (stepCon la u k0 kx ky varphi c d s) (tStepCon la u k0 kx ky varphi c d s) := by
  unfold stepCon tStepCon transfer_1d_conical_3 tTransfer_1d_conical_3
  intro a ha
  obtain ⟨M, hM, ha⟩ := Except.bind_ok.mp ha
  obtain ⟨r, hr, ha⟩ := Except.bind_ok.mp ha
  have e : tTransfer_1d_conical_2 la kx ky c u = M := by
    unfold transfer_1d_conical_2 at hM
    simp only [Except.bind_ok, Except.ok.injEq] at hM
    obtain ⟨Ai, h1, Bi, h2, rfl⟩ := hM
    unfold tTransfer_1d_conical_2
    simp only [tMeeinv_of_ok h1, tMeeinv_of_ok h2]
  simp only [e, tTmmStep_of_ok hr]
  exact ha

/-- Every mode of a layer is away from the clamp of the PyTorch code. -/
def NoClamp {m k : Type} (l : LayerInfo m k) : Prop := ∀ i, 1 / 10 ^ 10 ≤ ‖l.modes.q i‖

theorem clampQ_eq {q : ℂ} (h : 1 / 10 ^ 10 ≤ ‖q‖) : clampQ q = q := if_neg (not_lt.mpr h)

theorem meeinv_diag_of_ne {la : LinAlg} {q : n → ℂ} {u : Bool} (h : ∀ i, q i ≠ 0) {M}
    (hM : meeinv la (diagonal q) u = .ok M) : M = diagonal (fun i => 1 / q i) := by
  have hd : IsUnit (diagonal q).det := by
    rw [det_diagonal, isUnit_iff_ne_zero]
    exact Finset.prod_ne_zero_iff.mpr fun i _ => h i
  have hinv : (diagonal q)⁻¹ = diagonal (fun i => 1 / q i) := by
    apply inv_eq_left_inv
    rw [diagonal_mul_diagonal]
    simp only [one_div, inv_mul_cancel₀ (h _)]
    exact diagonal_one
  cases u
  · obtain ⟨-, rfl⟩ := meeinv_false_ok.mp hM
    exact hinv
  · unfold meeinv at hM
    simp only [if_true, Except.ok.injEq] at hM
    rw [← hM, la.pinv_law _ hd, hinv]

theorem tStep2d_of_ok (la : LinAlg) (u : Bool) (k0 : ℝ) (kx ky varphi : n → ℂ) (c : Conv n) (d : ℝ)
    (s : TState (n ⊕ n)) (r) (h : step2d la u k0 kx ky varphi c d s = .ok r) (hr : NoClamp r.2) :
    tStep2d la u k0 kx ky varphi c d s = .ok r := by
  unfold step2d at h
  obtain ⟨M, hM, h⟩ := Except.bind_ok.mp h
  obtain ⟨x, hx, h⟩ := Except.bind_ok.mp h
  cases h
  have e : tTransfer_2d_2 la kx ky c = M := by
    unfold transfer_2d_2 at hM
    obtain ⟨Qi, hQ, hM⟩ := Except.bind_ok.mp hM
    cases hM
    have hq : ∀ i, 1 / 10 ^ 10 ≤ ‖csqrt ((la.eig (omega2LR kx ky c)).1 i)‖ := hr
    unfold tTransfer_2d_2
    have hne : ∀ i, csqrt ((la.eig (omega2LR kx ky c)).1 i) ≠ 0 := by
      intro i h0
      have := hq i
      rw [h0, norm_zero] at this
      norm_num at this
    rw [meeinv_diag_of_ne hne hQ]
    simp only [clampQ_eq (hq _)]
  unfold tStep2d
  simp only [e]
  unfold tTransfer_2d_3
  rw [show tTmmStep la u _ _ _ s = x from tTmmStep_of_ok hx]

theorem layerLoop_prefix {S C L : Type} {step : C → ℝ → S → Res (S × L)} {convs : List C} {th : List ℝ} :
    ∀ {k : ℕ} {s r : S × List L}, layerLoop step convs th k s = .ok r → ∀ l ∈ s.2, l ∈ r.2
  | 0, s, r, h => by cases h; exact fun l hl => hl
  | k + 1, s, r, h => by
    simp only [layerLoop, Except.bind_ok] at h
    obtain ⟨c, -, d, -, x, -, h⟩ := h
    intro l hl
    exact layerLoop_prefix h l (List.mem_append_left _ hl)

theorem layerLoop_of_ok {S C L : Type} {step step' : C → ℝ → S → Res (S × L)} {P : L → Prop}
    (hs : ∀ c d s r, step c d s = .ok r → P r.2 → step' c d s = .ok r) {convs : List C} {th : List ℝ} :
    ∀ {k : ℕ} {s r : S × List L}, layerLoop step convs th k s = .ok r → (∀ l ∈ r.2, P l) →
      layerLoop step' convs th k s = .ok r
  | 0, s, r, h, _ => h
  | k + 1, s, r, h, hP => by
    simp only [layerLoop, Except.bind_ok] at h ⊢
    obtain ⟨c, hc, d, hd, x, hx, h⟩ := h
    refine ⟨c, hc, d, hd, x, hs _ _ _ _ hx ?_, layerLoop_of_ok hs h hP⟩
    exact hP _ (layerLoop_prefix h _ (by simp))

theorem refines_tConvMats (la : LinAlg) (s : Settings) :
    Refines (α := List (Conv (FlatIdx s.p.fto.1 s.p.fto.2))) (convMats la s) (tConvMats la s.torch) := by
  have hd : ∀ l fx fy e u, Refines (convDiscrete la l fx fy e u) (tConvDiscrete la l l l fx fy e u) := by
    intro l fx fy e u
    unfold convDiscrete tConvDiscrete
    refine (Refines.refl _).bind fun _ => (Refines.refl _).bind fun _ => (Refines.refl _).bind fun _ => ?_
    intro a ha
    obtain ⟨M, hM, ha⟩ := Except.bind_ok.mp ha
    rw [tMeeinv_of_ok hM]
    exact ha
  have hc : ∀ c fx fy u, Refines (convContinuous la c fx fy u) (tConvContinuous la c c c fx fy u) := by
    intro c fx fy u
    unfold convContinuous tConvContinuous
    refine (Refines.refl _).bind fun _ => (Refines.refl _).bind fun _ => (Refines.refl _).bind fun _ => ?_
    intro a ha
    obtain ⟨M, hM, ha⟩ := Except.bind_ok.mp ha
    rw [tMeeinv_of_ok hM]
    exact ha
  have hr : ∀ l fx fy u, Refines (convRasterContinuous la l fx fy u) (tConvRasterContinuous la l l l fx fy u) := by
    intro l fx fy u a ha
    unfold convRasterContinuous at ha
    obtain ⟨c, hcc, ha⟩ := Except.bind_ok.mp ha
    unfold tConvRasterContinuous
    simp only [hcc, bind, Except.bind]
    exact hc _ _ _ _ _ ha
  unfold convMats tConvMats Settings.torch
  rcases hu : s.ucell with u | ls
  · simp only [TStructure.components]
    unfold to_conv_mat_raster_discrete to_conv_mat_raster_continuous
    split_ifs
    · intro r hr
      rw [mapM_ok] at hr ⊢
      rw [List.forall₂_map_left_iff]
      exact hr.imp fun a b => hd _ _ _ _ _ _
    · intro r hr'
      rw [mapM_ok] at hr' ⊢
      rw [List.forall₂_map_left_iff]
      exact hr'.imp fun a b => hr _ _ _ _ _
    · exact .refl _
  · simp only [TStructure.components]
    exact (Refines.refl _).bind fun _ => Refines.mapM (fun c => hc _ _ _ _) _

variable {p : Params}

theorem LosslessCladdings.top (h : Spec.LosslessCladdings p) : Spec.PassiveIndex p.n_top :=
  ⟨h.n_top_pos, le_of_eq h.n_top_real⟩

theorem LosslessCladdings.bot (h : Spec.LosslessCladdings p) : Spec.PassiveIndex p.n_bot :=
  ⟨h.n_bot_pos, le_of_eq h.n_bot_real⟩

theorem tKz1d_eq (h : Spec.RealIllumination p) {nn : ℂ} (hn : Spec.PassiveIndex nn) (hr : nn.im = 0) :
    tKz1d nn (kxVec p p.wavelength) = kz1d nn (kxVec p p.wavelength) := by
  funext i
  rw [tKz1d_real _ _ i _ (kxVec_order h i), kz1d_real _ _ i _ (kxVec_order h i), star_csqrt_phys hn hr]

theorem tKz2d_eq (h : Spec.RealIllumination p) {nn : ℂ} (hn : Spec.PassiveIndex nn) (hr : nn.im = 0) :
    tKz2d nn (kxF p p.wavelength) (kyF p p.wavelength) = kz2d nn (kxF p p.wavelength) (kyF p p.wavelength) := by
  funext l
  obtain ⟨⟨j, i⟩, rfl⟩ := finProdFinEquiv.surjective l
  rw [tKz2d_real _ _ _ _ _ _ (kxF_order h j i) (kyF_order h j i),
    kz2d_real _ _ _ _ _ _ (kxF_order h j i) (kyF_order h j i), star_csqrt_phys hn hr]

theorem tTransfer_1d_1_eq (h : Spec.LosslessCladdings p) :
    tTransfer_1d_1 p.pol (tKxVec p p.wavelength) p.n_top p.n_bot
      = transfer_1d_1 p.pol (kxVec p p.wavelength) p.n_top p.n_bot := by
  unfold tTransfer_1d_1 transfer_1d_1
  rw [tKxVec_eq h.toRealIllumination, tKz1d_eq h.toRealIllumination (LosslessCladdings.top h) h.n_top_real,
    tKz1d_eq h.toRealIllumination (LosslessCladdings.bot h) h.n_bot_real]

theorem tTransfer_2d_1_eq (h : Spec.LosslessCladdings p) :
    tTransfer_2d_1 (tileX (fy := p.fto.2) (tKxVec p p.wavelength)) (tileY (fx := p.fto.1) (tKyVec p p.wavelength))
        p.n_top p.n_bot
      = transfer_2d_1 (kxF p p.wavelength) (kyF p p.wavelength) p.n_top p.n_bot := by
  unfold tTransfer_2d_1 transfer_2d_1
  rw [tKxVec_eq h.toRealIllumination, tKyVec_eq h.toRealIllumination,
    tKz2d_eq h.toRealIllumination (LosslessCladdings.top h) h.n_top_real,
    tKz2d_eq h.toRealIllumination (LosslessCladdings.bot h) h.n_bot_real]

theorem branchSign_cases (z : ℂ) : branchSign z = 1 ∨ branchSign z = -1 := by
  unfold branchSign; split_ifs <;> simp

theorem phaseConv_signs {fx : ℕ} (kx : Fin (2 * fx + 1) → ℂ) : Spec.IsSigns (phaseConv kx) := by
  intro i
  unfold phaseConv
  rcases branchSign_cases (kx i) with h | h <;>
    rcases branchSign_cases (kx ⟨(2 * fx + 1) / 2, Nat.div_lt_self (by omega) (by omega)⟩) with h' | h' <;>
    simp [h, h']

theorem sign_normSq {z : ℂ} (h : z = 1 ∨ z = -1) : Complex.normSq z = 1 := by
  rcases h with rfl | rfl <;> simp

theorem effOf_congr {r r' w w' : ℂ} (h : Complex.normSq r' * w'.re = Complex.normSq r * w.re) :
    effOf r' w' = effOf r w := by
  rw [effOf_eq, effOf_eq, h]

theorem normSq_star (z : ℂ) : Complex.normSq (star z) = Complex.normSq z := Complex.normSq_conj z

theorem tTransfer_1d_4_of_ok {fx : ℕ} {la : LinAlg} {pol : ℝ} {s : TState (Fin (2 * fx + 1))}
    (kx : Fin (2 * fx + 1) → ℂ) {kzt kzb : Fin (2 * fx + 1) → ℂ} {theta nt nb : ℂ} {u : Bool} {x}
    (h : transfer_1d_4 la pol s kzt kzb theta nt nb u = .ok x) :
    ∃ x', tTransfer_1d_4 la pol s kx kzt kzb theta nt nb u = .ok x' ∧ x'.2 = x.2 ∧
      Spec.SameEff x.1 x'.1 ∧ Spec.ConjAmplitudes (phaseConv kx) 1 1 x.1 x'.1 := by
  have hs := phaseConv_signs kx
  have he : ∀ (z w : ℂ) i, effOf (star z * phaseConv kx i) w = effOf z w := by
    intro z w i
    apply effOf_congr
    rw [Complex.normSq_mul, sign_normSq (hs i), normSq_star, mul_one]
  unfold transfer_1d_4 at h
  unfold tTransfer_1d_4
  by_cases h0 : pol = 0
  · simp only [h0, if_true, Except.bind_ok, Except.ok.injEq] at h ⊢
    obtain ⟨M, hM, T1, rfl, rfl⟩ := h
    rw [tMeeinv_of_ok hM]
    refine ⟨_, ⟨_, rfl, rfl⟩, rfl, ?_, ?_⟩
    · constructor <;> simp only [he]
    · constructor <;> intros <;> simp [mul_comm]
  · by_cases h1 : pol = 1
    · simp only [h1, one_ne_zero, if_true, if_false, Except.bind_ok, Except.ok.injEq] at h ⊢
      obtain ⟨M, hM, T1, rfl, rfl⟩ := h
      rw [tMeeinv_of_ok hM]
      refine ⟨_, ⟨_, rfl, rfl⟩, rfl, ?_, ?_⟩
      · constructor <;> simp only [he]
      · constructor <;> intros <;> simp [mul_comm]
    · simp only [h0, h1, if_false, bind, Except.bind] at h
      cases h

theorem tSolve_1d_of_ok {la : LinAlg} (h : Spec.LosslessCladdings p) {convs o}
    (ho : solve_1d la p p.wavelength convs = .ok o) :
    ∃ o', tSolve_1d la p p.wavelength convs = .ok o' ∧ o'.T1 = o.T1 ∧ o'.infos = o.infos ∧
      Spec.SameEff o.res o'.res ∧ Spec.ConjAmplitudes (phaseConv (tKxVec p p.wavelength)) 1 1 o.res o'.res := by
  unfold solve_1d at ho
  simp only [Except.bind_ok, Except.ok.injEq] at ho
  obtain ⟨init, h1, r, h2, x, h3, rfl⟩ := ho
  obtain ⟨x', h4, e1, e2, e3⟩ := tTransfer_1d_4_of_ok (tKxVec p p.wavelength) h3
  unfold tSolve_1d
  refine ⟨⟨x'.1, x'.2, r.2⟩, ?_, e1, rfl, e2, e3⟩
  simp only [Except.bind_ok, Except.ok.injEq]
  refine ⟨init, (tTransfer_1d_1_eq h).trans h1, r, ?_, x', h4, rfl⟩
  rw [tKxVec_eq h.toRealIllumination]
  exact refines_layerLoop (fun c d s => refines_tStep1d la p _ _ c d s) _ _ _ _ _ h2

/-- The same final matrix, right-hand sides and readouts of the two backends. -/
structure TorchOf {fx fy : ℕ} (kx : Fin (2 * fx + 1) → ℂ) (psi0 psi theta nt nb : ℂ) (x x' : Out4 fx fy)
    (t : TState (FlatIdx fx fy ⊕ FlatIdx fx fy)) (kzt kzb : FlatIdx fx fy → ℂ)
    (N : Matrix ((FlatIdx fx fy ⊕ FlatIdx fx fy) ⊕ (FlatIdx fx fy ⊕ FlatIdx fx fy))
      ((FlatIdx fx fy ⊕ FlatIdx fx fy) ⊕ (FlatIdx fx fy ⊕ FlatIdx fx fy)) ℂ) : Prop where
  res : x.res = subResOf t kzt kzb theta nt nb (N *ᵥ finalB deltaI0 psi0 theta nt)
  te : x.res_te = subResOf t kzt kzb theta nt nb (N *ᵥ finalB deltaI0 ((Real.pi / 2 : ℝ) : ℂ) theta nt)
  tm : x.res_tm = subResOf t kzt kzb theta nt nb (N *ᵥ finalB deltaI0 0 theta nt)
  res' : x'.res = tSubResPsi t kx kzt kzb theta nt nb (N *ᵥ tFinalB deltaI0 psi theta nt)
  te' : x'.res_te = tSubResTetm t kx kzt kzb theta nt nb (N *ᵥ tFinalB deltaI0 ((Real.pi / 2 : ℝ) : ℂ) theta nt)
  tm' : x'.res_tm = tSubResTetm t kx kzt kzb theta nt nb (N *ᵥ tFinalB deltaI0 0 theta nt)
  t1 : x.T1 = fun i => (N *ᵥ finalB deltaI0 psi0 theta nt) (.inr i)
  t1_te : x.T1_te = fun i => (N *ᵥ finalB deltaI0 ((Real.pi / 2 : ℝ) : ℂ) theta nt) (.inr i)
  t1_tm : x.T1_tm = fun i => (N *ᵥ finalB deltaI0 0 theta nt) (.inr i)
  t1' : x'.T1 = fun i => (N *ᵥ tFinalB deltaI0 psi theta nt) (.inr i)
  t1_te' : x'.T1_te = fun i => (N *ᵥ tFinalB deltaI0 ((Real.pi / 2 : ℝ) : ℂ) theta nt) (.inr i)
  t1_tm' : x'.T1_tm = fun i => (N *ᵥ tFinalB deltaI0 0 theta nt) (.inr i)

theorem torchOf_of_ok {fx fy : ℕ} {la : LinAlg} {t : TState (FlatIdx fx fy ⊕ FlatIdx fx fy)}
    {kzt kzb : FlatIdx fx fy → ℂ} {psi0 theta nt nb : ℂ} {u : Bool} {x : Out4 fx fy}
    (h : transfer_2d_4 la t kzt kzb psi0 theta nt nb u = .ok x) (kx : Fin (2 * fx + 1) → ℂ) (psi : ℂ) :
    ∃ N, TorchOf kx psi0 psi theta nt nb x (tTransfer_2d_4 la t kx kzt kzb psi theta nt nb u) t kzt kzb N := by
  unfold transfer_2d_4 at h
  simp only [Except.bind_ok, Except.ok.injEq] at h
  obtain ⟨N, hN, rfl⟩ := h
  unfold tTransfer_2d_4
  rw [tMeeinv_of_ok hN]
  exact ⟨N, rfl, rfl, rfl, rfl, rfl, rfl, rfl, rfl, rfl, rfl, rfl, rfl⟩

theorem tSolve_con_of_ok {la : LinAlg} (h : Spec.LosslessCladdings p) (psi0 : ℂ) {convs}
    {o : OutCon p.fto.1 p.fto.2}
    (ho : solve_1d_conical la { p with psi := psi0 } p.wavelength convs = .ok o) :
    ∃ o' t N, tSolve_1d_conical la p p.wavelength convs = .ok o' ∧ o'.infos = o.infos ∧
      TorchOf (tKxVec p p.wavelength) psi0 p.psi p.theta p.n_top p.n_bot o.out o'.out t
        (kz2d p.n_top (kxF p p.wavelength) (kyF p p.wavelength))
        (kz2d p.n_bot (kxF p p.wavelength) (kyF p p.wavelength)) N := by
  unfold solve_1d_conical at ho
  obtain ⟨init, h1, ho⟩ := Except.bind_ok.mp ho
  obtain ⟨r, h2, ho⟩ := Except.bind_ok.mp ho
  have ek : init.1 = kz2d p.n_top (kxF p p.wavelength) (kyF p p.wavelength) := (transfer_2d_1_kz h1).1
  have ek' : init.2.1 = kz2d p.n_bot (kxF p p.wavelength) (kyF p p.wavelength) := (transfer_2d_1_kz h1).2
  simp only at ho
  split_ifs at ho with hf
  · obtain ⟨x, h3, ho⟩ := Except.bind_ok.mp ho
    cases ho
    obtain ⟨N, hN⟩ := torchOf_of_ok h3 (tKxVec p p.wavelength) p.psi
    rw [← ek, ← ek']
    unfold tSolve_1d_conical
    refine ⟨⟨tTransfer_2d_4 la r.1 (tKxVec p p.wavelength) init.1 init.2.1 p.psi p.theta p.n_top p.n_bot p.use_pinv, r.2⟩,
      r.1, N, ?_, rfl, hN⟩
    refine Except.bind_ok.mpr ⟨init, (tTransfer_2d_1_eq h).trans h1, Except.bind_ok.mpr ⟨r, ?_, ?_⟩⟩
    · rw [tKxVec_eq h.toRealIllumination, tKyVec_eq h.toRealIllumination]
      exact refines_layerLoop (fun c d s => refines_tStepCon la p.use_pinv _ _ _ _ c d s) _ _ _ _ _ h2
    · exact if_neg hf

theorem tSolve_2d_of_ok {la : LinAlg} (h : Spec.LosslessCladdings p) (psi0 : ℂ) {convs}
    {o : Out2D p.fto.1 p.fto.2}
    (ho : solve_2d la { p with psi := psi0 } p.wavelength convs = .ok o) (hq : ∀ l ∈ o.infos, NoClamp l) :
    ∃ o' t N, tSolve_2d la p p.wavelength convs = .ok o' ∧ o'.infos = o.infos ∧
      TorchOf (tKxVec p p.wavelength) psi0 p.psi p.theta p.n_top p.n_bot o.out o'.out t
        (kz2d p.n_top (kxF p p.wavelength) (kyF p p.wavelength))
        (kz2d p.n_bot (kxF p p.wavelength) (kyF p p.wavelength)) N := by
  unfold solve_2d at ho
  obtain ⟨init, h1, ho⟩ := Except.bind_ok.mp ho
  obtain ⟨r, h2, ho⟩ := Except.bind_ok.mp ho
  obtain ⟨x, h3, ho⟩ := Except.bind_ok.mp ho
  have ek : init.1 = kz2d p.n_top (kxF p p.wavelength) (kyF p p.wavelength) := (transfer_2d_1_kz h1).1
  have ek' : init.2.1 = kz2d p.n_bot (kxF p p.wavelength) (kyF p p.wavelength) := (transfer_2d_1_kz h1).2
  cases ho
  obtain ⟨N, hN⟩ := torchOf_of_ok h3 (tKxVec p p.wavelength) p.psi
  rw [← ek, ← ek']
  unfold tSolve_2d
  refine ⟨⟨tTransfer_2d_4 la r.1 (tKxVec p p.wavelength) init.1 init.2.1 p.psi p.theta p.n_top p.n_bot p.use_pinv, r.2⟩,
    r.1, N, ?_, rfl, hN⟩
  refine Except.bind_ok.mpr ⟨init, (tTransfer_2d_1_eq h).trans h1, Except.bind_ok.mpr ⟨r, ?_, ?_⟩⟩
  · rw [tKxVec_eq h.toRealIllumination, tKyVec_eq h.toRealIllumination]
    exact layerLoop_of_ok (fun c d s r => tStep2d_of_ok la p.use_pinv _ _ _ _ c d s r) h2 hq
  · rfl

theorem tFinalB_eq {m : Type} (delta : m → ℂ) (psi theta nt : ℂ) :
    tFinalB delta psi theta nt = finalB delta (Real.pi - psi) theta nt := by
  funext i
  rcases i with (i | i) | (i | i) <;> simp [tFinalB, finalB, Complex.sin_pi_sub, Complex.cos_pi_sub]

theorem tFinalB_of_sin {m : Type} (delta : m → ℂ) {psi theta nt : ℂ} (h : Complex.sin psi = 0) :
    tFinalB delta psi theta nt = (-1 : ℂ) • finalB delta psi theta nt := by
  funext i
  rcases i with (i | i) | (i | i) <;> simp [tFinalB, finalB, h]

theorem tFinalB_of_cos {m : Type} (delta : m → ℂ) {psi theta nt : ℂ} (h : Complex.cos psi = 0) :
    tFinalB delta psi theta nt = (1 : ℂ) • finalB delta psi theta nt := by
  funext i
  rcases i with (i | i) | (i | i) <;> simp [tFinalB, finalB, h]

theorem p_weight {z kz w nn : ℂ} (hn : nn.im = 0) (hn0 : nn ≠ 0) :
    Complex.normSq (Complex.I / nn * z) * (kz / w).re = Complex.normSq z * (kz / nn ^ 2 / w).re := by
  have e : nn = (nn.re : ℂ) := Complex.ext rfl hn
  have hr : nn.re ≠ 0 := fun h0 => hn0 (by rw [e, h0]; rfl)
  rw [Complex.normSq_mul, Complex.normSq_div, Complex.normSq_I]
  have h1 : Complex.normSq nn = nn.re ^ 2 := by rw [Complex.normSq_apply, hn]; ring
  have h2 : (kz / nn ^ 2 / w).re = (kz / w).re / nn.re ^ 2 := by
    have : kz / nn ^ 2 / w = kz / w / ((nn.re ^ 2 : ℝ) : ℂ) := by
      rw [Complex.ofReal_pow, ← e]; rw [div_right_comm]
    rw [this, Complex.div_ofReal_re]
  rw [h1, h2]
  field_simp

/-- What the two readouts make of proportional solution vectors. -/
theorem tSubResPsi_rel {fx fy : ℕ} (t : TState (FlatIdx fx fy ⊕ FlatIdx fx fy)) (kx : Fin (2 * fx + 1) → ℂ)
    (kzt kzb : FlatIdx fx fy → ℂ) {theta nt nb c : ℂ} (hc : c = 1 ∨ c = -1)
    (ht : nt.im = 0) (ht0 : nt ≠ 0) (hb : nb.im = 0) (hb0 : nb ≠ 0)
    (rt : (FlatIdx fx fy ⊕ FlatIdx fx fy) ⊕ (FlatIdx fx fy ⊕ FlatIdx fx fy) → ℂ) :
    Spec.SameEff (subResOf t kzt kzb theta nt nb rt) (tSubResPsi t kx kzt kzb theta nt nb (c • rt)) ∧
    Spec.ConjAmplitudes (fun i => c * phaseConv kx i) (-Complex.I / nt) (-Complex.I / nb)
      (subResOf t kzt kzb theta nt nb rt) (tSubResPsi t kx kzt kzb theta nt nb (c • rt)) := by
  have hs := phaseConv_signs kx
  have hT : (t.T *ᵥ fun i => c * rt (.inr i)) = c • (t.T *ᵥ fun i => rt (.inr i)) := by
    rw [← mulVec_smul]; rfl
  have hcn : Complex.normSq c = 1 := sign_normSq hc
  have hcs : star c = c := by rcases hc with rfl | rfl <;> simp
  have est : star nt = nt := Complex.conj_eq_iff_im.mpr ht
  have esb : star nb = nb := Complex.conj_eq_iff_im.mpr hb
  have h1 : ∀ (z w : ℂ) i, effOf (star (c * z) * phaseConv kx i) w = effOf z w := by
    intro z w i
    apply effOf_congr
    rw [Complex.normSq_mul, sign_normSq (hs i), normSq_star, Complex.normSq_mul, hcn]; ring
  have h2 : ∀ (nn : ℂ), nn.im = 0 → nn ≠ 0 → ∀ (z kz w : ℂ) i,
      effOf (star (Complex.I / nn * (c * z)) * phaseConv kx i) (kz / w) = effOf z (kz / nn ^ 2 / w) := by
    intro nn hn hn0 z kz w i
    apply effOf_congr
    rw [Complex.normSq_mul, sign_normSq (hs i), normSq_star, mul_one, p_weight hn hn0, Complex.normSq_mul, hcn, one_mul]
  unfold tSubResPsi tSubRes subResOf
  simp only [Pi.smul_apply, smul_eq_mul]
  simp only [hT, Pi.smul_apply, smul_eq_mul]
  constructor
  · constructor <;> simp only [h1, h2 nt ht ht0, h2 nb hb hb0]
  · constructor <;> intro j i <;>
      simp only [star_mul', star_div₀, hcs, est, esb, modNat_prod, Complex.star_def, Complex.conj_I, neg_div,
        mul_comm, mul_left_comm, mul_assoc, neg_mul, mul_neg]

theorem tSubResTetm_rel {fx fy : ℕ} (t : TState (FlatIdx fx fy ⊕ FlatIdx fx fy)) (kx : Fin (2 * fx + 1) → ℂ)
    (kzt kzb : FlatIdx fx fy → ℂ) {theta nt nb c : ℂ} (hc : c = 1 ∨ c = -1)
    (ht : nt.im = 0) (ht0 : nt ≠ 0) (hb : nb.im = 0) (hb0 : nb ≠ 0)
    (rt : (FlatIdx fx fy ⊕ FlatIdx fx fy) ⊕ (FlatIdx fx fy ⊕ FlatIdx fx fy) → ℂ) :
    Spec.SameEff (subResOf t kzt kzb theta nt nb rt) (tSubResTetm t kx kzt kzb theta nt nb (c • rt)) ∧
    Spec.MixedAmplitudes (fun i => c * phaseConv kx i) c (Complex.I / nt) (-Complex.I / nb)
      (subResOf t kzt kzb theta nt nb rt) (tSubResTetm t kx kzt kzb theta nt nb (c • rt)) := by
  have hs := phaseConv_signs kx
  have hT : (t.T *ᵥ fun i => c * rt (.inr i)) = c • (t.T *ᵥ fun i => rt (.inr i)) := by
    rw [← mulVec_smul]; rfl
  have hcn : Complex.normSq c = 1 := sign_normSq hc
  have hcs : star c = c := by rcases hc with rfl | rfl <;> simp
  have est : star nt = nt := Complex.conj_eq_iff_im.mpr ht
  have h1 : ∀ (z w : ℂ) i, effOf (star (c * z) * phaseConv kx i) w = effOf z w := by
    intro z w i
    apply effOf_congr
    rw [Complex.normSq_mul, sign_normSq (hs i), normSq_star, Complex.normSq_mul, hcn]; ring
  have h1' : ∀ (z w : ℂ), effOf (c * z) w = effOf z w := by
    intro z w
    apply effOf_congr
    rw [Complex.normSq_mul, hcn]; ring
  have hneg : ∀ nn z : ℂ, Complex.normSq (-Complex.I / nn * (c * z)) = Complex.normSq (Complex.I / nn * z) := by
    intro nn z
    rw [Complex.normSq_mul, Complex.normSq_mul, Complex.normSq_mul, hcn, neg_div, Complex.normSq_neg, one_mul]
  have h2 : ∀ (nn : ℂ), nn.im = 0 → nn ≠ 0 → ∀ (z kz w : ℂ) i,
      effOf (star (-Complex.I / nn * (c * z)) * phaseConv kx i) (kz / w) = effOf z (kz / nn ^ 2 / w) := by
    intro nn hn hn0 z kz w i
    apply effOf_congr
    rw [Complex.normSq_mul, sign_normSq (hs i), normSq_star, mul_one, hneg, p_weight hn hn0]
  have h2' : ∀ (nn : ℂ), nn.im = 0 → nn ≠ 0 → ∀ (z kz w : ℂ),
      effOf (-Complex.I / nn * (c * z)) (kz / w) = effOf z (kz / nn ^ 2 / w) := by
    intro nn hn hn0 z kz w
    apply effOf_congr
    rw [hneg, p_weight hn hn0]
  unfold tSubResTetm tSubRes subResOf
  simp only [Pi.smul_apply, smul_eq_mul]
  simp only [hT, Pi.smul_apply, smul_eq_mul]
  constructor
  · constructor <;> simp only [h1, h1', h2 nt ht ht0, h2' nb hb hb0]
  · have ecs : (starRingEnd ℂ) c = c := hcs
    have ent : (starRingEnd ℂ) nt = nt := est
    constructor <;> intro j i <;>
      simp only [Complex.star_def, map_mul, map_div₀, map_neg, ecs, ent, modNat_prod, Complex.conj_I, neg_div,
        mul_comm, mul_left_comm, mul_assoc, neg_mul, mul_neg, neg_neg]

/-- Everything about the two outputs, when the right-hand sides are proportional. -/
theorem TorchOf.rel {fx fy : ℕ} {kx : Fin (2 * fx + 1) → ℂ} {psi0 psi theta nt nb c : ℂ} {x x' : Out4 fx fy}
    {t kzt kzb N} (h : TorchOf kx psi0 psi theta nt nb x x' t kzt kzb N) (hc : c = 1 ∨ c = -1)
    (he : tFinalB (m := FlatIdx fx fy) deltaI0 psi theta nt = c • finalB deltaI0 psi0 theta nt)
    (ht : nt.im = 0) (ht0 : nt ≠ 0) (hb : nb.im = 0) (hb0 : nb ≠ 0) :
    (Spec.SameEff x.res x'.res ∧
      Spec.ConjAmplitudes (fun i => c * phaseConv kx i) (-Complex.I / nt) (-Complex.I / nb) x.res x'.res) ∧
    (Spec.SameEff x.res_te x'.res_te ∧
      Spec.MixedAmplitudes (phaseConv kx) 1 (Complex.I / nt) (-Complex.I / nb) x.res_te x'.res_te) ∧
    (Spec.SameEff x.res_tm x'.res_tm ∧
      Spec.MixedAmplitudes (fun i => -phaseConv kx i) (-1) (Complex.I / nt) (-Complex.I / nb) x.res_tm x'.res_tm) := by
  rw [h.res, h.te, h.tm, h.res', h.te', h.tm']
  refine ⟨?_, ?_, ?_⟩
  · rw [he, mulVec_smul]
    exact tSubResPsi_rel t kx kzt kzb hc ht ht0 hb hb0 _
  · rw [tFinalB_of_cos _ (by push_cast; exact Complex.cos_pi_div_two), mulVec_smul]
    have := tSubResTetm_rel t kx kzt kzb (theta := theta) (Or.inl rfl) ht ht0 hb hb0
      (N *ᵥ finalB deltaI0 ((Real.pi / 2 : ℝ) : ℂ) theta nt)
    simpa only [one_mul] using this
  · rw [tFinalB_of_sin _ Complex.sin_zero, mulVec_smul]
    have := tSubResTetm_rel t kx kzt kzb (theta := theta) (Or.inr rfl) ht ht0 hb hb0
      (N *ᵥ finalB deltaI0 0 theta nt)
    simpa only [neg_mul, one_mul] using this

end Meent
