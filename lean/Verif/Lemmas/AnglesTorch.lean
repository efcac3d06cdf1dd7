import Verif.Lemmas.Angles

/-!
# The polarization angle on PyTorch (helper lemmas)
-/

set_option linter.unusedSectionVars false
set_option linter.unusedVariables false
set_option linter.unusedSimpArgs false

open Matrix

namespace Meent

theorem tTransfer_2d_4_psi {fx fy : ℕ} (la : LinAlg) (t : TState (FlatIdx fx fy ⊕ FlatIdx fx fy)) (kx : Fin (2 * fx + 1) → ℂ)
    (kzt kzb : FlatIdx fx fy → ℂ) {ψ ψ' : ℂ} (θ nt nb : ℂ) (b : Bool) {c : ℂ} (h1 : Complex.cos ψ' = c * Complex.cos ψ)
    (h2 : Complex.sin ψ' = c * Complex.sin ψ) (hc : ‖c‖ = 1) (hs : star c = c) :
    Spec.TimesPhase c (tTransfer_2d_4 la t kx kzt kzb ψ θ nt nb b).res (tTransfer_2d_4 la t kx kzt kzb ψ' θ nt nb b).res := by
  unfold tTransfer_2d_4
  dsimp only
  generalize tMeeinv la (finalA nt kzt t) b = N
  have e : N *ᵥ tFinalB deltaI0 ψ' θ nt = c • (N *ᵥ tFinalB deltaI0 ψ θ nt) := by
    rw [← mulVec_smul]
    congr 1
    funext k
    rcases k with (k | k) | (k | k) <;> simp only [tFinalB, h1, h2, Pi.smul_apply, smul_eq_mul] <;> ring
  rw [e]
  generalize N *ᵥ tFinalB deltaI0 ψ θ nt = v
  have eT : ∀ (i : FlatIdx fx fy ⊕ FlatIdx fx fy), (t.T *ᵥ fun k => c * v (.inr k)) i = c * (t.T *ᵥ fun k => v (.inr k)) i :=
    fun i => congrFun (mulVec_smul t.T c (fun k => v (.inr k))) i
  have en : ∀ (z w : ℂ), effOf (c * z) w = effOf z w := by
    intro z w
    unfold effOf
    have : c * star c = 1 := by
      rw [Complex.star_def, Complex.mul_conj, Complex.normSq_eq_norm_sq, hc]; norm_num
    rw [star_mul', mul_mul_mul_comm, this, one_mul]
  have es : ∀ z w : ℂ, star (c * z) * w = c * (star z * w) := by
    intro z w
    rw [star_mul', hs]; ring
  have ec : ∀ a z w : ℂ, star (a * (c * z)) * w = c * (star (a * z) * w) := by
    intro a z w
    rw [← es]; congr 2; ring
  constructor <;> simp only [tSubResPsi, tSubRes, Pi.smul_apply, smul_eq_mul, eT, es, ec, en, implies_true]

theorem tSolve_con_psi {la : LinAlg} {p : Params} {wl cs} {o : OutCon p.fto.1 p.fto.2} (h : tSolve_1d_conical la p wl cs = .ok o) {ψ' c : ℂ}
    (h1 : Complex.cos ψ' = c * Complex.cos p.psi) (h2 : Complex.sin ψ' = c * Complex.sin p.psi) (hc : ‖c‖ = 1) (hs : star c = c) :
    ∃ o' : OutCon p.fto.1 p.fto.2, tSolve_1d_conical la { p with psi := ψ' } wl cs = .ok o' ∧ o'.out.res_te = o.out.res_te ∧
      o'.out.res_tm = o.out.res_tm ∧ Spec.TimesPhase c o.out.res o'.out.res := by
  unfold tSolve_1d_conical at h
  simp only [Except.bind_ok] at h
  obtain ⟨init, hinit, r, hr, h⟩ := h
  split_ifs at h with hf
  cases h
  refine ⟨{ out := tTransfer_2d_4 la r.1 (tKxVec p wl) init.1 init.2.1 ψ' p.theta p.n_top p.n_bot p.use_pinv, infos := r.2 },
    ?_, rfl, rfl, tTransfer_2d_4_psi la r.1 _ _ _ _ _ _ _ h1 h2 hc hs⟩
  unfold tSolve_1d_conical
  simp only [Except.bind_ok]
  refine ⟨init, hinit, r, hr, ?_⟩
  rw [if_neg hf]
  rfl

theorem tSolve_2d_psi {la : LinAlg} {p : Params} {wl cs} {o : Out2D p.fto.1 p.fto.2} (h : tSolve_2d la p wl cs = .ok o) {ψ' c : ℂ}
    (h1 : Complex.cos ψ' = c * Complex.cos p.psi) (h2 : Complex.sin ψ' = c * Complex.sin p.psi) (hc : ‖c‖ = 1) (hs : star c = c) :
    ∃ o' : Out2D p.fto.1 p.fto.2, tSolve_2d la { p with psi := ψ' } wl cs = .ok o' ∧ o'.out.res_te = o.out.res_te ∧
      o'.out.res_tm = o.out.res_tm ∧ Spec.TimesPhase c o.out.res o'.out.res := by
  unfold tSolve_2d at h
  simp only [Except.bind_ok] at h
  obtain ⟨init, hinit, r, hr, h⟩ := h
  cases h
  refine ⟨{ out := tTransfer_2d_4 la r.1 (tKxVec p wl) init.1 init.2.1 ψ' p.theta p.n_top p.n_bot p.use_pinv, infos := r.2 },
    ?_, rfl, rfl, tTransfer_2d_4_psi la r.1 _ _ _ _ _ _ _ h1 h2 hc hs⟩
  unfold tSolve_2d
  simp only [Except.bind_ok]
  exact ⟨init, hinit, r, hr, rfl⟩

theorem tConv_solve_psi {la : LinAlg} {s : TSettings} {sol : Solved s.p.fto.1 s.p.fto.2} (h : tConv_solve la s = .ok sol)
    (hg : tGratingType s ≠ 0) (ha : s.algo = .tmm) {ψ' c : ℂ} (h1 : Complex.cos ψ' = c * Complex.cos s.p.psi)
    (h2 : Complex.sin ψ' = c * Complex.sin s.p.psi) (hc : ‖c‖ = 1) (hs : star c = c) :
    ∃ sol' : Solved s.p.fto.1 s.p.fto.2, tConv_solve la { s with p := { s.p with psi := ψ' } } = .ok sol' ∧
      sol'.result.res_te_inc = sol.result.res_te_inc ∧ sol'.result.res_tm_inc = sol.result.res_tm_inc ∧
      ∃ r r', sol.result.res = some r ∧ sol'.result.res = some r' ∧ Spec.TimesPhase c r r' := by
  unfold tConv_solve at h
  obtain ⟨cs, hcs, h⟩ := Except.bind_ok.mp h
  have hcs' : tConvMats la { s with p := { s.p with psi := ψ' } } = .ok cs := hcs
  have hg' : tGratingType { s with p := { s.p with psi := ψ' } } = tGratingType s := rfl
  have key : ∀ sol' : Solved s.p.fto.1 s.p.fto.2, tSolve_for_conv la { s with p := { s.p with psi := ψ' } } s.p.wavelength cs = .ok sol' →
      tConv_solve la { s with p := { s.p with psi := ψ' } } = .ok sol' :=
    fun sol' hsol => Except.bind_ok.mpr ⟨cs, hcs', hsol⟩
  by_cases hg1 : tGratingType s = 1
  · unfold tSolve_for_conv at h
    rw [hg1, ha] at h
    obtain ⟨o, ho, h⟩ := Except.bind_ok.mp h
    cases h
    obtain ⟨o', ho', e1, e2, e3⟩ := tSolve_con_psi ho h1 h2 hc hs
    refine ⟨.conical o', key _ ?_, congrArg some e1, congrArg some e2, _, _, rfl, rfl, e3⟩
    unfold tSolve_for_conv
    rw [hg', hg1]
    simp only [ha]
    exact Except.bind_ok.mpr ⟨_, ho', rfl⟩
  · obtain ⟨n, hn⟩ : ∃ n, tGratingType s = n + 2 := ⟨tGratingType s - 2, by omega⟩
    unfold tSolve_for_conv at h
    rw [hn, ha] at h
    obtain ⟨o, ho, h⟩ := Except.bind_ok.mp h
    cases h
    obtain ⟨o', ho', e1, e2, e3⟩ := tSolve_2d_psi ho h1 h2 hc hs
    refine ⟨.twoD o', key _ ?_, congrArg some e1, congrArg some e2, _, _, rfl, rfl, e3⟩
    unfold tSolve_for_conv
    rw [hg', hn]
    simp only [ha]
    exact Except.bind_ok.mpr ⟨_, ho', rfl⟩

end Meent
