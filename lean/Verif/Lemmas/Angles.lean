import Verif.Spec.Angles
import Verif.Model.Torch
import Verif.Model.Jax
import Verif.Lemmas.Orders

/-!
# Angles (helper lemmas)
-/

set_option linter.unusedSectionVars false
set_option linter.unusedVariables false

open Matrix

namespace Meent

/-- The same parameters with other angles of incidence. -/
abbrev Params.turned (p : Params) (θ : ℂ) (φ : Option ℂ) : Params := { p with theta := θ, phi := φ }

theorem transfer_1d_4_cos {ff : ℕ} (la : LinAlg) (pol : ℝ) (s : TState (Fin ff)) (kz_top kz_bot : Fin ff → ℂ) {θ θ' : ℂ} (n_top n_bot : ℂ)
    (u : Bool) (h : Complex.cos θ' = Complex.cos θ) :
    transfer_1d_4 la pol s kz_top kz_bot θ' n_top n_bot u = transfer_1d_4 la pol s kz_top kz_bot θ n_top n_bot u := by
  unfold transfer_1d_4
  simp only [h]

theorem finalB_cos {m : Type} (δ : m → ℂ) (ψ n : ℂ) {θ θ' : ℂ} (h : Complex.cos θ' = Complex.cos θ) :
    finalB δ ψ θ' n = finalB δ ψ θ n := by
  funext k
  rcases k with (k | k) | (k | k) <;> simp only [finalB, h]

theorem transfer_2d_4_cos {fx fy : ℕ} (la : LinAlg) (s : TState (FlatIdx fx fy ⊕ FlatIdx fx fy)) (kz_top kz_bot : FlatIdx fx fy → ℂ)
    (ψ : ℂ) {θ θ' : ℂ} (n_top n_bot : ℂ) (u : Bool) (h : Complex.cos θ' = Complex.cos θ) :
    transfer_2d_4 la s kz_top kz_bot ψ θ' n_top n_bot u = transfer_2d_4 la s kz_top kz_bot ψ θ n_top n_bot u := by
  unfold transfer_2d_4
  simp only [finalB_cos _ _ _ h, subResOf, h]

section
variable (la : LinAlg) (p : Params) (wl : ℝ) {θ : ℂ} {φ : Option ℂ} (hc : Complex.cos θ = Complex.cos p.theta)
  (hx : kxVec (p.turned θ φ) wl = kxVec p wl) (hy : kyVec (p.turned θ φ) wl = kyVec p wl)
include hc hx

theorem solve_1d_turned (cs) : solve_1d la (p.turned θ φ) wl cs = solve_1d la p wl cs := by
  unfold solve_1d
  simp only [hx, transfer_1d_4_cos _ _ _ _ _ _ _ _ hc]
  rfl

include hy

theorem solve_con_turned (cs) : solve_1d_conical la (p.turned θ φ) wl cs = solve_1d_conical la p wl cs := by
  unfold solve_1d_conical
  simp only [hx, hy, transfer_2d_4_cos _ _ _ _ _ _ _ _ hc]

theorem solve_2d_turned (cs) : solve_2d la (p.turned θ φ) wl cs = solve_2d la p wl cs := by
  unfold solve_2d
  simp only [hx, hy, transfer_2d_4_cos _ _ _ _ _ _ _ _ hc]

end

theorem sinTheta_small {θ : ℂ} (h : θ.re < f32HalfPi) : sinTheta θ = Complex.sin θ := by
  unfold sinTheta
  rw [if_neg (by rw [ge_iff_le, not_le]; exact h)]

theorem kxVec_turned {p : Params} {θ : ℂ} {φ : Option ℂ}
    (h : sinTheta θ * Complex.cos (φ.getD 0) = sinTheta p.theta * Complex.cos (p.phi.getD 0)) (wl : ℝ) :
    kxVec (p.turned θ φ) wl = kxVec p wl := by
  funext i
  unfold kxVec
  simp only [mul_assoc, h]

theorem kyVec_turned {p : Params} {θ : ℂ} {φ : Option ℂ}
    (h : sinTheta θ * Complex.sin (φ.getD 0) = sinTheta p.theta * Complex.sin (p.phi.getD 0)) (wl : ℝ) :
    kyVec (p.turned θ φ) wl = kyVec p wl := by
  funext i
  unfold kyVec
  simp only [mul_assoc, h]

theorem conv_solve_turned (la : LinAlg) (s : Settings) {θ : ℂ} {φ : Option ℂ} (hc : Complex.cos θ = Complex.cos s.p.theta)
    (hx : ∀ wl, kxVec (s.p.turned θ φ) wl = kxVec s.p wl) (hy : ∀ wl, kyVec (s.p.turned θ φ) wl = kyVec s.p wl)
    (hφ : φ = none ↔ s.p.phi = none) : conv_solve la { s with p := s.p.turned θ φ } = conv_solve la s := by
  have hg : gratingType { s with p := s.p.turned θ φ } = gratingType s := by
    unfold gratingType
    simp only [hφ]
  have hs : ∀ wl cs, solve_for_conv la { s with p := s.p.turned θ φ } wl cs = solve_for_conv la s wl cs := by
    intro wl cs
    unfold solve_for_conv
    simp only [hg, solve_1d_turned la s.p wl hc (hx wl), solve_con_turned la s.p wl hc (hx wl) (hy wl),
      solve_2d_turned la s.p wl hc (hx wl) (hy wl)]
  unfold conv_solve
  simp only [hs]
  rfl

/-! ### The polarization angle -/

theorem transfer_2d_4_psi {fx fy : ℕ} {la : LinAlg} {t : TState (FlatIdx fx fy ⊕ FlatIdx fx fy)} {kzt kzb ψ θ nt nb b o}
    (h : transfer_2d_4 la t kzt kzb ψ θ nt nb b = .ok o) (ψ' : ℂ) :
    ∃ o', transfer_2d_4 la t kzt kzb ψ' θ nt nb b = .ok o' ∧ o'.res_te = o.res_te ∧ o'.res_tm = o.res_tm ∧
      ∀ c : ℂ, Complex.cos ψ' = c * Complex.cos ψ → Complex.sin ψ' = c * Complex.sin ψ → ‖c‖ = 1 → Spec.TimesPhase c o.res o'.res := by
  unfold transfer_2d_4 at h
  simp only [Except.bind_ok, Except.ok.injEq] at h
  obtain ⟨N, hN, rfl⟩ := h
  unfold transfer_2d_4
  simp only [Except.bind_ok, Except.ok.injEq]
  refine ⟨_, ⟨N, hN, rfl⟩, rfl, rfl, ?_⟩
  intro c h1 h2 hc
  have e : N *ᵥ finalB deltaI0 ψ' θ nt = c • (N *ᵥ finalB deltaI0 ψ θ nt) := by
    rw [← mulVec_smul]
    congr 1
    funext k
    rcases k with (k | k) | (k | k) <;> simp only [finalB, h1, h2, Pi.smul_apply, smul_eq_mul] <;> ring
  have eT : ∀ (v : (FlatIdx fx fy ⊕ FlatIdx fx fy) ⊕ (FlatIdx fx fy ⊕ FlatIdx fx fy) → ℂ) (i : FlatIdx fx fy ⊕ FlatIdx fx fy),
      (t.T *ᵥ fun k => c * v (.inr k)) i = c * (t.T *ᵥ fun k => v (.inr k)) i := by
    intro v i
    exact congrFun (mulVec_smul t.T c (fun k => v (.inr k))) i
  have en : ∀ (z w : ℂ), effOf (c * z) w = effOf z w := by
    intro z w
    unfold effOf
    have : c * star c = 1 := by
      rw [Complex.star_def, Complex.mul_conj, Complex.normSq_eq_norm_sq, hc]; norm_num
    rw [star_mul', mul_mul_mul_comm, this, one_mul]
  rw [e]
  constructor <;> simp only [subResOf, eT, Pi.smul_apply, smul_eq_mul, en, implies_true]

theorem conv_solve_half_turn {la : LinAlg} {s : Settings} {sol : Solved s.p.fto.1 s.p.fto.2} (h : conv_solve la s = .ok sol)
    (hg : gratingType s ≠ 0) (ha : s.algo = .tmm) (ψ' : ℂ) :
    ∃ sol' : Solved s.p.fto.1 s.p.fto.2, conv_solve la { s with p := { s.p with psi := ψ' } } = .ok sol' ∧
      sol'.result.res_te_inc = sol.result.res_te_inc ∧ sol'.result.res_tm_inc = sol.result.res_tm_inc ∧
      ∃ r r', sol.result.res = some r ∧ sol'.result.res = some r' ∧
      ∀ c : ℂ, Complex.cos ψ' = c * Complex.cos s.p.psi → Complex.sin ψ' = c * Complex.sin s.p.psi → ‖c‖ = 1 → Spec.TimesPhase c r r' := by
  rcases conv_solve_cases h with ⟨h1, -⟩ | ⟨h1, ⟨o, rfl⟩ | rfl⟩ | ⟨h1, o, rfl⟩
  · exact absurd h1 hg
  · obtain ⟨cs, hc, -, -, h4⟩ := conv_solve_conical.mp h
    unfold solve_1d_conical at h4
    simp only [Except.bind_ok] at h4
    obtain ⟨init, hinit, r, hr, h4⟩ := h4
    split_ifs at h4 with hf
    simp only [Except.bind_ok, Except.ok.injEq] at h4
    obtain ⟨x, hx, rfl⟩ := h4
    obtain ⟨x', hx', e1, e2, e3⟩ := transfer_2d_4_psi hx ψ'
    refine ⟨.conical { out := x', infos := r.2 }, conv_solve_conical.mpr ⟨cs, hc, h1, ha, ?_⟩, congrArg some e1, congrArg some e2,
      _, _, rfl, rfl, e3⟩
    unfold solve_1d_conical
    simp only [Except.bind_ok]
    refine ⟨init, hinit, r, hr, ?_⟩
    rw [if_neg hf]
    simp only [Except.bind_ok]
    exact ⟨x', hx', rfl⟩
  · obtain ⟨cs, hc, hs⟩ := conv_solve_ok.mp h
    unfold solve_for_conv at hs
    rw [h1, ha] at hs
    simp only [Except.bind_ok] at hs
    obtain ⟨o, -, ho⟩ := hs
    cases ho
  · obtain ⟨cs, hc, -, -, h4⟩ := conv_solve_twoD.mp h
    unfold solve_2d at h4
    simp only [Except.bind_ok, Except.ok.injEq] at h4
    obtain ⟨init, hinit, r, hr, x, hx, rfl⟩ := h4
    obtain ⟨x', hx', e1, e2, e3⟩ := transfer_2d_4_psi hx ψ'
    refine ⟨.twoD { out := x', infos := r.2 }, conv_solve_twoD.mpr ⟨cs, hc, h1, ha, ?_⟩, congrArg some e1, congrArg some e2,
      _, _, rfl, rfl, e3⟩
    unfold solve_2d
    simp only [Except.bind_ok]
    exact ⟨init, hinit, r, hr, x', hx', rfl⟩

/-! ### JAX -/

namespace Jax

theorem sinTheta_small {θ : ℂ} (h : θ.re < f32HalfPi) : sinTheta θ = Complex.sin θ := by
  unfold sinTheta
  simp only [if_neg (not_le.mpr h)]

theorem kxVec_turned {p : Params} {θ : ℂ} {φ : Option ℂ}
    (h : sinTheta θ * Complex.cos (φ.getD 0) = sinTheta p.theta * Complex.cos (p.phi.getD 0)) (wl : ℝ) :
    kxVec (p.turned θ φ) wl = kxVec p wl := by
  funext i
  unfold kxVec
  simp only [mul_assoc, h]

theorem kyVec_turned {p : Params} {θ : ℂ} {φ : Option ℂ}
    (h : sinTheta θ * Complex.sin (φ.getD 0) = sinTheta p.theta * Complex.sin (p.phi.getD 0)) (wl : ℝ) :
    kyVec (p.turned θ φ) wl = kyVec p wl := by
  funext i
  unfold kyVec
  simp only [mul_assoc, h]

theorem transfer_1d_4_cos {ff : ℕ} (env : Env) (pol : ℝ) (s : TState (Fin ff)) (kz_top kz_bot : Fin ff → ℂ) {θ θ' : ℂ} (n_top n_bot : ℂ)
    (u : Bool) (h : Complex.cos θ' = Complex.cos θ) :
    transfer_1d_4 env pol s kz_top kz_bot θ' n_top n_bot u = transfer_1d_4 env pol s kz_top kz_bot θ n_top n_bot u := by
  unfold transfer_1d_4
  simp only [h]

theorem transfer_2d_4_cos {fx fy : ℕ} (env : Env) (s : TState (FlatIdx fx fy ⊕ FlatIdx fx fy)) (kz_top kz_bot : FlatIdx fx fy → ℂ)
    (ψ : ℂ) {θ θ' : ℂ} (n_top n_bot : ℂ) (u : Bool) (h : Complex.cos θ' = Complex.cos θ) :
    transfer_2d_4 env s kz_top kz_bot ψ θ' n_top n_bot u = transfer_2d_4 env s kz_top kz_bot ψ θ n_top n_bot u := by
  unfold transfer_2d_4
  simp only [finalB_cos _ _ _ h, subResOf, h]

theorem conv_solve_turned (env : Env) (s : Settings) {θ : ℂ} {φ : Option ℂ} (hc : Complex.cos θ = Complex.cos s.p.theta)
    (hx : ∀ wl, kxVec (s.p.turned θ φ) wl = kxVec s.p wl) (hy : ∀ wl, kyVec (s.p.turned θ φ) wl = kyVec s.p wl)
    (hφ : φ = none ↔ s.p.phi = none) : conv_solve env { s with p := s.p.turned θ φ } = conv_solve env s := by
  have hg : gratingType { s with p := s.p.turned θ φ } = gratingType s := by
    unfold gratingType
    simp only [hφ]
  have h1 : ∀ wl cs, solve_1d env (s.p.turned θ φ) wl cs = solve_1d env s.p wl cs := by
    intro wl cs
    unfold solve_1d
    simp only [hx, transfer_1d_4_cos _ _ _ _ _ _ _ _ hc]
    rfl
  have h2 : ∀ wl cs, solve_1d_conical env (s.p.turned θ φ) wl cs = solve_1d_conical env s.p wl cs := by
    intro wl cs
    unfold solve_1d_conical
    simp only [hx, hy, transfer_2d_4_cos _ _ _ _ _ _ _ _ hc]
  have h3 : ∀ wl cs, solve_2d env (s.p.turned θ φ) wl cs = solve_2d env s.p wl cs := by
    intro wl cs
    unfold solve_2d
    simp only [hx, hy, transfer_2d_4_cos _ _ _ _ _ _ _ _ hc]
  have hs : ∀ wl cs, solve_for_conv env { s with p := s.p.turned θ φ } wl cs = solve_for_conv env s wl cs := by
    intro wl cs
    unfold solve_for_conv
    simp only [hg, h1, h2, h3]
  unfold conv_solve
  simp only [hs]
  rfl

end Jax

/-! ### PyTorch -/

theorem tTransfer_1d_4_cos {fx : ℕ} (la : LinAlg) (pol : ℝ) (s : TState (Fin (2 * fx + 1))) (kx kz_top kz_bot : Fin (2 * fx + 1) → ℂ)
    {θ θ' : ℂ} (n_top n_bot : ℂ) (u : Bool) (h : Complex.cos θ' = Complex.cos θ) :
    tTransfer_1d_4 la pol s kx kz_top kz_bot θ' n_top n_bot u = tTransfer_1d_4 la pol s kx kz_top kz_bot θ n_top n_bot u := by
  unfold tTransfer_1d_4
  simp only [h]

theorem tFinalB_cos {m : Type} (δ : m → ℂ) (ψ n : ℂ) {θ θ' : ℂ} (h : Complex.cos θ' = Complex.cos θ) :
    tFinalB δ ψ θ' n = tFinalB δ ψ θ n := by
  funext k
  rcases k with (k | k) | (k | k) <;> simp only [tFinalB, h]

theorem tTransfer_2d_4_cos {fx fy : ℕ} (la : LinAlg) (s : TState (FlatIdx fx fy ⊕ FlatIdx fx fy)) (kx : Fin (2 * fx + 1) → ℂ)
    (kz_top kz_bot : FlatIdx fx fy → ℂ) (ψ : ℂ) {θ θ' : ℂ} (n_top n_bot : ℂ) (u : Bool) (h : Complex.cos θ' = Complex.cos θ) :
    tTransfer_2d_4 la s kx kz_top kz_bot ψ θ' n_top n_bot u = tTransfer_2d_4 la s kx kz_top kz_bot ψ θ n_top n_bot u := by
  unfold tTransfer_2d_4
  simp only [tFinalB_cos _ _ _ h, tSubResPsi, tSubResTetm, tSubRes, h]

theorem tConv_solve_turned (la : LinAlg) (s : TSettings) {θ : ℂ} {φ : Option ℂ} (hc : Complex.cos θ = Complex.cos s.p.theta)
    (h1 : Complex.sin θ * Complex.cos (φ.getD 0) = Complex.sin s.p.theta * Complex.cos (s.p.phi.getD 0))
    (h2 : Complex.sin θ * Complex.sin (φ.getD 0) = Complex.sin s.p.theta * Complex.sin (s.p.phi.getD 0))
    (hg : tGratingType { s with p := s.p.turned θ φ } = tGratingType s) :
    tConv_solve la { s with p := s.p.turned θ φ } = tConv_solve la s := by
  have hx : ∀ wl, tKxVec (s.p.turned θ φ) wl = tKxVec s.p wl := by
    intro wl
    funext i
    unfold tKxVec
    simp only [mul_assoc, h1]
  have hy : ∀ wl, tKyVec (s.p.turned θ φ) wl = tKyVec s.p wl := by
    intro wl
    funext i
    unfold tKyVec
    simp only [mul_assoc, h2]
  have k1 : ∀ wl cs, tSolve_1d la (s.p.turned θ φ) wl cs = tSolve_1d la s.p wl cs := by
    intro wl cs
    unfold tSolve_1d
    simp only [hx, tTransfer_1d_4_cos _ _ _ _ _ _ _ _ _ hc]
    rfl
  have k2 : ∀ wl cs, tSolve_1d_conical la (s.p.turned θ φ) wl cs = tSolve_1d_conical la s.p wl cs := by
    intro wl cs
    unfold tSolve_1d_conical
    simp only [hx, hy, tTransfer_2d_4_cos _ _ _ _ _ _ _ _ _ hc]
  have k3 : ∀ wl cs, tSolve_2d la (s.p.turned θ φ) wl cs = tSolve_2d la s.p wl cs := by
    intro wl cs
    unfold tSolve_2d
    simp only [hx, hy, tTransfer_2d_4_cos _ _ _ _ _ _ _ _ _ hc]
  have hs : ∀ wl cs, tSolve_for_conv la { s with p := s.p.turned θ φ } wl cs = tSolve_for_conv la s wl cs := by
    intro wl cs
    unfold tSolve_for_conv
    simp only [hg, k1, k2, k3]
  unfold tConv_solve
  simp only [hs]
  rfl

end Meent
