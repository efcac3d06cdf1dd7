import Verif.Lemmas.Passive1D
import Verif.Lemmas.ConTo2D

/-!
# Passive layers in the conical and 2D solvers (helper lemmas)
-/

open Matrix

namespace Meent

set_option linter.unusedSectionVars false
set_option linter.unusedSimpArgs false
set_option linter.unusedVariables false

section
variable {m : Type} [Fintype m] [DecidableEq m]

theorem beta_fromBlocks (A B C D : Matrix m m ℂ) (v : m ⊕ m → ℂ) :
    beta (fromBlocks A B C D) v v = beta A (v ∘ Sum.inl) (v ∘ Sum.inl) + beta B (v ∘ Sum.inl) (v ∘ Sum.inr)
      + (beta C (v ∘ Sum.inr) (v ∘ Sum.inl) + beta D (v ∘ Sum.inr) (v ∘ Sum.inr)) := by
  unfold beta
  rw [fromBlocks_mulVec]
  simp only [dotProduct, Fintype.sum_sum_type, Sum.elim_inl, Sum.elim_inr, Pi.add_apply, mul_add, Finset.sum_add_distrib,
    Pi.star_apply, Function.comp_apply]

theorem beta_jXY_omegaR {kx ky : m → ℂ} (c : Conv m) (hkx : ∀ i, star (kx i) = kx i) (hky : ∀ i, star (ky i) = ky i) (v : m ⊕ m → ℂ) :
    (beta (jXY * omegaR kx ky c) v v).im = -(beta c.epx (v ∘ Sum.inl) (v ∘ Sum.inl)).im - (beta c.epy (v ∘ Sum.inr) (v ∘ Sum.inr)).im := by
  have hKx := (isHermitian_diagonal_real hkx).eq
  have hKy := (isHermitian_diagonal_real hky).eq
  set H : Matrix (m ⊕ m) (m ⊕ m) ℂ := fromBlocks (diagonal ky * diagonal ky) (-(diagonal ky * diagonal kx))
    (-(diagonal kx * diagonal ky)) (diagonal kx * diagonal kx) with hH
  have hHh : H.IsHermitian := by
    rw [IsHermitian, hH, fromBlocks_conjTranspose]
    simp only [conjTranspose_neg, conjTranspose_mul, hKx, hKy]
  have e : jXY * omegaR kx ky c = H - fromBlocks c.epx 0 0 c.epy := by
    unfold jXY omegaR
    simp only [diag_sq]
    rw [fromBlocks_multiply, hH]
    ext i j
    rcases i with i | i <;> rcases j with j | j <;>
      simp only [Matrix.zero_mul, zero_add, add_zero, Matrix.neg_mul, Matrix.one_mul, fromBlocks_apply₁₁, fromBlocks_apply₁₂,
        fromBlocks_apply₂₁, fromBlocks_apply₂₂, Matrix.sub_apply, Matrix.neg_apply, Matrix.zero_apply] <;> ring
  rw [e, beta_sub_mat, Complex.sub_im, IsHermitian.beta_im hHh, beta_fromBlocks]
  have z : ∀ u w : m → ℂ, beta (0 : Matrix m m ℂ) u w = 0 := by intro u w; simp [beta]
  rw [z, z, add_zero, zero_add, Complex.add_im]
  ring

theorem beta_jXY_omegaL {kx ky : m → ℂ} (c : Conv m) (hkx : ∀ i, star (kx i) = kx i) (hky : ∀ i, star (ky i) = ky i) (v : m ⊕ m → ℂ) :
    beta (jXYᴴ * omegaL kx ky c) v v = beta 1 v v - beta c.epzi (diagonal ky *ᵥ (v ∘ Sum.inl) - diagonal kx *ᵥ (v ∘ Sum.inr))
          (diagonal ky *ᵥ (v ∘ Sum.inl) - diagonal kx *ᵥ (v ∘ Sum.inr)) := by
  have hKx := (isHermitian_diagonal_real hkx).eq
  have hKy := (isHermitian_diagonal_real hky).eq
  have e : jXYᴴ * omegaL kx ky c = 1 - fromBlocks (diagonal ky * c.epzi * diagonal ky) (-(diagonal ky * c.epzi * diagonal kx))
      (-(diagonal kx * c.epzi * diagonal ky)) (diagonal kx * c.epzi * diagonal kx) := by
    unfold jXY omegaL
    rw [fromBlocks_conjTranspose, fromBlocks_multiply, ← fromBlocks_one]
    ext i j
    rcases i with i | i <;> rcases j with j | j <;>
      simp only [Matrix.zero_mul, zero_add, add_zero, Matrix.neg_mul, Matrix.one_mul, fromBlocks_apply₁₁, fromBlocks_apply₁₂,
        fromBlocks_apply₂₁, fromBlocks_apply₂₂, Matrix.sub_apply, Matrix.neg_apply, Matrix.zero_apply, conjTranspose_zero,
        conjTranspose_one, conjTranspose_neg, neg_neg] <;> ring
  rw [e, beta_sub_mat, beta_fromBlocks]
  congr 1
  have hs : ∀ (A B : Matrix m m ℂ) (u w : m → ℂ), Aᴴ = A → beta (A * c.epzi * B) u w = beta c.epzi (A *ᵥ u) (B *ᵥ w) := by
    intro A B u w hA
    rw [beta_mulVec_left, beta_mulVec_right, hA]
  rw [beta_neg_mat, beta_neg_mat, hs _ _ _ _ hKy, hs _ _ _ _ hKy, hs _ _ _ _ hKx, hs _ _ _ _ hKx]
  unfold beta
  simp only [star_sub, sub_dotProduct, mulVec_sub, dotProduct_sub]
  ring

theorem ModePair.dissipative {kx ky : m → ℂ} {c : Conv m} {W V : Matrix (m ⊕ m) (m ⊕ m) ℂ}
    {q : m ⊕ m → ℂ} (h : ModePair kx ky c W V q) (hkx : ∀ i, star (kx i) = kx i)
    (hky : ∀ i, star (ky i) = ky i) (hc : LossyConv c) : Dissipative jXY W V q := by
  refine Dissipative.of_PR h.left h.right ?_ ?_
  · intro v
    rw [beta_jXY_omegaR c hkx hky]
    have h1 := hc.x (v ∘ Sum.inl)
    have h2 := hc.y (v ∘ Sum.inr)
    linarith
  · intro v
    rw [beta_jXY_omegaL c hkx hky, Complex.sub_im, IsHermitian.beta_im isHermitian_one]
    have := hc.z (diagonal ky *ᵥ (v ∘ Sum.inl) - diagonal kx *ᵥ (v ∘ Sum.inr))
    linarith

theorem Dissipative.rot {varphi : m → ℂ} (h : ∀ i, star (varphi i) = varphi i)
    {W V : Matrix (m ⊕ m) (m ⊕ m) ℂ} {q : m ⊕ m → ℂ} (hl : Dissipative jXY W V q) :
    Dissipative jSP (rotE varphi * W) (rotH varphi * V) q := by
  have e : (rotE varphi * W)ᴴ * jSP * (rotH varphi * V) = Wᴴ * jXY * V := by
    rw [← rot_jSP h, conjTranspose_mul]
    simp only [Matrix.mul_assoc]
  exact ⟨by rw [e]; exact hl.nq, by rw [e]; exact hl.nhq⟩

end

/-- Whole-solve bound from a flux inequality of the loop. -/
theorem out4_passive {fx fy : ℕ} {la : LinAlg} {s : TState (FlatIdx fx fy ⊕ FlatIdx fx fy)}
    {kzt kzb : FlatIdx fx fy → ℂ} {nt th ps : ℝ} (hnt : 0 < nt) (hc : 0 < Real.cos th) {nb : ℂ}
    (hk : kzt (ctr2 fx fy) = ((nt * Real.cos th : ℝ) : ℂ)) {o : Out4 fx fy}
    (hinv : FluxDec jSP ⟨fromBlocks 1 0 0 (((1 : ℂ) / nb ^ 2) • (Complex.I • diagonal kzb)),
      fromBlocks (Complex.I • diagonal kzb) 0 0 1, 1⟩ s)
    (h : transfer_2d_4 la s kzt kzb (ps : ℂ) (th : ℂ) (nt : ℂ) nb false = .ok o) :
    Spec.totalEfficiency o.res ≤ 1 ∧ Spec.totalEfficiency o.res_te ≤ 1 ∧
      Spec.totalEfficiency o.res_tm ≤ 1 := by
  unfold transfer_2d_4 at h
  simp only [Except.bind_ok, meeinv_false_ok, Except.ok.injEq] at h
  obtain ⟨N, ⟨hu, rfl⟩, rfl⟩ := h
  have main : ∀ ps : ℝ, Spec.totalEfficiency (subResOf s kzt kzb (th : ℂ) (nt : ℂ) nb
      ((finalA (nt : ℂ) kzt s)⁻¹ *ᵥ finalB deltaI0 (ps : ℂ) (th : ℂ) (nt : ℂ))) ≤ 1 := by
    intro ps
    set rt := (finalA (nt : ℂ) kzt s)⁻¹ *ᵥ finalB deltaI0 (ps : ℂ) (th : ℂ) (nt : ℂ) with hrt
    have he : finalA (nt : ℂ) kzt s *ᵥ rt = finalB deltaI0 (ps : ℂ) (th : ℂ) (nt : ℂ) := by
      rw [hrt, mulVec_mulVec, mul_nonsing_inv _ hu, one_mulVec]
    obtain ⟨b1, b2⟩ := subRes_balance (kzb := kzb) (nb := nb) hnt hc hk he
    have := hinv (fun j => rt (.inr j))
    simp only at this
    rw [b1, b2] at this
    have := le_of_mul_le_mul_left this (mul_pos hnt hc)
    unfold Spec.totalEfficiency
    linarith
  refine ⟨main ps, main (Real.pi / 2), ?_⟩
  have := main 0
  simpa using this

/-- Passive layers in `solve_2d`. -/
theorem solve_2d_passive {la : LinAlg} {p : Params} {wl nt th ph ps : ℝ}
    {convs : List (Conv (FlatIdx p.fto.1 p.fto.2))} {o : Out2D p.fto.1 p.fto.2}
    (hp : p.use_pinv = false) (hphi : p.phi.getD 0 = (ph : ℂ)) (hpsi : p.psi = (ps : ℂ))
    (hi : RealIncidence p nt th) (hwl : 0 < wl) (hd : ∀ d ∈ p.thickness, 0 ≤ d)
    (hh : ∀ c ∈ convs, LossyConv c)
    (h : solve_2d la p wl convs = .ok o) :
    Spec.totalEfficiency o.out.res ≤ 1 ∧ Spec.totalEfficiency o.out.res_te ≤ 1 ∧
      Spec.totalEfficiency o.out.res_tm ≤ 1 := by
  obtain ⟨-, init, r, x, h1, hr, h4, rfl⟩ := (solve_2d_iff hp).mp h
  unfold transfer_2d_1 at h1
  simp only [Except.bind_ok, Except.ok.injEq] at h1
  obtain ⟨varphi, hv, rfl⟩ := h1
  have hreal := varphiAll_real (hi.kxF_real hphi wl) (hi.kyF_real hphi wl) hv
  simp only at hr h4
  rw [hpsi, hi.hth, hi.hn] at h4
  have hkz := hi.kz_ctr2 hphi wl
  rw [hi.hn] at hkz
  refine out4_passive hi.hnt hi.cos_pos hkz ?_ h4
  refine runLayers_inv (FluxDec jSP _) _ ?_ _ r hr ?_
  · intro c d s r' hm hs hP
    have hc := hh c (List.of_mem_zip hm).1
    unfold step2d at hs
    simp only [Except.bind_ok, transfer_2d_3_eq, Except.ok.injEq] at hs
    obtain ⟨M, hM, r3, h3, rfl⟩ := hs
    rw [bigW2d_eq, bigV2d_eq] at h3
    exact StepData.fluxDec (by positivity) (hd d (List.of_mem_zip hm).2) (tmmStep_ok.mp h3)
      (((modePair_2d hM).dissipative (hi.kxF_star hphi wl) (hi.kyF_star hphi wl) hc).rot hreal) hP
  · intro t; simp

/-- Passive layers in `solve_1d_conical`. -/
theorem solve_con_passive {la : LinAlg} {p : Params} {wl nt th ph ps : ℝ}
    {convs : List (Conv (FlatIdx p.fto.1 p.fto.2))} {o : OutCon p.fto.1 p.fto.2}
    (hp : p.use_pinv = false) (hphi : p.phi.getD 0 = (ph : ℂ)) (hpsi : p.psi = (ps : ℂ))
    (hi : RealIncidence p nt th) (hwl : 0 < wl) (hd : ∀ d ∈ p.thickness, 0 ≤ d)
    (hh : ∀ c ∈ convs, LossyConv c)
    (hz1 : p.fto.2 = 0 → ∀ c ∈ convs, c.epzi * c.epy = 1)
    (h : solve_1d_conical la p wl convs = .ok o) :
    Spec.totalEfficiency o.out.res ≤ 1 ∧ Spec.totalEfficiency o.out.res_te ≤ 1 ∧
      Spec.totalEfficiency o.out.res_tm ≤ 1 := by
  obtain ⟨-, hf, init, r, x, h1, hr, h4, rfl⟩ := (solve_con_iff hp).mp h
  unfold transfer_2d_1 at h1
  simp only [Except.bind_ok, Except.ok.injEq] at h1
  obtain ⟨varphi, hv, rfl⟩ := h1
  have hreal := varphiAll_real (hi.kxF_real hphi wl) (hi.kyF_real hphi wl) hv
  simp only at hr h4
  rw [hpsi, hi.hth, hi.hn] at h4
  have hkz := hi.kz_ctr2 hphi wl
  rw [hi.hn] at hkz
  have hky : ∃ k : ℂ, kyF p wl = fun _ => k := by
    refine ⟨kyF p wl (ctr2 _ _), ?_⟩
    funext i
    unfold kyF tileY
    congr 1
    ext
    have h1 := (i.divNat (m := 2 * p.fto.2 + 1) (n := 2 * p.fto.1 + 1)).isLt
    have h2 := ((ctr2 p.fto.1 p.fto.2).divNat (m := 2 * p.fto.2 + 1) (n := 2 * p.fto.1 + 1)).isLt
    omega
  obtain ⟨k, hk⟩ := hky
  have hks := hi.kyF_star hphi wl
  refine out4_passive hi.hnt hi.cos_pos hkz ?_ h4
  refine runLayers_inv (FluxDec jSP _) _ ?_ _ r hr ?_
  · intro c d s r' hm hs hP
    have hc := hh c (List.of_mem_zip hm).1
    have hz1 := hz1 hf c (List.of_mem_zip hm).1
    unfold stepCon at hs
    simp only [Except.bind_ok, transfer_1d_conical_3_eq, Except.ok.injEq] at hs
    obtain ⟨M, hM, r3, h3, rfl⟩ := hs
    rw [conW_eq, conV_eq] at h3
    rw [hk] at hM hks
    exact StepData.fluxDec (by positivity) (hd d (List.of_mem_zip hm).2) (tmmStep_ok.mp h3)
      (((modePair_con hz1 hM).dissipative (hi.kxF_star hphi wl) hks hc).rot hreal) hP
  · intro t; simp

end Meent
