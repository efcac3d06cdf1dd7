import Verif.Lemmas.Modes2D
import Verif.Lemmas.Energy1DSolve
import Mathlib.Analysis.SpecialFunctions.Complex.Arctan

/-!
# Power balance of the conical and 2D solvers (helper lemmas)
-/

open Matrix

namespace Meent

set_option linter.unusedSectionVars false
set_option linter.unusedSimpArgs false

/-! ### Indices -/

/-- Flat index of the order `(0, 0)`. -/
def ctr2 (fx fy : ℕ) : FlatIdx fx fy := finProdFinEquiv (ctr fy, ctr fx)

theorem ctr2_val (fx fy : ℕ) : (ctr2 fx fy).val = ((2 * fy + 1) * (2 * fx + 1)) / 2 := by
  unfold ctr2 ctr
  simp only [finProdFinEquiv_apply_val]
  have : (2 * fy + 1) * (2 * fx + 1) = 2 * (fx + (2 * fx + 1) * fy) + 1 := by ring
  omega

theorem deltaI0_eq2 {fx fy : ℕ} (i : FlatIdx fx fy) :
    (deltaI0 i : ℂ) = if i = ctr2 fx fy then 1 else 0 := by
  unfold deltaI0
  rw [← ctr2_val]
  simp [Fin.ext_iff]

theorem ctr2_modNat (fx fy : ℕ) : (ctr2 fx fy).modNat = ctr fx := by
  unfold ctr2
  have := finProdFinEquiv.symm_apply_apply (ctr fy, ctr fx)
  exact congrArg Prod.snd this

theorem ctr2_divNat (fx fy : ℕ) : (ctr2 fx fy).divNat = ctr fy := by
  unfold ctr2
  have := finProdFinEquiv.symm_apply_apply (ctr fy, ctr fx)
  exact congrArg Prod.fst this

theorem sum_grid {fx fy : ℕ} (f : FlatIdx fx fy → ℝ) :
    ∑ j : Fin (2 * fy + 1), ∑ i : Fin (2 * fx + 1), f (finProdFinEquiv (j, i)) = ∑ k, f k := by
  rw [← Fintype.sum_prod_type', ← Equiv.sum_comp finProdFinEquiv]

/-! ### Real wavenumbers -/

namespace RealIncidence
variable {p : Params} {nt th ph : ℝ}

theorem kx_eq' (h : RealIncidence p nt th) (hphi : p.phi.getD 0 = (ph : ℂ)) (wl : ℝ)
    (i : Fin (2 * p.fto.1 + 1)) :
    kxVec p wl i = ((nt * Real.sin th * Real.cos ph
      + ((i : ℤ) - (p.fto.1 : ℤ) : ℤ) * (wl / p.period.1) : ℝ) : ℂ) := by
  unfold kxVec
  rw [h.sinTheta_eq, hphi, h.hn, ← Complex.ofReal_cos]
  simp only [Complex.star_def, map_add, map_mul, Complex.conj_ofReal, map_intCast]
  push_cast
  ring

theorem ky_eq' (h : RealIncidence p nt th) (hphi : p.phi.getD 0 = (ph : ℂ)) (wl : ℝ)
    (i : Fin (2 * p.fto.2 + 1)) :
    kyVec p wl i = ((nt * Real.sin th * Real.sin ph
      + ((i : ℤ) - (p.fto.2 : ℤ) : ℤ) * (wl / p.period.2) : ℝ) : ℂ) := by
  unfold kyVec
  rw [h.sinTheta_eq, hphi, h.hn, ← Complex.ofReal_sin]
  simp only [Complex.star_def, map_add, map_mul, Complex.conj_ofReal, map_intCast]
  push_cast
  ring

theorem kxF_real (h : RealIncidence p nt th) (hphi : p.phi.getD 0 = (ph : ℂ)) (wl : ℝ) (i) :
    ∃ r : ℝ, kxF p wl i = (r : ℂ) := ⟨_, h.kx_eq' hphi wl _⟩

theorem kyF_real (h : RealIncidence p nt th) (hphi : p.phi.getD 0 = (ph : ℂ)) (wl : ℝ) (i) :
    ∃ r : ℝ, kyF p wl i = (r : ℂ) := ⟨_, h.ky_eq' hphi wl _⟩

theorem kxF_star (h : RealIncidence p nt th) (hphi : p.phi.getD 0 = (ph : ℂ)) (wl : ℝ) (i) :
    star (kxF p wl i) = kxF p wl i := by
  obtain ⟨r, e⟩ := h.kxF_real hphi wl i
  rw [e, Complex.star_def, Complex.conj_ofReal]

theorem kyF_star (h : RealIncidence p nt th) (hphi : p.phi.getD 0 = (ph : ℂ)) (wl : ℝ) (i) :
    star (kyF p wl i) = kyF p wl i := by
  obtain ⟨r, e⟩ := h.kyF_real hphi wl i
  rw [e, Complex.star_def, Complex.conj_ofReal]

theorem kz_ctr2 (h : RealIncidence p nt th) (hphi : p.phi.getD 0 = (ph : ℂ)) (wl : ℝ) :
    kz2d p.n_top (kxF p wl) (kyF p wl) (ctr2 p.fto.1 p.fto.2) = ((nt * Real.cos th : ℝ) : ℂ) := by
  unfold kz2d
  have ex : kxF p wl (ctr2 p.fto.1 p.fto.2) = ((nt * Real.sin th * Real.cos ph : ℝ) : ℂ) := by
    unfold kxF tileX
    rw [ctr2_modNat, h.kx_eq' hphi]
    simp [ctr]
  have ey : kyF p wl (ctr2 p.fto.1 p.fto.2) = ((nt * Real.sin th * Real.sin ph : ℝ) : ℂ) := by
    unfold kyF tileY
    rw [ctr2_divNat, h.ky_eq' hphi]
    simp [ctr]
  have e : p.n_top ^ 2 - (kxF p wl (ctr2 p.fto.1 p.fto.2)) ^ 2 - (kyF p wl (ctr2 p.fto.1 p.fto.2)) ^ 2
      = ((nt * Real.cos th : ℝ) : ℂ) ^ 2 := by
    rw [h.hn, ex, ey]
    have h1 := Real.sin_sq_add_cos_sq th
    have h2 := Real.sin_sq_add_cos_sq ph
    norm_cast
    linear_combination -(nt ^ 2) * h1 - nt ^ 2 * Real.sin th ^ 2 * h2
  rw [e, csqrt_ofReal_sq (mul_nonneg h.hnt.le h.cos_pos.le), Complex.star_def, Complex.conj_ofReal]

end RealIncidence

theorem varphi1_real {x y : ℝ} {v : ℂ} (h : varphi1 (x : ℂ) (y : ℂ) = some v) : star v = v := by
  unfold varphi1 at h
  split at h
  · split at h
    · cases h
    · simp only [Option.some.injEq] at h
      subst h
      split
      · rw [star_neg, Complex.star_def, Complex.conj_ofReal]
      · rw [Complex.star_def, Complex.conj_ofReal]
  · simp only [Option.some.injEq] at h
    subst h
    rw [← Complex.ofReal_div, ← Complex.ofReal_arctan, Complex.star_def, Complex.conj_ofReal]

theorem varphiAll_ok {m : Type} {kx ky v : m → ℂ} :
    varphiAll kx ky = .ok v ↔ ∀ i, varphi1 (kx i) (ky i) = some (v i) := by
  unfold varphiAll
  constructor
  · intro h
    split at h
    · simp only [Except.ok.injEq] at h
      subst h
      intro i; simp
    · cases h
  · intro h
    have : ∀ i, (varphi1 (kx i) (ky i)).isSome := fun i => by rw [h i]; rfl
    rw [dif_pos this]
    congr 1
    ext i
    simp [h i]

theorem varphiAll_real {m : Type} {kx ky v : m → ℂ} (hx : ∀ i, ∃ r : ℝ, kx i = (r : ℂ))
    (hy : ∀ i, ∃ r : ℝ, ky i = (r : ℂ)) (h : varphiAll kx ky = .ok v) (i : m) : star (v i) = v i := by
  have := varphiAll_ok.mp h i
  obtain ⟨x, ex⟩ := hx i
  obtain ⟨y, ey⟩ := hy i
  rw [ex, ey] at this
  exact varphi1_real this

/-! ### The final equations -/

section
variable {m : Type} [Fintype m] [DecidableEq m]

theorem flux_jSP_eq (S U : m ⊕ m → ℂ) :
    flux jSP S U = ∑ i, (star (S (.inl i)) * U (.inl i)).im - ∑ i, (star (S (.inr i)) * U (.inr i)).im := by
  unfold flux beta jSP
  rw [fromBlocks_mulVec]
  simp only [dotProduct, Fintype.sum_sum_type, Sum.elim_inl, Sum.elim_inr, one_mulVec, zero_mulVec,
    add_zero, zero_add, neg_mulVec, Pi.star_apply, Function.comp_apply, Pi.neg_apply, mul_neg,
    Finset.sum_neg_distrib, Complex.add_im, Complex.neg_im, Complex.im_sum]
  ring

theorem flux_bot (nb : ℂ) (kzb : m → ℂ) (t : m ⊕ m → ℂ) :
    flux jSP ((fromBlocks 1 0 0 (((1 : ℂ) / nb ^ 2) • (Complex.I • diagonal kzb)) : Matrix (m ⊕ m) (m ⊕ m) ℂ) *ᵥ t)
      ((fromBlocks (Complex.I • diagonal kzb) 0 0 1 : Matrix (m ⊕ m) (m ⊕ m) ℂ) *ᵥ t)
    = ∑ i, (Complex.normSq (t (.inl i)) * (kzb i).re
        + Complex.normSq (t (.inr i)) * (kzb i / nb ^ 2).re) := by
  rw [flux_jSP_eq, fromBlocks_mulVec, fromBlocks_mulVec, ← Finset.sum_sub_distrib]
  refine Finset.sum_congr rfl fun i _ => ?_
  simp only [Sum.elim_inl, Sum.elim_inr, one_mulVec, zero_mulVec, add_zero, zero_add, Pi.add_apply,
    smul_mulVec, Pi.smul_apply, mulVec_diagonal, smul_eq_mul, Function.comp_apply]
  rw [one_div, div_eq_mul_inv]
  generalize (nb ^ 2)⁻¹ = w
  simp only [Complex.star_def, map_mul, Complex.conj_I, Complex.mul_im, Complex.mul_re, Complex.neg_re,
    Complex.neg_im, Complex.I_re, Complex.I_im, Complex.conj_re, Complex.conj_im, Complex.normSq_apply]
  ring

/-- What the final linear system says about the fields just above the stack. -/
theorem final_eqs {nt th ps : ℂ} {kzt δ : m → ℂ} {s : TState (m ⊕ m)}
    {rt : (m ⊕ m) ⊕ (m ⊕ m) → ℂ} (h : finalA nt kzt s *ᵥ rt = finalB δ ps th nt) :
    (∀ i, (s.F *ᵥ fun j => rt (.inr j)) (.inl i) = rt (.inl (.inl i)) + Complex.sin ps * δ i) ∧
    (∀ i, (s.F *ᵥ fun j => rt (.inr j)) (.inr i)
      = -(Complex.I * (kzt i / nt ^ 2) * rt (.inl (.inr i))) - Complex.cos ps * Complex.cos th * δ i) ∧
    (∀ i, (s.G *ᵥ fun j => rt (.inr j)) (.inl i)
      = -(Complex.I * kzt i * rt (.inl (.inl i))) + Complex.I * Complex.sin ps * nt * Complex.cos th * δ i) ∧
    (∀ i, (s.G *ᵥ fun j => rt (.inr j)) (.inr i)
      = rt (.inl (.inr i)) + Complex.I * nt * Complex.cos ps * δ i) := by
  unfold finalA at h
  rw [fromBlocks_mulVec, fromBlocks_mulVec, fromBlocks_mulVec] at h
  have c1 : (rt ∘ Sum.inr : m ⊕ m → ℂ) = fun j => rt (.inr j) := rfl
  refine ⟨fun i => ?_, fun i => ?_, fun i => ?_, fun i => ?_⟩
  · have := congrFun h (.inl (.inl i))
    simp only [Sum.elim_inl, Sum.elim_inr, Pi.add_apply, one_mulVec, zero_mulVec, add_zero, zero_add,
      neg_mulVec, Pi.neg_apply, Function.comp_apply, finalB, c1] at this
    linear_combination -this
  · have := congrFun h (.inl (.inr i))
    simp only [Sum.elim_inl, Sum.elim_inr, Pi.add_apply, one_mulVec, zero_mulVec, add_zero, zero_add,
      neg_mulVec, Pi.neg_apply, Function.comp_apply, finalB, c1, smul_mulVec, Pi.smul_apply,
      mulVec_diagonal, smul_eq_mul] at this
    linear_combination -this
  · have := congrFun h (.inr (.inl i))
    simp only [Sum.elim_inl, Sum.elim_inr, Pi.add_apply, one_mulVec, zero_mulVec, add_zero, zero_add,
      neg_mulVec, Pi.neg_apply, Function.comp_apply, finalB, c1, smul_mulVec, Pi.smul_apply,
      mulVec_diagonal, smul_eq_mul] at this
    linear_combination -this
  · have := congrFun h (.inr (.inr i))
    simp only [Sum.elim_inl, Sum.elim_inr, Pi.add_apply, one_mulVec, zero_mulVec, add_zero, zero_add,
      neg_mulVec, Pi.neg_apply, Function.comp_apply, finalB, c1] at this
    linear_combination -this

/-- Flux just above the stack: incident minus reflected. -/
theorem flux_top {nt th ps : ℝ} (hnt : nt ≠ 0) {kzt δ : m → ℂ} {c : m} {s : TState (m ⊕ m)}
    {rt : (m ⊕ m) ⊕ (m ⊕ m) → ℂ} (hδ : ∀ i, δ i = if i = c then 1 else 0)
    (hk : kzt c = ((nt * Real.cos th : ℝ) : ℂ))
    (h : finalA (nt : ℂ) kzt s *ᵥ rt = finalB δ (ps : ℂ) (th : ℂ) (nt : ℂ)) :
    flux jSP (s.F *ᵥ fun j => rt (.inr j)) (s.G *ᵥ fun j => rt (.inr j))
      = nt * Real.cos th - ∑ i, (Complex.normSq (rt (.inl (.inl i))) * (kzt i).re
        + Complex.normSq (rt (.inl (.inr i))) * (kzt i / (nt : ℂ) ^ 2).re) := by
  obtain ⟨h1, h2, h3, h4⟩ := final_eqs h
  rw [flux_jSP_eq, ← Finset.sum_sub_distrib]
  have hre : ∀ z : ℂ, (z / (nt : ℂ) ^ 2).re = z.re / nt ^ 2 := by
    intro z; rw [← Complex.ofReal_pow, Complex.div_ofReal_re]
  have him : ∀ z : ℂ, (z / (nt : ℂ) ^ 2).im = z.im / nt ^ 2 := by
    intro z; rw [← Complex.ofReal_pow, Complex.div_ofReal_im]
  have key : ∀ i, (star ((s.F *ᵥ fun j => rt (.inr j)) (.inl i)) * (s.G *ᵥ fun j => rt (.inr j)) (.inl i)).im
      - (star ((s.F *ᵥ fun j => rt (.inr j)) (.inr i)) * (s.G *ᵥ fun j => rt (.inr j)) (.inr i)).im
      = (if i = c then nt * Real.cos th else 0)
        - (Complex.normSq (rt (.inl (.inl i))) * (kzt i).re
        + Complex.normSq (rt (.inl (.inr i))) * (kzt i / (nt : ℂ) ^ 2).re) := by
    intro i
    rw [h1, h2, h3, h4]
    simp only [← Complex.ofReal_sin, ← Complex.ofReal_cos]
    have hsc := Real.sin_sq_add_cos_sq ps
    by_cases hi : i = c
    · subst hi
      simp only [hδ, hk, if_true, mul_one, hre]
      simp only [Complex.star_def, Complex.add_im, Complex.mul_im, Complex.mul_re,
        Complex.neg_re, Complex.neg_im, Complex.I_re, Complex.I_im, Complex.conj_re, Complex.conj_im,
        Complex.normSq_apply, Complex.add_re, Complex.sub_re, Complex.sub_im, Complex.ofReal_re,
        Complex.ofReal_im, hre, him]
      field_simp
      linear_combination (nt ^ 3 * Real.cos th) * hsc
    · simp only [hδ, hi, if_false, mul_zero, add_zero, sub_zero, hre]
      simp only [Complex.star_def, Complex.mul_im, Complex.mul_re,
        Complex.neg_re, Complex.neg_im, Complex.I_re, Complex.I_im, Complex.conj_re, Complex.conj_im,
        Complex.normSq_apply, hre, him]
      ring
  rw [Finset.sum_congr rfl fun i _ => key i, Finset.sum_sub_distrib]
  simp

end

/-- Sum of the reflected efficiencies of one result dictionary, in terms of flux. -/
theorem subRes_balance {fx fy : ℕ} {s : TState (FlatIdx fx fy ⊕ FlatIdx fx fy)}
    {kzt kzb : FlatIdx fx fy → ℂ} {nt th ps : ℝ} (hnt : 0 < nt) (hc : 0 < Real.cos th) {nb : ℂ}
    (hk : kzt (ctr2 fx fy) = ((nt * Real.cos th : ℝ) : ℂ))
    {rt : (FlatIdx fx fy ⊕ FlatIdx fx fy) ⊕ (FlatIdx fx fy ⊕ FlatIdx fx fy) → ℂ}
    (h : finalA (nt : ℂ) kzt s *ᵥ rt = finalB deltaI0 (ps : ℂ) (th : ℂ) (nt : ℂ)) :
    flux jSP (s.F *ᵥ fun j => rt (.inr j)) (s.G *ᵥ fun j => rt (.inr j))
      = (nt * Real.cos th) * (1 - ∑ j, ∑ i, (subResOf s kzt kzb (th : ℂ) (nt : ℂ) nb rt).de_ri j i) ∧
    flux jSP
      ((fromBlocks 1 0 0 (((1 : ℂ) / nb ^ 2) • (Complex.I • diagonal kzb)) : Matrix _ _ ℂ) *ᵥ
        (s.T *ᵥ fun j => rt (.inr j)))
      ((fromBlocks (Complex.I • diagonal kzb) 0 0 1 : Matrix _ _ ℂ) *ᵥ (s.T *ᵥ fun j => rt (.inr j)))
      = (nt * Real.cos th) * ∑ j, ∑ i, (subResOf s kzt kzb (th : ℂ) (nt : ℂ) nb rt).de_ti j i := by
  have hne := hnt.ne'
  have hce := hc.ne'
  have hdiv : ∀ z : ℂ, (z / ((nt : ℂ) * Complex.cos (th : ℂ))).re = z.re / (nt * Real.cos th) := by
    intro z
    rw [← Complex.ofReal_cos, ← Complex.ofReal_mul, Complex.div_ofReal_re]
  constructor
  · rw [flux_top hne (fun i => deltaI0_eq2 i) hk h]
    have : ∑ j, ∑ i, (subResOf s kzt kzb (th : ℂ) (nt : ℂ) nb rt).de_ri j i
        = ∑ k, (effOf (rt (.inl (.inl k))) (kzt k / (nt * Complex.cos th))
          + effOf (rt (.inl (.inr k))) (kzt k / (nt : ℂ) ^ 2 / (nt * Complex.cos th))) := by
      rw [← sum_grid]
      rfl
    rw [this, mul_sub, mul_one, Finset.mul_sum]
    congr 1
    refine Finset.sum_congr rfl fun i _ => ?_
    rw [effOf_eq, effOf_eq, hdiv, hdiv]
    field_simp
  · rw [flux_bot]
    have : ∑ j, ∑ i, (subResOf s kzt kzb (th : ℂ) (nt : ℂ) nb rt).de_ti j i
        = ∑ k, (effOf ((s.T *ᵥ fun j => rt (.inr j)) (.inl k)) (kzb k / (nt * Complex.cos th))
          + effOf ((s.T *ᵥ fun j => rt (.inr j)) (.inr k)) (kzb k / nb ^ 2 / (nt * Complex.cos th))) := by
      rw [← sum_grid]
      rfl
    rw [this, Finset.mul_sum]
    refine Finset.sum_congr rfl fun i _ => ?_
    rw [effOf_eq, effOf_eq, hdiv, hdiv]
    field_simp

/-- Whole-solve conservation from a flux invariant of the loop. -/
theorem out4_energy {fx fy : ℕ} {la : LinAlg} {s : TState (FlatIdx fx fy ⊕ FlatIdx fx fy)}
    {kzt kzb : FlatIdx fx fy → ℂ} {nt th ps : ℝ} (hnt : 0 < nt) (hc : 0 < Real.cos th) {nb : ℂ}
    (hk : kzt (ctr2 fx fy) = ((nt * Real.cos th : ℝ) : ℂ)) {o : Out4 fx fy}
    (hinv : FluxInv jSP ⟨fromBlocks 1 0 0 (((1 : ℂ) / nb ^ 2) • (Complex.I • diagonal kzb)),
      fromBlocks (Complex.I • diagonal kzb) 0 0 1, 1⟩ s)
    (h : transfer_2d_4 la s kzt kzb (ps : ℂ) (th : ℂ) (nt : ℂ) nb false = .ok o) :
    Spec.totalEfficiency o.res = 1 ∧ Spec.totalEfficiency o.res_te = 1 ∧
      Spec.totalEfficiency o.res_tm = 1 := by
  unfold transfer_2d_4 at h
  simp only [Except.bind_ok, meeinv_false_ok, Except.ok.injEq] at h
  obtain ⟨N, ⟨hu, rfl⟩, rfl⟩ := h
  have main : ∀ ps : ℝ, Spec.totalEfficiency (subResOf s kzt kzb (th : ℂ) (nt : ℂ) nb
      ((finalA (nt : ℂ) kzt s)⁻¹ *ᵥ finalB deltaI0 (ps : ℂ) (th : ℂ) (nt : ℂ))) = 1 := by
    intro ps
    set rt := (finalA (nt : ℂ) kzt s)⁻¹ *ᵥ finalB deltaI0 (ps : ℂ) (th : ℂ) (nt : ℂ) with hrt
    have he : finalA (nt : ℂ) kzt s *ᵥ rt = finalB deltaI0 (ps : ℂ) (th : ℂ) (nt : ℂ) := by
      rw [hrt, mulVec_mulVec, mul_nonsing_inv _ hu, one_mulVec]
    obtain ⟨b1, b2⟩ := subRes_balance (kzb := kzb) (nb := nb) hnt hc hk he
    have := hinv (fun j => rt (.inr j))
    simp only at this
    rw [b1, b2] at this
    have := mul_left_cancel₀ (mul_pos hnt hc).ne' this
    unfold Spec.totalEfficiency
    linarith
  refine ⟨main ps, main (Real.pi / 2), ?_⟩
  have := main 0
  simpa using this

theorem runLayers_inv {S C L : Type} {step : C → ℝ → S → Res (S × L)} (P : S → Prop) (xs : List (C × ℝ))
    (hstep : ∀ c d s r, (c, d) ∈ xs → step c d s = .ok r → P s → P r.1) :
    ∀ (s r : S × List L), runLayers step xs s = .ok r → P s.1 → P r.1 := by
  induction xs with
  | nil =>
    intro s r h hs
    simp only [runLayers, Except.ok.injEq] at h
    exact h ▸ hs
  | cons x xs ih =>
    intro s r h hs
    simp only [runLayers, Except.bind_ok, Except.ok.injEq] at h
    obtain ⟨a, ha, b, hb, rfl⟩ := h
    have := ih (fun c d s r hm => hstep c d s r (List.mem_cons_of_mem _ hm)) s a ha hs
    exact hstep x.1 x.2 a.1 b List.mem_cons_self hb this

/-- Conservation for `solve_2d`. -/
theorem solve_2d_energy {la : LinAlg} {p : Params} {wl nt th ph ps : ℝ}
    {convs : List (Conv (FlatIdx p.fto.1 p.fto.2))} {o : Out2D p.fto.1 p.fto.2}
    (hp : p.use_pinv = false) (hphi : p.phi.getD 0 = (ph : ℂ)) (hpsi : p.psi = (ps : ℂ))
    (hi : RealIncidence p nt th)
    (hh : ∀ c ∈ convs, c.epx.IsHermitian ∧ c.epy.IsHermitian ∧ c.epzi.IsHermitian)
    (h : solve_2d la p wl convs = .ok o) :
    Spec.totalEfficiency o.out.res = 1 ∧ Spec.totalEfficiency o.out.res_te = 1 ∧
      Spec.totalEfficiency o.out.res_tm = 1 := by
  obtain ⟨-, init, r, x, h1, hr, h4, rfl⟩ := (solve_2d_iff hp).mp h
  unfold transfer_2d_1 at h1
  simp only [Except.bind_ok, Except.ok.injEq] at h1
  obtain ⟨varphi, hv, rfl⟩ := h1
  have hreal := varphiAll_real (hi.kxF_real hphi wl) (hi.kyF_real hphi wl) hv
  simp only at hr h4
  rw [hpsi, hi.hth, hi.hn] at h4
  have hkz := hi.kz_ctr2 hphi wl
  rw [hi.hn] at hkz
  refine out4_energy hi.hnt hi.cos_pos hkz ?_ h4
  refine runLayers_inv (FluxInv jSP _) _ ?_ _ r hr ?_
  · intro c d s r' hm hs hP
    obtain ⟨hx, hy, hz⟩ := hh c (List.of_mem_zip hm).1
    unfold step2d at hs
    simp only [Except.bind_ok, transfer_2d_3_eq, Except.ok.injEq] at hs
    obtain ⟨M, hM, r3, h3, rfl⟩ := hs
    rw [bigW2d_eq, bigV2d_eq] at h3
    exact StepData.fluxInv (tmmStep_ok.mp h3)
      (((modePair_2d hM).lossless (hi.kxF_star hphi wl) (hi.kyF_star hphi wl) hx hy hz).rot hreal) hP
  · intro t; simp

/-- Conservation for `solve_1d_conical`. -/
theorem solve_con_energy {la : LinAlg} {p : Params} {wl nt th ph ps : ℝ}
    {convs : List (Conv (FlatIdx p.fto.1 p.fto.2))} {o : OutCon p.fto.1 p.fto.2}
    (hp : p.use_pinv = false) (hphi : p.phi.getD 0 = (ph : ℂ)) (hpsi : p.psi = (ps : ℂ))
    (hi : RealIncidence p nt th)
    (hh : ∀ c ∈ convs, c.epx.IsHermitian ∧ c.epy.IsHermitian ∧ c.epzi.IsHermitian)
    (hz1 : p.fto.2 = 0 → ∀ c ∈ convs, c.epzi * c.epy = 1)
    (h : solve_1d_conical la p wl convs = .ok o) :
    Spec.totalEfficiency o.out.res = 1 ∧ Spec.totalEfficiency o.out.res_te = 1 ∧
      Spec.totalEfficiency o.out.res_tm = 1 := by
  obtain ⟨-, hf, init, r, x, h1, hr, h4, rfl⟩ := (solve_con_iff hp).mp h
  unfold transfer_2d_1 at h1
  simp only [Except.bind_ok, Except.ok.injEq] at h1
  obtain ⟨varphi, hv, rfl⟩ := h1
  have hreal := varphiAll_real (hi.kxF_real hphi wl) (hi.kyF_real hphi wl) hv
  simp only at hr h4
  rw [hpsi, hi.hth, hi.hn] at h4
  have hkz := hi.kz_ctr2 hphi wl
  rw [hi.hn] at hkz
  have hky : ∃ k : ℂ, kyF p wl = fun _ => k := by
    refine ⟨kyF p wl (ctr2 _ _), ?_⟩
    funext i
    unfold kyF tileY
    congr 1
    ext
    have h1 := (i.divNat (m := 2 * p.fto.2 + 1) (n := 2 * p.fto.1 + 1)).isLt
    have h2 := ((ctr2 p.fto.1 p.fto.2).divNat (m := 2 * p.fto.2 + 1) (n := 2 * p.fto.1 + 1)).isLt
    omega
  obtain ⟨k, hk⟩ := hky
  have hks := hi.kyF_star hphi wl
  refine out4_energy hi.hnt hi.cos_pos hkz ?_ h4
  refine runLayers_inv (FluxInv jSP _) _ ?_ _ r hr ?_
  · intro c d s r' hm hs hP
    obtain ⟨hx, hy, hz⟩ := hh c (List.of_mem_zip hm).1
    have hz1 := hz1 hf c (List.of_mem_zip hm).1
    unfold stepCon at hs
    simp only [Except.bind_ok, transfer_1d_conical_3_eq, Except.ok.injEq] at hs
    obtain ⟨M, hM, r3, h3, rfl⟩ := hs
    rw [conW_eq, conV_eq] at h3
    rw [hk] at hM hks
    exact StepData.fluxInv (tmmStep_ok.mp h3)
      (((modePair_con hz1 hM).lossless (hi.kxF_star hphi wl) hks hx hy hz).rot hreal) hP
  · intro t; simp

end Meent
