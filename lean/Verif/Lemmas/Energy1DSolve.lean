import Verif.Lemmas.Energy1D
import Mathlib.Analysis.Real.Pi.Bounds

/-!
# Power balance of `solve_1d` (helper lemmas)
-/

open Matrix

namespace Meent

/-- Index of the zeroth order. -/
def ctr (f : ℕ) : Fin (2 * f + 1) := ⟨f, by omega⟩

theorem deltaI0_eq {f : ℕ} (i : Fin (2 * f + 1)) :
    (deltaI0 i : ℂ) = if i = ctr f then 1 else 0 := by
  unfold deltaI0 ctr
  have : (2 * f + 1) / 2 = f := by omega
  rw [this]
  congr 1
  simp [Fin.ext_iff]

theorem csqrt_ofReal_sq {x : ℝ} (hx : 0 ≤ x) : csqrt ((x : ℂ) ^ 2) = x := by
  unfold csqrt
  rw [← Complex.ofReal_pow]
  have : (1 / 2 : ℂ) = ((1 / 2 : ℝ) : ℂ) := by norm_num
  rw [this, ← Complex.ofReal_cpow (by positivity), ← Real.sqrt_eq_rpow, Real.sqrt_sq hx]

theorem pi_div_two_lt_f32 : Real.pi / 2 < f32HalfPi := by
  have := Real.pi_lt_d20
  unfold f32HalfPi
  norm_num at *
  linarith

/-- Physical incidence: real `n_top > 0`, real angle strictly between ±90°. -/
structure RealIncidence (p : Params) (nt th : ℝ) : Prop where
  hn : p.n_top = (nt : ℂ)
  hnt : 0 < nt
  hth : p.theta = (th : ℂ)
  lo : -(Real.pi / 2) < th
  hi : th < Real.pi / 2

namespace RealIncidence
variable {p : Params} {nt th : ℝ}

theorem sinTheta_eq (h : RealIncidence p nt th) : sinTheta p.theta = (Real.sin th : ℂ) := by
  unfold sinTheta
  rw [h.hth]
  rw [if_neg]
  · simp
  · simp only [Complex.ofReal_re, ge_iff_le, not_le]
    exact h.hi.trans pi_div_two_lt_f32

theorem cos_pos (h : RealIncidence p nt th) : 0 < Real.cos th :=
  Real.cos_pos_of_mem_Ioo ⟨h.lo, h.hi⟩

theorem cos_eq (h : RealIncidence p nt th) : Complex.cos p.theta = (Real.cos th : ℂ) := by
  rw [h.hth]; simp

theorem kx_eq (h : RealIncidence p nt th) (hphi : p.phi = none) (wl : ℝ)
    (i : Fin (2 * p.fto.1 + 1)) :
    kxVec p wl i = ((nt * Real.sin th + ((i : ℤ) - (p.fto.1 : ℤ) : ℤ) * (wl / p.period.1) : ℝ) : ℂ) := by
  unfold kxVec
  rw [h.sinTheta_eq, hphi, h.hn]
  simp only [Option.getD_none, Complex.cos_zero, mul_one, Complex.star_def, map_add, map_mul,
    Complex.conj_ofReal, map_intCast]
  push_cast
  ring

theorem kx_real (h : RealIncidence p nt th) (hphi : p.phi = none) (wl : ℝ)
    (i : Fin (2 * p.fto.1 + 1)) : star (kxVec p wl i) = kxVec p wl i := by
  rw [h.kx_eq hphi, Complex.star_def, Complex.conj_ofReal]

theorem kz_ctr (h : RealIncidence p nt th) (hphi : p.phi = none) (wl : ℝ) :
    kz1d p.n_top (kxVec p wl) (ctr p.fto.1) = ((nt * Real.cos th : ℝ) : ℂ) := by
  unfold kz1d
  rw [h.kx_eq hphi]
  have e : p.n_top ^ 2 - ((nt * Real.sin th + (((ctr p.fto.1 : Fin _) : ℤ) - (p.fto.1 : ℤ) : ℤ) * (wl / p.period.1) : ℝ) : ℂ) ^ 2
      = ((nt * Real.cos th : ℝ) : ℂ) ^ 2 := by
    rw [h.hn]
    have := Real.sin_sq_add_cos_sq th
    simp only [ctr, sub_self, Int.cast_zero, zero_mul, add_zero]
    norm_cast
    nlinarith
  rw [e, csqrt_ofReal_sq (mul_nonneg h.hnt.le h.cos_pos.le), Complex.star_def, Complex.conj_ofReal]

end RealIncidence

/-- `transfer_1d_4` with its polarization branches folded: `y` is the admittance factor
(`1` for TE, `1/n²` for TM). -/
theorem transfer_1d_4_ok {f : ℕ} {la : LinAlg} {pol : ℝ} {s : TState (Fin (2 * f + 1))}
    {kzt kzb : Fin (2 * f + 1) → ℂ} {theta nt nb : ℂ}
    {o : SubRes 1 (2 * f + 1) × (Fin (2 * f + 1) → ℂ)}
    (h : transfer_1d_4 la pol s kzt kzb theta nt nb false = .ok o) :
    ∃ (R T : Fin (2 * f + 1) → ℂ),
      s.F *ᵥ o.2 = R + deltaI0 ∧ T = s.T *ᵥ o.2 ∧
      (∀ j i, o.1.de_ri j i = effOf (R i) (kzt i / (nt * Complex.cos theta))) ∧
      ((pol = 0 ∧
        s.G *ᵥ o.2 = (fun i => Complex.I * ((nt * Complex.cos theta) * deltaI0 i)
            - Complex.I * (kzt i * R i)) ∧
        (∀ j i, o.1.de_ti j i = effOf (T i) (kzb i / (nt * Complex.cos theta)))
        ∧ (∀ j, o.1.R_s j = R) ∧ (∀ j, o.1.T_s j = T) ∧ (∀ j i, o.1.R_p j i = 0)
        ∧ (∀ j i, o.1.T_p j i = 0)) ∨
       (pol = 1 ∧
        s.G *ᵥ o.2 = (fun i => Complex.I * ((Complex.cos theta / nt) * deltaI0 i)
            - Complex.I * (kzt i / nt ^ 2 * R i)) ∧
        (∀ j i, o.1.de_ti j i = effOf (T i) (kzb i / nb ^ 2 / (Complex.cos theta / nt)))
        ∧ (∀ j, o.1.R_p j = R) ∧ (∀ j, o.1.T_p j = T) ∧ (∀ j i, o.1.R_s j i = 0)
        ∧ (∀ j i, o.1.T_s j i = 0))) := by
  unfold transfer_1d_4 at h
  by_cases h0 : pol = 0
  · simp only [h0, if_true, Except.bind_ok, meeinv_false_ok] at h
    obtain ⟨M, ⟨hu, rfl⟩, T1, e1, e2⟩ := h
    simp only [Except.ok.injEq] at e1 e2
    subst e2
    simp only
    have hT : (s.G + (Complex.I • diagonal kzt) * s.F) *ᵥ T1
        = (Complex.I • diagonal kzt) *ᵥ deltaI0 + (Complex.I * nt * Complex.cos theta) • deltaI0 := by
      rw [← e1, mulVec_mulVec, mul_nonsing_inv _ hu, one_mulVec]
    refine ⟨s.F *ᵥ T1 - deltaI0, s.T *ᵥ T1, by simp, rfl, fun _ _ => rfl, Or.inl
      ⟨h0, ?_, fun _ _ => rfl, fun _ => by trivial, fun _ => by trivial,
        fun _ _ => by trivial, fun _ _ => by trivial⟩⟩
    ext i
    have := congrFun hT i
    simp only [add_mulVec, ← mulVec_mulVec, Pi.add_apply, smul_mulVec, Pi.smul_apply, mulVec_diagonal,
      smul_eq_mul] at this
    simp only [Pi.sub_apply]
    linear_combination this
  · by_cases h1 : pol = 1
    · simp only [h1, if_true, if_false, Except.bind_ok, meeinv_false_ok, one_ne_zero] at h
      obtain ⟨M, ⟨hu, rfl⟩, T1, e1, e2⟩ := h
      simp only [Except.ok.injEq] at e1 e2
      subst e2
      simp only
      have hT : (s.G + (((1 : ℂ) / nt ^ 2) • (Complex.I • diagonal kzt)) * s.F) *ᵥ T1
          = (((1 : ℂ) / nt ^ 2) • (Complex.I • diagonal kzt)) *ᵥ deltaI0
            + (Complex.I * Complex.cos theta / nt) • deltaI0 := by
        rw [← e1, mulVec_mulVec, mul_nonsing_inv _ hu, one_mulVec]
      refine ⟨s.F *ᵥ T1 - deltaI0, s.T *ᵥ T1, by simp, rfl, fun _ _ => rfl, Or.inr
        ⟨h1, ?_, fun _ _ => rfl, fun _ => by trivial, fun _ => by trivial,
        fun _ _ => by trivial, fun _ _ => by trivial⟩⟩
      ext i
      have := congrFun hT i
      simp only [add_mulVec, ← mulVec_mulVec, Pi.add_apply, smul_mulVec, Pi.smul_apply, mulVec_diagonal,
        smul_eq_mul] at this
      simp only [Pi.sub_apply]
      linear_combination this
    · simp only [h0, h1, if_false] at h
      simp [bind, Except.bind] at h

/-- Power entering the stack from above and leaving it below, in units of the incident power. -/
theorem solve_1d_balance {la : LinAlg} {p : Params} {wl nt th : ℝ}
    {convs : List (Conv (Fin (2 * p.fto.1 + 1)))} {o : Out1D (2 * p.fto.1 + 1)}
    (hp : p.use_pinv = false) (hphi : p.phi = none) (hi : RealIncidence p nt th)
    (h : solve_1d la p wl convs = .ok o) :
    ∃ (s0 s : TState (Fin (2 * p.fto.1 + 1))) (l : List _) (y : ℝ), 0 < y ∧
      layerLoop (step1d la p (2 * Real.pi / wl) (kxVec p wl)) convs p.thickness p.thickness.length
        (s0, []) = .ok (s, l) ∧ s0.T = 1 ∧
      flux 1 (s.F *ᵥ o.T1) (s.G *ᵥ o.T1) = y * (1 - ∑ j, ∑ i, o.res.de_ri j i) ∧
      flux 1 (s0.F *ᵥ (s.T *ᵥ o.T1)) (s0.G *ᵥ (s.T *ᵥ o.T1)) = y * ∑ j, ∑ i, o.res.de_ti j i := by
  unfold solve_1d at h
  simp only [Except.bind_ok, hp] at h
  obtain ⟨init, h1, r, hl, x, h4, e⟩ := h
  simp only [Except.ok.injEq] at e
  subst e
  obtain ⟨R, T, eF, eT, eri, hcase⟩ := transfer_1d_4_ok h4
  have hcos := hi.cos_pos
  have hk : 0 < nt * Real.cos th := mul_pos hi.hnt hcos
  have hne : (nt : ℂ) ≠ 0 := by exact_mod_cast hi.hnt.ne'
  have hce : (Real.cos th : ℂ) ≠ 0 := by exact_mod_cast hcos.ne'
  have hnt' := hi.hnt.ne'
  have hcos' := hcos.ne'
  refine ⟨init.2.2, r.1, r.2, ?_⟩
  unfold transfer_1d_1 at h1
  rcases hcase with ⟨hpol, eG, eti, -⟩ | ⟨hpol, eG, eti, -⟩
  · -- TE
    simp only [hpol, if_true, Except.ok.injEq] at h1
    subst h1
    simp only at eF eT eri eG eti hl ⊢
    refine ⟨nt * Real.cos th, hk, hl, trivial, ?_, ?_⟩
    · rw [eF, eG]
      have := flux_in (kz1d p.n_top (kxVec p wl)) R (ctr p.fto.1) (nt * Real.cos th)
        (hi.kz_ctr hphi wl) deltaI0 deltaI0_eq
      rw [hi.cos_eq, hi.hn] at *
      rw [← Complex.ofReal_mul, this]
      simp only [eri, effOf_eq, Finset.univ_unique, Finset.sum_singleton]
      rw [mul_sub, mul_one, Finset.mul_sum]
      congr 1
      refine Finset.sum_congr rfl fun i _ => ?_
      rw [← Complex.ofReal_mul, Complex.div_ofReal_re]
      field_simp
    · rw [← eT, flux_out]
      simp only [eti, effOf_eq, Finset.univ_unique, Finset.sum_singleton]
      rw [Finset.mul_sum]
      refine Finset.sum_congr rfl fun i _ => ?_
      rw [hi.cos_eq, hi.hn, ← Complex.ofReal_mul, Complex.div_ofReal_re]
      field_simp
  · -- TM
    simp only [hpol, one_ne_zero, if_true, if_false, Except.ok.injEq] at h1
    subst h1
    simp only at eF eT eri eG eti hl ⊢
    refine ⟨Real.cos th / nt, div_pos hcos hi.hnt, hl, trivial, ?_, ?_⟩
    · rw [eF, eG]
      have := flux_in (fun i => kz1d p.n_top (kxVec p wl) i / p.n_top ^ 2) R (ctr p.fto.1)
        (Real.cos th / nt)
        (by
          simp only [hi.kz_ctr hphi wl]
          rw [hi.hn]; push_cast; field_simp) deltaI0 deltaI0_eq
      rw [hi.cos_eq, hi.hn] at *
      rw [← Complex.ofReal_div, this]
      simp only [eri, effOf_eq, Finset.univ_unique, Finset.sum_singleton]
      rw [mul_sub, mul_one, Finset.mul_sum]
      congr 1
      refine Finset.sum_congr rfl fun i _ => ?_
      rw [← Complex.ofReal_mul, Complex.div_ofReal_re, ← Complex.ofReal_pow, Complex.div_ofReal_re]
      field_simp
    · rw [← eT, flux_out]
      simp only [eti, effOf_eq, Finset.univ_unique, Finset.sum_singleton]
      rw [Finset.mul_sum]
      refine Finset.sum_congr rfl fun i _ => ?_
      rw [hi.cos_eq, hi.hn, ← Complex.ofReal_div, Complex.div_ofReal_re]
      field_simp

/-- Energy conservation of `solve_1d` for Hermitian convolution matrices. -/
theorem solve_1d_energy {la : LinAlg} {p : Params} {wl nt th : ℝ}
    {convs : List (Conv (Fin (2 * p.fto.1 + 1)))} {o : Out1D (2 * p.fto.1 + 1)}
    (hp : p.use_pinv = false) (hphi : p.phi = none) (hi : RealIncidence p nt th)
    (hh : ∀ c ∈ convs, c.epx.IsHermitian ∧ c.epy.IsHermitian ∧ c.epzi.IsHermitian)
    (h : solve_1d la p wl convs = .ok o) :
    ∑ j, ∑ i, o.res.de_ri j i + ∑ j, ∑ i, o.res.de_ti j i = 1 := by
  obtain ⟨s0, s, l, y, hy, hl, hT, e1, e2⟩ := solve_1d_balance hp hphi hi h
  have inv : FluxInv 1 s0 s := by
    have hs : ∀ (i : ℕ) c d s r, convs[i]? = some c → p.thickness[i]? = some d →
        step1d la p (2 * Real.pi / wl) (kxVec p wl) c d s = .ok r → FluxInv 1 s0 s →
        FluxInv 1 s0 r.1 := by
      intro i c d s r hc _ hs hP
      obtain ⟨hx, hy', hz⟩ := hh c (List.mem_of_getElem? hc)
      unfold step1d at hs
      simp only [Except.bind_ok, hp] at hs
      obtain ⟨m, hm, r3, h3, e⟩ := hs
      simp only [Except.ok.injEq] at e
      subst e
      have hm' := modes1d_lossless (hi.kx_real hphi wl) hx hy' hz hm
      exact StepData.fluxInv (tmmStep_ok.mp h3) hm' hP
    have h0 : FluxInv 1 s0 s0 := by intro t; simp [hT]
    exact layerLoop_inv (FluxInv 1 s0) hs p.thickness.length (s0, []) (s, l) hl h0
  have := inv o.T1
  rw [e1, e2] at this
  have := mul_left_cancel₀ hy.ne' this
  linarith

end Meent
