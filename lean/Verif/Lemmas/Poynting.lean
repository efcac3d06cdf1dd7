import Verif.Spec.Poynting
import Verif.Lemmas.Passive
import Mathlib.RingTheory.RootsOfUnity.Complex
import Mathlib.Analysis.Calculus.Deriv.MeanValue
import Mathlib.Analysis.Calculus.Deriv.Star

/-!
# The power carried by sampled fields (helper lemmas)
-/

set_option linter.unusedSectionVars false
set_option linter.unusedVariables false
set_option linter.unusedSimpArgs false

open Matrix

namespace Meent

/-! ### Means over the samples -/

theorem root_sum {N : ℕ} {d : ℤ} (hd : d ≠ 0) (hN : |d| < N) :
    ∑ q ∈ Finset.range N, Complex.exp (-(2 * Real.pi * Complex.I * d * q / N)) = 0 := by
  have hN0 : (N : ℂ) ≠ 0 := by
    have : (0 : ℤ) < N := lt_of_le_of_lt (abs_nonneg d) hN
    exact_mod_cast this.ne'
  set z := Complex.exp (-(2 * Real.pi * Complex.I * d / N)) with hz
  have e : ∀ q ∈ Finset.range N, Complex.exp (-(2 * Real.pi * Complex.I * d * q / N)) = z ^ q := by
    intro q _
    rw [hz, ← Complex.exp_nat_mul]
    congr 1; ring
  rw [Finset.sum_congr rfl e]
  have hz1 : z ≠ 1 := by
    intro h
    rw [hz, Complex.exp_eq_one_iff] at h
    obtain ⟨n, hn⟩ := h
    have h2 : (2 * Real.pi * Complex.I : ℂ) ≠ 0 := Complex.two_pi_I_ne_zero
    have h3 : (-(d : ℂ)) = n * N := by
      field_simp at hn
      linear_combination hn
    have h4 : -d = n * N := by exact_mod_cast h3
    have h5 : (N : ℤ) ∣ d := ⟨-n, by linear_combination -h4⟩
    exact hd (Int.eq_zero_of_abs_lt_dvd h5 hN)
  have hzN : z ^ N = 1 := by
    rw [hz, ← Complex.exp_nat_mul, Complex.exp_eq_one_iff]
    exact ⟨-d, by push_cast; field_simp⟩
  rw [geom_sum_eq hz1, hzN, sub_self, zero_div]

theorem distinct_map (n : ℕ) : (Spec.distinctSamples n).map Fin.valEmbedding = Finset.range (if n = 1 then 1 else n - 1) := by
  ext q
  simp only [Finset.mem_map, Spec.distinctSamples, Finset.mem_filter, Finset.mem_univ, true_and, Fin.valEmbedding_apply, Finset.mem_range]
  constructor
  · rintro ⟨i, hi, rfl⟩
    have := i.isLt
    split_ifs <;> omega
  · intro h
    split_ifs at h with h1
    · exact ⟨⟨q, by omega⟩, .inr h1, rfl⟩
    · exact ⟨⟨q, by omega⟩, .inl (by show q + 1 < n; omega), rfl⟩

theorem distinct_card (n : ℕ) : (Spec.distinctSamples n).card = if n = 1 then 1 else n - 1 := by
  rw [← Finset.card_map Fin.valEmbedding, distinct_map, Finset.card_range]

theorem distinct_sum {n : ℕ} (f : ℕ → ℂ) :
    ∑ i ∈ Spec.distinctSamples n, f i.val = ∑ q ∈ Finset.range (Spec.distinctSamples n).card, f q := by
  rw [distinct_card, ← distinct_map, Finset.sum_map]
  rfl

theorem star_phase {k0 x : ℝ} {k : ℂ} (hk : star k = k) :
    star (Complex.exp (-Complex.I * (k0 * (x * k)))) = Complex.exp (Complex.I * (k0 * (x * k))) := by
  rw [Complex.star_def, ← Complex.exp_conj]
  congr 1
  have : (starRingEnd ℂ) k = k := hk
  simp only [map_mul, map_neg, Complex.conj_I, Complex.conj_ofReal, this, neg_neg]

theorem sample_orth {n f : ℕ} (h : Spec.EnoughSamples f n) {k0 per : ℝ} {k : Fin (2 * f + 1) → ℂ} (hk : ∀ i, star (k i) = k i)
    (hd : ∀ a b : Fin (2 * f + 1), (k0 : ℂ) * per * (k a - k b) = 2 * Real.pi * (((a : ℤ) - (b : ℤ) : ℤ) : ℂ)) (a b : Fin (2 * f + 1)) :
    ∑ i ∈ Spec.distinctSamples n, Complex.exp (-Complex.I * (k0 * (Spec.samplePoint per n i * k a)))
      * star (Complex.exp (-Complex.I * (k0 * (Spec.samplePoint per n i * k b))))
      = if a = b then ((Spec.distinctSamples n).card : ℂ) else 0 := by
  have e : ∀ i : Fin n, Complex.exp (-Complex.I * (k0 * (Spec.samplePoint per n i * k a)))
      * star (Complex.exp (-Complex.I * (k0 * (Spec.samplePoint per n i * k b))))
      = Complex.exp (-Complex.I * (k0 * (Spec.samplePoint per n i * (k a - k b)))) := by
    intro i
    rw [star_phase (hk b), ← Complex.exp_add]
    congr 1; ring
  simp only [e]
  split_ifs with hab
  · simp [hab]
  · unfold Spec.EnoughSamples at h
    have hn1 : n ≠ 1 := by
      rintro rfl
      rw [distinct_card, if_pos rfl] at h
      have := a.isLt; have := b.isLt
      exact hab (Fin.ext (by omega))
    have hc := distinct_card n
    rw [if_neg hn1] at hc
    rw [hc] at h
    have hN0 : ((n : ℂ) - 1) ≠ 0 := by
      have : ((n - 1 : ℕ) : ℂ) ≠ 0 := by exact_mod_cast (by omega : n - 1 ≠ 0)
      rwa [Nat.cast_sub (by omega), Nat.cast_one] at this
    have e2 : ∀ i : Fin n, Complex.exp (-Complex.I * (k0 * (Spec.samplePoint per n i * (k a - k b))))
        = (fun q : ℕ => Complex.exp (-(2 * Real.pi * Complex.I * (((a : ℤ) - (b : ℤ) : ℤ) : ℂ) * q / ((n - 1 : ℕ) : ℂ)))) i.val := by
      intro i
      simp only
      congr 1
      unfold Spec.samplePoint
      rw [if_neg hn1, Nat.cast_sub (by omega), Nat.cast_one]
      push_cast
      have := hd a b
      push_cast at this
      field_simp
      linear_combination (-(i : ℂ)) * this
    rw [Finset.sum_congr rfl fun i _ => e2 i]
    refine (distinct_sum (fun q : ℕ => Complex.exp (-(2 * Real.pi * Complex.I * (((a : ℤ) - (b : ℤ) : ℤ) : ℂ) * q / ((n - 1 : ℕ) : ℂ))))).trans ?_
    rw [hc]
    refine root_sum (sub_ne_zero.mpr fun h0 => hab (Fin.ext (by exact_mod_cast h0))) ?_
    have := a.isLt; have := b.isLt
    rw [abs_lt]
    constructor <;> omega

/-- The same with the points in reverse order. -/
theorem sample_orth_rev {n f : ℕ} (h : Spec.EnoughSamples f n) {k0 per : ℝ} {k : Fin (2 * f + 1) → ℂ} (hk : ∀ i, star (k i) = k i)
    (hd : ∀ a b : Fin (2 * f + 1), (k0 : ℂ) * per * (k a - k b) = 2 * Real.pi * (((a : ℤ) - (b : ℤ) : ℤ) : ℂ)) (a b : Fin (2 * f + 1)) :
    ∑ i ∈ Spec.distinctSamples n, Complex.exp (-Complex.I * (k0 * (Spec.samplePoint per n i.rev * k a)))
      * star (Complex.exp (-Complex.I * (k0 * (Spec.samplePoint per n i.rev * k b))))
      = if a = b then ((Spec.distinctSamples n).card : ℂ) else 0 := by
  have hab := sample_orth h hk hd b a
  have hsw : (if b = a then ((Spec.distinctSamples n).card : ℂ) else 0) = if a = b then ((Spec.distinctSamples n).card : ℂ) else 0 := by
    split_ifs with h1 h2 h2
    · rfl
    · exact absurd h1.symm h2
    · exact absurd h2.symm h1
    · rfl
  rw [← hsw, ← hab]
  refine Finset.sum_congr rfl fun i hi => ?_
  rw [star_phase (hk b), star_phase (hk a), ← Complex.exp_add, ← Complex.exp_add]
  by_cases hn1 : n = 1
  · subst hn1
    have : i.rev = i := Subsingleton.elim _ _
    have hz : Spec.samplePoint per 1 i = 0 := by simp [Spec.samplePoint]
    rw [this, hz]
    simp
  · rw [Complex.exp_eq_exp_iff_exists_int]
    refine ⟨-((a : ℤ) - (b : ℤ)), ?_⟩
    have h1 : ((n : ℂ) - 1) ≠ 0 := by
      have := i.isLt
      have : ((n - 1 : ℕ) : ℂ) ≠ 0 := by exact_mod_cast (by omega : n - 1 ≠ 0)
      rwa [Nat.cast_sub (by omega), Nat.cast_one] at this
    have h2 : (Spec.samplePoint per n i.rev : ℂ) = per - Spec.samplePoint per n i := by
      unfold Spec.samplePoint
      rw [if_neg hn1, if_neg hn1, Fin.val_rev, Nat.cast_sub (by have := i.isLt; omega)]
      push_cast
      field_simp
      ring
    have := hd a b
    push_cast at this ⊢
    rw [h2]
    linear_combination (-Complex.I) * this

theorem mean_product {Q m : Type} [Fintype m] [DecidableEq m] (S : Finset Q) {N : ℂ} {w : Q → m → ℂ}
    (hw : ∀ i j, ∑ q ∈ S, w q i * star (w q j) = if i = j then N else 0) (u v : m → ℂ) :
    ∑ q ∈ S, (∑ i, w q i * u i) * star (∑ j, w q j * v j) = N * ∑ i, u i * star (v i) := by
  have e : ∀ q, (∑ i, w q i * u i) * star (∑ j, w q j * v j) = ∑ i, ∑ j, (w q i * star (w q j)) * (u i * star (v j)) := by
    intro q
    rw [star_sum, Finset.sum_mul_sum]
    refine Finset.sum_congr rfl fun i _ => Finset.sum_congr rfl fun j _ => ?_
    rw [star_mul']; ring
  simp only [e]
  rw [Finset.sum_comm, Finset.mul_sum]
  refine Finset.sum_congr rfl fun i _ => ?_
  rw [Finset.sum_comm]
  simp only [← Finset.sum_mul, hw]
  simp

/-- Power carried by tangential fields. -/
noncomputable def tanPower {m : Type} [Fintype m] (a : m → Spec.Tangential) : ℝ :=
  ∑ i, ((a i).Ey * star (a i).Hx - (a i).Ex * star (a i).Hy).re

theorem meanPower_eq {m : Type} [Fintype m] [DecidableEq m] {rx ry rz : ℕ} {α : Type} {six : α → Field6} {a : Block rx ry rz α}
    {iz : Fin rz} {k0 t : ℝ} {kx ky : m → ℂ} {x : Fin rx → ℝ} {y : Fin ry → ℝ} {f : Spec.OrderFields m}
    (ha : ∀ iy ix, six (a iz iy ix) = f.at k0 kx ky (x ix) (y iy) t)
    (hx : 0 < (Spec.distinctSamples rx).card) (hy : 0 < (Spec.distinctSamples ry).card)
    (ho : ∀ i j, ∑ q ∈ Spec.distinctSamples ry ×ˢ Spec.distinctSamples rx,
      Complex.exp (-Complex.I * (k0 * (x q.2 * kx i + y q.1 * ky i)))
        * star (Complex.exp (-Complex.I * (k0 * (x q.2 * kx j + y q.1 * ky j))))
      = if i = j then ((Spec.distinctSamples ry).card : ℂ) * (Spec.distinctSamples rx).card else 0) :
    Spec.meanPower six a iz = tanPower (f.tan t) := by
  unfold Spec.meanPower tanPower
  rw [← Finset.sum_product' (f := fun iy ix => Spec.powerDown (six (a iz iy ix)))]
  simp only [ha]
  have h1 := mean_product _ ho (f.Ey t) (f.Hx t)
  have h2 := mean_product _ ho (f.Ex t) (f.Hy t)
  have h3 : ∑ q ∈ Spec.distinctSamples ry ×ˢ Spec.distinctSamples rx, Spec.powerDown (f.at k0 kx ky (x q.2) (y q.1) t)
      = (((Spec.distinctSamples ry).card : ℂ) * (Spec.distinctSamples rx).card
        * (∑ i, f.Ey t i * star (f.Hx t i) - ∑ i, f.Ex t i * star (f.Hy t i))).re := by
    rw [mul_sub, ← h1, ← h2, ← Finset.sum_sub_distrib, Complex.re_sum]
    rfl
  have hN : (((Spec.distinctSamples ry).card : ℝ) * (Spec.distinctSamples rx).card) ≠ 0 := by positivity
  rw [h3, ← Finset.sum_sub_distrib, div_eq_iff hN, ← Complex.re_sum]
  have : ((Spec.distinctSamples ry).card : ℂ) * (Spec.distinctSamples rx).card = (((Spec.distinctSamples ry).card : ℝ) * (Spec.distinctSamples rx).card : ℝ) := by
    push_cast; rfl
  rw [this, Complex.re_ofReal_mul, mul_comm]
  rfl

variable {m : Type} [Fintype m] [DecidableEq m]

theorem deriv_star_mul {u v : ℝ → ℂ} {u' v' : ℂ} {D : Set ℝ} {t : ℝ} (hu : HasDerivWithinAt u u' D t) (hv : HasDerivWithinAt v v' D t) :
    HasDerivWithinAt (fun t => u t * star (v t)) (u' * star (v t) + u t * star v') D t :=
  hu.mul hv.star

theorem poynting_point {k0 : ℝ} {kx ky Ex Ey Ez Hx Hy Hz X Y Z zEx zEy zHx zHy : ℂ} (hk : k0 ≠ 0) (hx : star kx = kx) (hy : star ky = ky)
    (e1 : -Complex.I * k0 * ky * Ez - zEy = -Complex.I * k0 * Hx) (e2 : zEx - -Complex.I * k0 * kx * Ez = -Complex.I * k0 * Hy)
    (e3 : -Complex.I * k0 * kx * Ey - -Complex.I * k0 * ky * Ex = -Complex.I * k0 * Hz)
    (e4 : -Complex.I * k0 * ky * Hz - zHy = Complex.I * k0 * X) (e5 : zHx - -Complex.I * k0 * kx * Hz = Complex.I * k0 * Y)
    (e6 : Ez = -Z) :
    ((-zEy * star Hx + Ey * star (-zHx)) - (-zEx * star Hy + Ex * star (-zHy))).re
      = k0 * ((star Ex * X).im + (star Ey * Y).im - (star (kx * Hy - ky * Hx) * Z).im) := by
  have hk' : (-Complex.I * (k0 : ℂ)) ≠ 0 := by simp [hk]
  have f1 : zEy = -Complex.I * k0 * ky * Ez + Complex.I * k0 * Hx := by linear_combination -e1
  have f2 : zEx = -Complex.I * k0 * kx * Ez - Complex.I * k0 * Hy := by linear_combination e2
  have f3 : Hz = kx * Ey - ky * Ex := by
    apply mul_left_cancel₀ hk'
    linear_combination -e3
  have f4 : zHy = -Complex.I * k0 * ky * Hz - Complex.I * k0 * X := by linear_combination -e4
  have f5 : zHx = -Complex.I * k0 * kx * Hz + Complex.I * k0 * Y := by linear_combination e5
  rw [f1, f2, f4, f5, f3, e6]
  obtain ⟨a, rfl⟩ := Complex.conj_eq_iff_real.mp hx
  obtain ⟨b, rfl⟩ := Complex.conj_eq_iff_real.mp hy
  simp only [Complex.star_def, Complex.sub_re, Complex.add_re, Complex.neg_re, Complex.mul_re, Complex.mul_im, Complex.conj_re, Complex.conj_im,
    Complex.sub_im, Complex.add_im, Complex.neg_im, Complex.I_re, Complex.I_im, Complex.ofReal_re, Complex.ofReal_im]
  ring

/-- Poynting's theorem for the orders. -/
theorem tanPower_deriv {k0 : ℝ} (hk : k0 ≠ 0) {kx ky : m → ℂ} (hx : ∀ i, star (kx i) = kx i) (hy : ∀ i, star (ky i) = ky i) {c : Conv m} {D : Set ℝ}
    {f : Spec.OrderFields m} (h : Spec.Maxwell k0 kx ky c D f) {t : ℝ} (ht : t ∈ D) :
    HasDerivWithinAt (fun t => tanPower (f.tan t))
      (k0 * ((beta c.epx (f.Ex t) (f.Ex t)).im + (beta c.epy (f.Ey t) (f.Ey t)).im
        - (beta c.epzi (fun i => kx i * f.Hy t i - ky i * f.Hx t i) (fun i => kx i * f.Hy t i - ky i * f.Hx t i)).im)) D t := by
  obtain ⟨zEx, zEy, zHx, zHy, dEx, dEy, dHx, dHy, hm⟩ := h
  obtain ⟨e1, e2, e3, e4, e5, e6⟩ := hm t ht
  have hd : HasDerivWithinAt (fun t => ∑ i, (f.Ey t i * star (f.Hx t i) - f.Ex t i * star (f.Hy t i)))
      (∑ i, ((-zEy t i * star (f.Hx t i) + f.Ey t i * star (-zHx t i)) - (-zEx t i * star (f.Hy t i) + f.Ex t i * star (-zHy t i)))) D t :=
    HasDerivWithinAt.fun_sum fun i _ => (deriv_star_mul (dEy t ht i) (dHx t ht i)).sub (deriv_star_mul (dEx t ht i) (dHy t ht i))
  have hre := Complex.reCLM.hasFDerivAt.comp_hasDerivWithinAt t hd
  have hk' : ((k0 : ℂ)) ≠ 0 := by simp [hk]
  have hZ : f.Ez t = -(c.epzi *ᵥ fun i => kx i * f.Hy t i - ky i * f.Hx t i) := by
    have h1 : (fun i => -Complex.I * k0 * kx i * f.Hy t i) - (fun i => -Complex.I * k0 * ky i * f.Hx t i)
        = (-(Complex.I * k0)) • fun i => kx i * f.Hy t i - ky i * f.Hx t i := by
      funext i
      simp only [Pi.sub_apply, Pi.smul_apply, smul_eq_mul]
      ring
    have h2 := e6
    simp only at h2
    rw [h1, mulVec_smul, neg_smul, ← smul_neg] at h2
    exact (smul_right_injective _ (mul_ne_zero Complex.I_ne_zero hk') h2).symm
  have hval : (∑ i, ((-zEy t i * star (f.Hx t i) + f.Ey t i * star (-zHx t i)) - (-zEx t i * star (f.Hy t i) + f.Ex t i * star (-zHy t i)))).re
      = k0 * ((beta c.epx (f.Ex t) (f.Ex t)).im + (beta c.epy (f.Ey t) (f.Ey t)).im
        - (beta c.epzi (fun i => kx i * f.Hy t i - ky i * f.Hx t i) (fun i => kx i * f.Hy t i - ky i * f.Hx t i)).im) := by
    unfold beta dotProduct
    rw [Complex.re_sum, Complex.im_sum, Complex.im_sum, Complex.im_sum, ← Finset.sum_add_distrib, ← Finset.sum_sub_distrib, Finset.mul_sum]
    refine Finset.sum_congr rfl fun i _ => ?_
    exact poynting_point hk (hx i) (hy i) (congrFun e1 i) (congrFun e2 i) (congrFun e3 i) (congrFun e4 i) (congrFun e5 i) (congrFun hZ i)
  rw [← hval]
  refine HasDerivWithinAt.congr_deriv (f' := Complex.reCLM (∑ i, ((-zEy t i * star (f.Hx t i) + f.Ey t i * star (-zHx t i)) - (-zEx t i * star (f.Hy t i) + f.Ex t i * star (-zHy t i))))) ?_ rfl
  refine hre.congr_of_mem (fun t _ => ?_) ht
  show tanPower (f.tan t) = Complex.re _
  rw [Complex.re_sum]
  rfl

theorem tanPower_antitone {k0 : ℝ} (hk : 0 < k0) {kx ky : m → ℂ} (hx : ∀ i, star (kx i) = kx i) (hy : ∀ i, star (ky i) = ky i) {c : Conv m} (hc : LossyConv c)
    {d : ℝ} {f : Spec.OrderFields m} (h : Spec.Maxwell k0 kx ky c (Set.uIcc 0 d) f) : AntitoneOn (fun t => tanPower (f.tan t)) (Set.uIcc 0 d) := by
  have hd := fun t ht => tanPower_deriv hk.ne' hx hy h (t := t) ht
  refine antitoneOn_of_hasDerivWithinAt_nonpos (convex_uIcc 0 d) (fun t ht => (hd t ht).continuousWithinAt)
    (fun t ht => (hd t (interior_subset ht)).mono interior_subset) fun t _ => ?_
  have h1 := hc.x (f.Ex t)
  have h2 := hc.y (f.Ey t)
  have h3 := hc.z (fun i => kx i * f.Hy t i - ky i * f.Hx t i)
  exact mul_nonpos_of_nonneg_of_nonpos hk.le (by linarith)

theorem tanPower_constant {k0 : ℝ} (hk : 0 < k0) {kx ky : m → ℂ} (hx : ∀ i, star (kx i) = kx i) (hy : ∀ i, star (ky i) = ky i) {c : Conv m}
    (h1 : c.epx.IsHermitian) (h2 : c.epy.IsHermitian) (h3 : c.epzi.IsHermitian)
    {d : ℝ} {f : Spec.OrderFields m} (h : Spec.Maxwell k0 kx ky c (Set.uIcc 0 d) f) {t t' : ℝ} (ht : t ∈ Set.uIcc 0 d) (ht' : t' ∈ Set.uIcc 0 d) :
    tanPower (f.tan t) = tanPower (f.tan t') := by
  have hd := fun t ht => tanPower_deriv hk.ne' hx hy h (t := t) ht
  refine (convex_uIcc 0 d).is_const_of_fderivWithin_eq_zero (𝕜 := ℝ) (f := fun t => tanPower (f.tan t)) (fun t ht => (hd t ht).differentiableWithinAt) (fun t ht => ?_) ht ht'
  have := hd t ht
  rw [IsHermitian.beta_im h1, IsHermitian.beta_im h2, IsHermitian.beta_im h3] at this
  simp only [add_zero, sub_zero, mul_zero] at this
  by_cases hu : UniqueDiffWithinAt ℝ (Set.uIcc 0 d) t
  · have := this.hasFDerivWithinAt.fderivWithin hu
    rw [this]; ext; simp
  · exact fderivWithin_zero_of_not_uniqueDiffWithinAt hu

end Meent
