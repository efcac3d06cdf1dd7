import Verif.Spec.Branch
import Verif.Model.Torch
import Verif.Lemmas.Orders
import Verif.Lemmas.Bare
import Verif.Lemmas.Dispersion

/-!
# The branch of `kz` (helper lemmas)
-/

namespace Meent

theorem decays_iff {kz : ℂ} : Spec.Decays kz ↔ kz.im < 0 := by
  unfold Spec.Decays
  have h : ∀ z : ℝ, ‖Complex.exp (-Complex.I * kz * z)‖ = Real.exp (kz.im * z) := by
    intro z
    rw [Complex.norm_exp]
    congr 1
    simp
  constructor
  · intro hd
    have := hd 1 one_pos
    rw [h, mul_one, Real.exp_lt_one_iff] at this
    exact this
  · intro hk z hz
    rw [h, Real.exp_lt_one_iff]
    exact mul_neg_of_neg_of_pos hk hz

/-- The value computed by the PyTorch code, for a real in-plane wavenumber. -/
noncomputable def kzPhys (nn : ℂ) (k2 : ℝ) : ℂ :=
  if nn.re ^ 2 < k2 then -Complex.I * csqrt (k2 - nn ^ 2) else csqrt (nn ^ 2 - k2)

theorem kzPhys_sq (nn : ℂ) (k2 : ℝ) : kzPhys nn k2 ^ 2 = nn ^ 2 - k2 := by
  unfold kzPhys
  split_ifs
  · rw [mul_pow, csqrt_sq, neg_sq, Complex.I_sq]
    ring
  · rw [csqrt_sq]

theorem sq_im (z : ℂ) : (z ^ 2).im = 2 * (z.re * z.im) := by
  rw [sq, Complex.mul_im]; ring

theorem sq_re (z : ℂ) : (z ^ 2).re = z.re ^ 2 - z.im ^ 2 := by
  rw [sq, Complex.mul_re]; ring

theorem kzPhys_signs {nn : ℂ} (h : Spec.PassiveIndex nn) (k2 : ℝ) :
    0 ≤ (kzPhys nn k2).re ∧ (kzPhys nn k2).im ≤ 0 := by
  obtain ⟨ha, hb⟩ := h
  have h2 := kzPhys_sq nn k2
  have him : 2 * ((kzPhys nn k2).re * (kzPhys nn k2).im) = 2 * (nn.re * nn.im) := by
    rw [← sq_im, h2, Complex.sub_im, sq_im, Complex.ofReal_im, sub_zero]
  have hre : (kzPhys nn k2).re ^ 2 - (kzPhys nn k2).im ^ 2 = nn.re ^ 2 - nn.im ^ 2 - k2 := by
    rw [← sq_re, h2, Complex.sub_re, sq_re, Complex.ofReal_re]
  by_cases hk : nn.re ^ 2 < k2
  · have he : kzPhys nn k2 = -Complex.I * csqrt (k2 - nn ^ 2) := if_pos hk
    have h1 := csqrt_re_nonneg (k2 - nn ^ 2)
    have h3 : 0 ≤ (csqrt (k2 - nn ^ 2)).im := by
      apply csqrt_im_nonneg
      rw [Complex.sub_im, Complex.ofReal_im, sq_im]
      nlinarith
    rw [he]
    simp only [neg_mul, Complex.neg_re, Complex.neg_im, Complex.I_mul_re, Complex.I_mul_im, neg_neg]
    exact ⟨h3, by linarith⟩
  · have he : kzPhys nn k2 = csqrt (nn ^ 2 - k2) := if_neg hk
    have h1 : 0 ≤ (kzPhys nn k2).re := by rw [he]; exact csqrt_re_nonneg _
    refine ⟨h1, ?_⟩
    rcases h1.lt_or_eq with hp | hz
    · by_contra hc
      push Not at hc
      have : nn.re * nn.im ≤ 0 := mul_nonpos_of_nonneg_of_nonpos ha.le hb
      nlinarith [mul_pos hp hc]
    · rw [← hz] at him hre
      have hb0 : nn.im = 0 := by
        rcases mul_eq_zero.mp (show nn.re * nn.im = 0 by linarith) with h | h
        · exact absurd h ha.ne'
        · exact h
      rw [hb0] at hre
      push Not at hk
      have : (kzPhys nn k2).im ^ 2 ≤ 0 := by nlinarith
      exact (pow_eq_zero_iff two_ne_zero |>.mp (le_antisymm this (sq_nonneg _))).le

theorem kzPhys_outgoing {nn : ℂ} (h : Spec.PassiveIndex nn) (k2 : ℝ) : Spec.OutgoingKz nn k2 (kzPhys nn k2) := by
  obtain ⟨h1, h2⟩ := kzPhys_signs h k2
  have hs := kzPhys_sq nn k2
  have him : 2 * ((kzPhys nn k2).re * (kzPhys nn k2).im) = 2 * (nn.re * nn.im) := by
    rw [← sq_im, hs, Complex.sub_im, sq_im, Complex.ofReal_im, sub_zero]
  have hre : (kzPhys nn k2).re ^ 2 - (kzPhys nn k2).im ^ 2 = nn.re ^ 2 - nn.im ^ 2 - k2 := by
    rw [← sq_re, hs, Complex.sub_re, sq_re, Complex.ofReal_re]
  refine ⟨by rw [hs]; ring, fun hr hk => ⟨?_, h1⟩, fun hr hk => decays_iff.mpr ?_, fun hi => decays_iff.mpr ?_⟩
  · rw [hr] at him hre
    rcases mul_eq_zero.mp (show (kzPhys nn k2).re * (kzPhys nn k2).im = 0 by linarith) with h | h
    · rw [h] at hre
      have : (kzPhys nn k2).im ^ 2 ≤ 0 := by nlinarith
      exact pow_eq_zero_iff two_ne_zero |>.mp (le_antisymm this (sq_nonneg _))
    · exact h
  · refine lt_of_le_of_ne h2 fun e => ?_
    rw [e, hr] at hre
    nlinarith [sq_nonneg (kzPhys nn k2).re]
  · refine lt_of_le_of_ne h2 fun e => ?_
    rw [e] at him
    nlinarith [mul_neg_of_pos_of_neg h.1 hi]

/-- The NumPy value for a real index. -/
theorem star_csqrt_phys {nn : ℂ} (h : Spec.PassiveIndex nn) (hr : nn.im = 0) (k2 : ℝ) :
    star (csqrt (nn ^ 2 - k2)) = kzPhys nn k2 := by
  obtain ⟨h1, h2⟩ := kzPhys_signs h k2
  have hn : nn ^ 2 - (k2 : ℂ) = ((nn.re ^ 2 - k2 : ℝ) : ℂ) := by
    conv_lhs => rw [show nn = (nn.re : ℂ) from Complex.ext rfl hr]
    push_cast; ring
  rw [hn]
  refine star_csqrt_unique ?_ h1 h2
  rw [kzPhys_sq, hn]

/-- The NumPy value for an absorbing index is the conjugate of the physical one. -/
theorem star_csqrt_absorbing {nn : ℂ} (h : Spec.PassiveIndex nn) (hi : nn.im < 0) (k2 : ℝ) :
    star (csqrt (nn ^ 2 - k2)) = star (kzPhys nn k2) := by
  obtain ⟨h1, h2⟩ := kzPhys_signs h k2
  have hd := decays_iff.mp ((kzPhys_outgoing h k2).absorbing hi)
  have hs := kzPhys_sq nn k2
  have him : 2 * ((kzPhys nn k2).re * (kzPhys nn k2).im) = 2 * (nn.re * nn.im) := by
    rw [← sq_im, hs, Complex.sub_im, sq_im, Complex.ofReal_im, sub_zero]
  have hp : 0 < (kzPhys nn k2).re := by
    refine lt_of_le_of_ne h1 fun e => ?_
    rw [← e] at him
    nlinarith [mul_neg_of_pos_of_neg h.1 hi]
  congr 1
  have : csqrt (nn ^ 2 - k2) ^ 2 = kzPhys nn k2 ^ 2 := by rw [csqrt_sq, hs]
  rcases sq_eq_sq_iff_eq_or_eq_neg.mp this with e | e
  · exact e
  · have h3 := csqrt_re_nonneg (nn ^ 2 - k2)
    rw [e, Complex.neg_re] at h3
    linarith

variable {p : Params}

theorem sinTheta_real (h : Spec.RealIllumination p) : sinTheta p.theta = Complex.sin p.theta := by
  rw [(RealIncidence.of_spec h).sinTheta_eq, Complex.ofReal_sin]
  congr 1
  exact (Complex.ext rfl h.theta_real.symm)

theorem tKxVec_eq (h : Spec.RealIllumination p) (wl : ℝ) : tKxVec p wl = kxVec p wl := by
  funext i
  unfold tKxVec kxVec
  rw [sinTheta_real h]

theorem tKyVec_eq (h : Spec.RealIllumination p) (wl : ℝ) : tKyVec p wl = kyVec p wl := by
  funext i
  unfold tKyVec kyVec
  rw [sinTheta_real h]

theorem tKz1d_real {n : Type} (nn : ℂ) (kx : n → ℂ) (i : n) (r : ℝ) (hr : kx i = (r : ℂ)) :
    tKz1d nn kx i = kzPhys nn (r ^ 2) := by
  unfold tKz1d kzPhys
  rw [hr, Complex.norm_real, Real.norm_eq_abs]
  have : |nn.re| < |r| ↔ nn.re ^ 2 < r ^ 2 := sq_lt_sq.symm
  simp only [this]
  push_cast
  rfl

theorem tKz2d_real {m : Type} (nn : ℂ) (kx ky : m → ℂ) (i : m) (a b : ℝ) (ha : kx i = (a : ℂ)) (hb : ky i = (b : ℂ)) :
    tKz2d nn kx ky i = kzPhys nn (a ^ 2 + b ^ 2) := by
  unfold tKz2d kzPhys
  have h1 : ‖kx i ^ 2 + ky i ^ 2‖ = a ^ 2 + b ^ 2 := by
    rw [ha, hb, ← Complex.ofReal_pow, ← Complex.ofReal_pow, ← Complex.ofReal_add, Complex.norm_real,
      Real.norm_of_nonneg (by positivity)]
  rw [h1, abs_of_nonneg (sq_nonneg _), ha, hb]
  push_cast
  rw [sub_sub]

theorem kz1d_real {n : Type} (nn : ℂ) (kx : n → ℂ) (i : n) (r : ℝ) (hr : kx i = (r : ℂ)) :
    kz1d nn kx i = star (csqrt (nn ^ 2 - (r ^ 2 : ℝ))) := by
  unfold kz1d
  rw [hr]
  push_cast
  rfl

theorem kz2d_real {m : Type} (nn : ℂ) (kx ky : m → ℂ) (i : m) (a b : ℝ) (ha : kx i = (a : ℂ)) (hb : ky i = (b : ℂ)) :
    kz2d nn kx ky i = star (csqrt (nn ^ 2 - (a ^ 2 + b ^ 2 : ℝ))) := by
  unfold kz2d
  rw [ha, hb]
  push_cast
  rw [sub_sub]

end Meent
