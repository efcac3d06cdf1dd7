import Verif.Lemmas.Branch
import Verif.Lemmas.Example2D

/-!
# C09: the longitudinal wavenumbers are on the physical branch

`transfer_1d_1` and `transfer_2d_1` (also used for the conical solver) return the longitudinal wavenumbers of
the orders in the cover and in the substrate.  `Spec.OutgoingKz` says that such a value satisfies the
dispersion relation, is real and nonnegative for a propagating order, and belongs to a decaying wave for an
evanescent order or an absorbing medium.

* PyTorch: holds for every order, every real illumination, every `n - ik` substrate.
* NumPy and JAX: holds for every lossless substrate, where the values agree with PyTorch's
  (`C09_numpy_1d_partial`, `C09_numpy_2d_partial`); for an absorbing substrate it is wrong at every order
  (`C09_numpy_absorbing_negation`).
-/

open Matrix

namespace Meent

variable {p : Params}

private theorem top_passive (h : Spec.RealIllumination p) : Spec.PassiveIndex p.n_top :=
  ⟨h.n_top_pos, le_of_eq h.n_top_real⟩

private theorem inPlane1d (hphi : p.phi = none ∨ p.phi = some 0) (m : ℤ) :
    Spec.inPlaneSq p m 0 = Spec.orderKx p m ^ 2 := by
  have : Spec.orderKy p 0 = 0 := by
    rcases hphi with h | h <;> simp [Spec.orderKy, h]
  rw [Spec.inPlaneSq, this]
  ring

private theorem t1_ok {pol : ℝ} {n : Type} [Fintype n] [DecidableEq n] {kx : n → ℂ} {a b : ℂ}
    {o : (n → ℂ) × (n → ℂ) × TState n} (ho : tTransfer_1d_1 pol kx a b = .ok o) :
    o.1 = tKz1d a kx ∧ o.2.1 = tKz1d b kx := by
  unfold tTransfer_1d_1 at ho
  split_ifs at ho <;> cases ho <;> exact ⟨rfl, rfl⟩

private theorem n1_ok {pol : ℝ} {n : Type} [Fintype n] [DecidableEq n] {kx : n → ℂ} {a b : ℂ}
    {o : (n → ℂ) × (n → ℂ) × TState n} (ho : transfer_1d_1 pol kx a b = .ok o) :
    o.1 = kz1d a kx ∧ o.2.1 = kz1d b kx := by
  unfold transfer_1d_1 at ho
  split_ifs at ho <;> cases ho <;> exact ⟨rfl, rfl⟩

private theorem t2_ok {m : Type} [Fintype m] [DecidableEq m] {kx ky : m → ℂ} {a b : ℂ}
    {o : (m → ℂ) × (m → ℂ) × (m → ℂ) × TState (m ⊕ m)} (ho : tTransfer_2d_1 kx ky a b = .ok o) :
    o.1 = tKz2d a kx ky ∧ o.2.1 = tKz2d b kx ky := by
  unfold tTransfer_2d_1 at ho
  obtain ⟨v, _, h2⟩ := Except.bind_ok.mp ho
  cases h2
  exact ⟨rfl, rfl⟩

private theorem n2_ok {m : Type} [Fintype m] [DecidableEq m] {kx ky : m → ℂ} {a b : ℂ}
    {o : (m → ℂ) × (m → ℂ) × (m → ℂ) × TState (m ⊕ m)} (ho : transfer_2d_1 kx ky a b = .ok o) :
    o.1 = kz2d a kx ky ∧ o.2.1 = kz2d b kx ky := by
  unfold transfer_2d_1 at ho
  obtain ⟨v, _, h2⟩ := Except.bind_ok.mp ho
  cases h2
  exact ⟨rfl, rfl⟩

/-- **C09** for the PyTorch 1D solver. -/
theorem C09_torch_1d (h : Spec.RealIllumination p) (hphi : p.phi = none ∨ p.phi = some 0)
    (hb : Spec.PassiveIndex p.n_bot) {o} (ho : tTransfer_1d_1 p.pol (tKxVec p p.wavelength) p.n_top p.n_bot = .ok o)
    (i : Fin (2 * p.fto.1 + 1)) :
    Spec.OutgoingKz p.n_top (Spec.inPlaneSq p (Spec.colOrder i) 0) (o.1 i) ∧
      Spec.OutgoingKz p.n_bot (Spec.inPlaneSq p (Spec.colOrder i) 0) (o.2.1 i) := by
  obtain ⟨h1, h2⟩ := t1_ok ho
  rw [h1, h2, tKxVec_eq h, inPlane1d hphi, tKz1d_real _ _ i _ (kxVec_order h i),
    tKz1d_real _ _ i _ (kxVec_order h i)]
  exact ⟨kzPhys_outgoing (top_passive h) _, kzPhys_outgoing hb _⟩

/-- **C09** for the PyTorch conical and 2D solvers. -/
theorem C09_torch_2d (h : Spec.RealIllumination p) (hb : Spec.PassiveIndex p.n_bot) {o}
    (ho : tTransfer_2d_1 (tileX (fy := p.fto.2) (tKxVec p p.wavelength)) (tileY (fx := p.fto.1) (tKyVec p p.wavelength))
      p.n_top p.n_bot = .ok o)
    (j : Fin (2 * p.fto.2 + 1)) (i : Fin (2 * p.fto.1 + 1)) :
    Spec.OutgoingKz p.n_top (Spec.inPlaneSq p (Spec.colOrder i) (Spec.rowOrder j)) (o.1 (finProdFinEquiv (j, i))) ∧
      Spec.OutgoingKz p.n_bot (Spec.inPlaneSq p (Spec.colOrder i) (Spec.rowOrder j))
        (o.2.1 (finProdFinEquiv (j, i))) := by
  obtain ⟨h1, h2⟩ := t2_ok ho
  rw [h1, h2, tKxVec_eq h, tKyVec_eq h,
    tKz2d_real _ _ _ (finProdFinEquiv (j, i)) _ _ (kxF_order h j i) (kyF_order h j i),
    tKz2d_real _ _ _ (finProdFinEquiv (j, i)) _ _ (kxF_order h j i) (kyF_order h j i)]
  exact ⟨kzPhys_outgoing (top_passive h) _, kzPhys_outgoing hb _⟩

/-- **C09** for the NumPy/JAX 1D solver with a lossless substrate, and equality with the PyTorch values.
Missing: absorbing substrates, for which it is false. -/
theorem C09_numpy_1d_partial (h : Spec.RealIllumination p) (hphi : p.phi = none ∨ p.phi = some 0)
    (hb : Spec.PassiveIndex p.n_bot) (hr : p.n_bot.im = 0) {o o'}
    (ho : transfer_1d_1 p.pol (kxVec p p.wavelength) p.n_top p.n_bot = .ok o)
    (ho' : tTransfer_1d_1 p.pol (tKxVec p p.wavelength) p.n_top p.n_bot = .ok o')
    (i : Fin (2 * p.fto.1 + 1)) :
    Spec.OutgoingKz p.n_top (Spec.inPlaneSq p (Spec.colOrder i) 0) (o.1 i) ∧
      Spec.OutgoingKz p.n_bot (Spec.inPlaneSq p (Spec.colOrder i) 0) (o.2.1 i) ∧
      o.1 i = o'.1 i ∧ o.2.1 i = o'.2.1 i := by
  obtain ⟨h1, h2⟩ := n1_ok ho
  obtain ⟨h3, h4⟩ := t1_ok ho'
  have hk := kxVec_order h i
  have e1 : o.1 i = o'.1 i := by
    rw [h1, h3, tKxVec_eq h, tKz1d_real _ _ i _ hk, kz1d_real _ _ i _ hk,
      star_csqrt_phys (top_passive h) h.n_top_real]
  have e2 : o.2.1 i = o'.2.1 i := by
    rw [h2, h4, tKxVec_eq h, tKz1d_real _ _ i _ hk, kz1d_real _ _ i _ hk, star_csqrt_phys hb hr]
  have hT := C09_torch_1d h hphi hb ho' i
  rw [e1, e2]
  exact ⟨hT.1, hT.2, rfl, rfl⟩

/-- **C09** for the NumPy/JAX conical and 2D solvers with a lossless substrate, and equality with the PyTorch
values.  Missing: absorbing substrates, for which it is false. -/
theorem C09_numpy_2d_partial (h : Spec.RealIllumination p) (hb : Spec.PassiveIndex p.n_bot) (hr : p.n_bot.im = 0)
    {o o'}
    (ho : transfer_2d_1 (tileX (fy := p.fto.2) (kxVec p p.wavelength)) (tileY (fx := p.fto.1) (kyVec p p.wavelength))
      p.n_top p.n_bot = .ok o)
    (ho' : tTransfer_2d_1 (tileX (fy := p.fto.2) (tKxVec p p.wavelength))
      (tileY (fx := p.fto.1) (tKyVec p p.wavelength)) p.n_top p.n_bot = .ok o')
    (j : Fin (2 * p.fto.2 + 1)) (i : Fin (2 * p.fto.1 + 1)) :
    let l := finProdFinEquiv (j, i)
    Spec.OutgoingKz p.n_top (Spec.inPlaneSq p (Spec.colOrder i) (Spec.rowOrder j)) (o.1 l) ∧
      Spec.OutgoingKz p.n_bot (Spec.inPlaneSq p (Spec.colOrder i) (Spec.rowOrder j)) (o.2.1 l) ∧
      o.1 l = o'.1 l ∧ o.2.1 l = o'.2.1 l := by
  intro l
  obtain ⟨h1, h2⟩ := n2_ok ho
  obtain ⟨h3, h4⟩ := t2_ok ho'
  have e1 : o.1 l = o'.1 l := by
    rw [h1, h3, tKxVec_eq h, tKyVec_eq h, tKz2d_real _ _ _ l _ _ (kxF_order h j i) (kyF_order h j i),
      kz2d_real _ _ _ l _ _ (kxF_order h j i) (kyF_order h j i), star_csqrt_phys (top_passive h) h.n_top_real]
  have e2 : o.2.1 l = o'.2.1 l := by
    rw [h2, h4, tKxVec_eq h, tKyVec_eq h, tKz2d_real _ _ _ l _ _ (kxF_order h j i) (kyF_order h j i),
      kz2d_real _ _ _ l _ _ (kxF_order h j i) (kyF_order h j i), star_csqrt_phys hb hr]
  have hT := C09_torch_2d h hb ho' j i
  rw [e1, e2]
  exact ⟨hT.1, hT.2, rfl, rfl⟩

private theorem conj_bad {nn : ℂ} (hb : Spec.PassiveIndex nn) (hi : nn.im < 0) (k2 : ℝ) :
    star (csqrt (nn ^ 2 - k2)) ^ 2 + (k2 : ℂ) ≠ nn ^ 2 ∧ ¬Spec.Decays (star (csqrt (nn ^ 2 - k2))) := by
  have hd := decays_iff.mp ((kzPhys_outgoing hb k2).absorbing hi)
  rw [star_csqrt_absorbing hb hi]
  constructor
  · intro e
    have h1 : star (kzPhys nn k2 ^ 2) = kzPhys nn k2 ^ 2 := by
      rw [star_pow, kzPhys_sq, ← e]; ring
    have h2 : (kzPhys nn k2 ^ 2).im = 0 := Complex.conj_eq_iff_im.mp h1
    rw [kzPhys_sq, Complex.sub_im, Complex.ofReal_im, sq_im] at h2
    nlinarith [mul_neg_of_pos_of_neg hb.1 hi]
  · rw [decays_iff, Complex.star_def, Complex.conj_im]
    linarith

/-- The negation for NumPy/JAX and an absorbing substrate: at **every** order the dispersion relation fails and
the wave grows away from the grating. -/
theorem C09_numpy_absorbing_negation (h : Spec.RealIllumination p) (hb : Spec.PassiveIndex p.n_bot)
    (hi : p.n_bot.im < 0) :
    (∀ o, transfer_1d_1 p.pol (kxVec p p.wavelength) p.n_top p.n_bot = .ok o →
      ∀ i, (o.2.1 i) ^ 2 + (kxVec p p.wavelength i) ^ 2 ≠ p.n_bot ^ 2 ∧ ¬Spec.Decays (o.2.1 i)) ∧
    (∀ o, transfer_2d_1 (tileX (fy := p.fto.2) (kxVec p p.wavelength)) (tileY (fx := p.fto.1) (kyVec p p.wavelength))
        p.n_top p.n_bot = .ok o →
      ∀ j i, (o.2.1 (finProdFinEquiv (j, i))) ^ 2
          + (Spec.inPlaneSq p (Spec.colOrder i) (Spec.rowOrder j) : ℂ) ≠ p.n_bot ^ 2 ∧
        ¬Spec.Decays (o.2.1 (finProdFinEquiv (j, i)))) := by
  constructor
  · intro o ho i
    rw [(n1_ok ho).2, kz1d_real _ _ i _ (kxVec_order h i), kxVec_order h i, ← Complex.ofReal_pow]
    exact conj_bad hb hi _
  · intro o ho j i
    rw [(n2_ok ho).2, kz2d_real _ _ _ (finProdFinEquiv (j, i)) _ _ (kxF_order h j i) (kyF_order h j i)]
    exact conj_bad hb hi _

/-- Whatever the cover, the angles and the index, the PyTorch values satisfy the dispersion relation. -/
theorem C09_torch_dispersion :
    (∀ o, tTransfer_1d_1 p.pol (tKxVec p p.wavelength) p.n_top p.n_bot = .ok o →
      ∀ i, (o.1 i) ^ 2 + (tKxVec p p.wavelength i) ^ 2 = p.n_top ^ 2 ∧
        (o.2.1 i) ^ 2 + (tKxVec p p.wavelength i) ^ 2 = p.n_bot ^ 2) ∧
    (∀ o, tTransfer_2d_1 (tileX (fy := p.fto.2) (tKxVec p p.wavelength))
        (tileY (fx := p.fto.1) (tKyVec p p.wavelength)) p.n_top p.n_bot = .ok o →
      ∀ j i, (o.1 (finProdFinEquiv (j, i))) ^ 2 + (tKxVec p p.wavelength i) ^ 2 + (tKyVec p p.wavelength j) ^ 2
          = p.n_top ^ 2 ∧
        (o.2.1 (finProdFinEquiv (j, i))) ^ 2 + (tKxVec p p.wavelength i) ^ 2 + (tKyVec p p.wavelength j) ^ 2
          = p.n_bot ^ 2) := by
  have hI : ∀ z : ℂ, (-Complex.I * z) ^ 2 = -z ^ 2 := fun z => by rw [mul_pow, neg_sq, Complex.I_sq]; ring
  constructor
  · intro o ho i
    have key : ∀ nn, tKz1d nn (tKxVec p p.wavelength) i ^ 2 + (tKxVec p p.wavelength i) ^ 2 = nn ^ 2 := by
      intro nn
      unfold tKz1d
      split_ifs
      · rw [hI, csqrt_sq]; ring
      · rw [csqrt_sq]; ring
    rw [(t1_ok ho).1, (t1_ok ho).2]
    exact ⟨key _, key _⟩
  · intro o ho j i
    have key : ∀ nn, tKz2d nn (tileX (fy := p.fto.2) (tKxVec p p.wavelength))
        (tileY (fx := p.fto.1) (tKyVec p p.wavelength)) (finProdFinEquiv (j, i)) ^ 2
        + (tKxVec p p.wavelength i) ^ 2 + (tKyVec p p.wavelength j) ^ 2 = nn ^ 2 := by
      intro nn
      have hx : tileX (fy := p.fto.2) (tKxVec p p.wavelength) (finProdFinEquiv (j, i)) = tKxVec p p.wavelength i := by
        unfold tileX; rw [modNat_prod]
      have hy : tileY (fx := p.fto.1) (tKyVec p p.wavelength) (finProdFinEquiv (j, i)) = tKyVec p p.wavelength j := by
        unfold tileY; rw [divNat_prod]
      unfold tKz2d
      rw [hx, hy]
      split_ifs
      · rw [hI, csqrt_sq]; ring
      · rw [csqrt_sq]; ring
    rw [(t2_ok ho).1, (t2_ok ho).2]
    exact ⟨key _, key _⟩

/-! ### Non-vacuity -/

/-- Three orders over an absorbing substrate; orders -1 and 0 propagate in the cover, order 1 is evanescent. -/
private noncomputable def exAbs (phi : Option ℂ) : Params :=
  { exParams 0 phi with n_bot := ⟨2, -1⟩, fto := (1, 0) }

private theorem exAbs_real : Spec.RealIllumination (exAbs none) := by
  constructor <;> simp [exAbs, exParams, Spec.IsReal] <;> linarith [Real.pi_pos]

example : Spec.RealIllumination (exAbs none) ∧ Spec.PassiveIndex (exAbs none).n_bot ∧ (exAbs none).n_bot.im < 0 ∧
    (∃ o, tTransfer_1d_1 (exAbs none).pol (tKxVec (exAbs none) (exAbs none).wavelength) (exAbs none).n_top
      (exAbs none).n_bot = .ok o) ∧
    (∃ o, transfer_1d_1 (exAbs none).pol (kxVec (exAbs none) (exAbs none).wavelength) (exAbs none).n_top
      (exAbs none).n_bot = .ok o) := by
  refine ⟨exAbs_real, ⟨by norm_num [exAbs], by norm_num [exAbs]⟩, by norm_num [exAbs], ?_, ?_⟩
  · unfold tTransfer_1d_1
    rw [show (exAbs none).pol = 0 from rfl]
    simp only [if_pos]
    exact ⟨_, rfl⟩
  · unfold transfer_1d_1
    rw [show (exAbs none).pol = 0 from rfl]
    simp only [if_pos]
    exact ⟨_, rfl⟩

end Meent

#print axioms Meent.C09_torch_1d
#print axioms Meent.C09_torch_2d
#print axioms Meent.C09_numpy_1d_partial
#print axioms Meent.C09_numpy_2d_partial
#print axioms Meent.C09_numpy_absorbing_negation
#print axioms Meent.C09_torch_dispersion
