import Verif.Spec.ContinuousConv
import Verif.Lemmas.Compress
import Verif.Lemmas.DiscreteConv

/-!
# Convolution matrices from exact Fourier integrals (helper lemmas)
-/

open Matrix

namespace Meent

set_option linter.unusedSectionVars false
set_option linter.unusedSimpArgs false

section
variable {kx ky : ℕ} [NeZero kx] [NeZero ky] {x : Fin kx → ℝ} {y : Fin ky → ℝ}
  (hox : Spec.Ordered x) (hoy : Spec.Ordered y) (hpx : x (-1) ≠ 0) (hpy : y (-1) ≠ 0)
  {cell : Fin kx → Fin ky → ℂ} {f : ℝ → ℝ → ℂ}
  (hf : Spec.IsStepFun2 y x (fun i j => cell j i) f)
include hoy hpy hf

theorem toep_on {g : ℂ → ℂ} {fy : ℕ} {j : Fin kx} {t : ℝ} (h1 : Spec.leftEnd x j < t) (h2 : t < x j) :
    Spec.toeplitzOn fy (fun v => g (f v t)) (y (-1)) = toepL (cfsC y (y (-1))) fy (fun i => g (cell j i)) := by
  ext r c
  simp only [Spec.toeplitzOn, toepL, of_apply]
  rw [cfsC_eq_fourier hoy hpy (f := fun v => g (f v t))]
  intro i v hv1 hv2
  exact congrArg g (hf i j v t hv1 hv2 h1 h2)

include hox hpx

theorem genConv_fourier {fx fy : ℕ} {c : Conv (FlatIdx fx fy)} {epz : Matrix (FlatIdx fx fy) (FlatIdx fx fy) ℂ}
    (h : FromCell (cfsC x (x (-1))) (cfsC y (y (-1))) cell c epz) : Spec.ContinuousConv f (y (-1)) (x (-1)) c := by
  refine ⟨⟨epz, ?_, h.hu, h.hi⟩, ?_, ?_⟩
  · have hz := h.hz
    unfold genConv at hz
    simp only [Except.bind_ok, invRuleY_ok, invIf_ok] at hz
    obtain ⟨c', hc, a, ha, e⟩ := hz
    rcases hc with ⟨-, rfl⟩ | ⟨h, -⟩
    · rcases ha with ⟨-, rfl⟩ | ⟨h, -⟩
      · simp only [if_true, Except.ok.injEq] at e
        subst e
        intro r k
        rw [flatten_btoepL_apply, Spec.fourierCoeffOn2, cfsC_eq_fourier hox hpx]
        intro j t h1 h2
        simp only [toepL, of_apply]
        rw [cfsC_eq_fourier hoy hpy (f := fun v => f v t)]
        · congr 1
          simp only [rowOf_orderY]; ring
        · intro i v hv1 hv2
          exact hf i j v t hv1 hv2 h1 h2
      · simp at h
    · simp at h
  · have hz := h.hy
    unfold genConv at hz
    simp only [Except.bind_ok, invRuleY_ok, invIf_ok] at hz
    obtain ⟨c', hc, a, ha, e⟩ := hz
    rcases hc with ⟨h, -⟩ | ⟨-, hne, rfl⟩
    · simp at h
    · rcases ha with ⟨h, -⟩ | ⟨-, hu, rfl⟩
      · simp at h
      · simp only [if_true, Except.ok.injEq] at e
        intro r k
        rw [← e, flatten_btoepL_apply, cfsC_eq_fourier hox hpx]
        intro j t h1 h2
        simp only
        rw [toep_on hoy hpy hf (g := fun z => 1 / z) h1 h2]
  · have hz := h.hx
    unfold genConv at hz
    simp only [Except.bind_ok, invRuleY_ok, invIf_ok] at hz
    obtain ⟨c', hc, a, ha, e⟩ := hz
    rcases hc with ⟨-, rfl⟩ | ⟨h, -⟩
    · rcases ha with ⟨h, -⟩ | ⟨-, hu, rfl⟩
      · simp at h
      · simp only [Bool.false_eq_true, if_false, npInv_ok] at e
        obtain ⟨hd, e⟩ := e
        rw [e]
        refine ⟨(isUnit_nonsing_inv_det_iff).mpr hd, fun r k => ?_⟩
        rw [nonsing_inv_nonsing_inv _ hd, flatten_btoepL_apply, cfsC_eq_fourier hox hpx]
        intro j t h1 h2
        simp only
        rw [toep_on hoy hpy hf (g := fun z => z) h1 h2]
    · simp at h

end

/-! ### Pixels -/

theorem pixEdge_last (N : ℕ) [NeZero N] : pixEdge N (-1) = 1 := by
  unfold pixEdge
  have hN : ((N : ℝ)) ≠ 0 := Nat.cast_ne_zero.mpr (NeZero.ne N)
  have : ((-1 : Fin N)).val + 1 = N := by
    obtain ⟨k', hk⟩ : ∃ k', N = k' + 1 := ⟨N - 1, by have := NeZero.pos N; omega⟩
    subst hk
    rw [Fin.neg_one_eq_last', Fin.val_last]
  rw [this]
  field_simp

theorem pixEdge_left (N : ℕ) [NeZero N] (j : Fin N) : Spec.leftEnd (pixEdge N) j = 1 / (N : ℝ) * (j.val : ℕ) := by
  unfold Spec.leftEnd
  by_cases h : j = 0
  · rw [if_pos h, h]; simp
  · rw [if_neg h]
    unfold pixEdge
    have e : (j - 1).val + 1 = j.val := by
      obtain ⟨k', hk⟩ : ∃ k', N = k' + 1 := ⟨N - 1, by have := NeZero.pos N; omega⟩
      subst hk
      have := Fin.val_sub_one_of_ne_zero h
      have hpos : 0 < j.val := Nat.pos_of_ne_zero fun h' => h (Fin.ext h')
      omega
    rw [e]

theorem pixEdge_ordered (N : ℕ) [NeZero N] : Spec.Ordered (pixEdge N) := by
  intro j
  rw [pixEdge_left]
  unfold pixEdge
  have hN : 0 < (N : ℝ) := Nat.cast_pos.mpr (NeZero.pos N)
  have : (j.val : ℝ) ≤ ((j.val + 1 : ℕ) : ℝ) := by exact_mod_cast Nat.le_succ _
  exact mul_le_mul_of_nonneg_left this (by positivity)

theorem pix_floor {N : ℕ} [NeZero N] {j : Fin N} {t : ℝ} (h1 : Spec.leftEnd (pixEdge N) j < t) (h2 : t < pixEdge N j) :
    ⌊t * N⌋₊ = j.val := by
  have hN : 0 < (N : ℝ) := Nat.cast_pos.mpr (NeZero.pos N)
  rw [pixEdge_left, one_div, inv_mul_lt_iff₀ hN] at h1
  unfold pixEdge at h2
  rw [one_div, lt_inv_mul_iff₀ hN] at h2
  rw [Nat.floor_eq_iff (by rw [mul_comm]; exact le_trans (Nat.cast_nonneg _) h1.le)]
  constructor
  · rw [mul_comm]; exact h1.le
  · rw [mul_comm]; push_cast at h2; exact h2

theorem pixelFun_step {ny nx : ℕ} [NeZero ny] [NeZero nx] (a : Fin ny → Fin nx → ℂ) :
    Spec.IsStepFun2 (pixEdge ny) (pixEdge nx) a (Spec.pixelFun a) := by
  intro i j v t h1 h2 h3 h4
  unfold Spec.pixelFun
  have e1 := pix_floor h1 h2
  have e2 := pix_floor h3 h4
  have h : ⌊v * ny⌋₊ < ny ∧ ⌊t * nx⌋₊ < nx := by rw [e1, e2]; exact ⟨i.isLt, j.isLt⟩
  rw [dif_pos h]
  congr 1 <;> exact Fin.ext (by assumption)

theorem convRaster_fromCell {la : LinAlg} {c : Raster} [NeZero c.ny] [NeZero c.nx] {fx fy : ℕ} {cv : Conv (FlatIdx fx fy)} :
    convRasterContinuous la c fx fy false = .ok cv ↔ ∃ epz, FromCell (pixL c.nx) (pixL c.ny) (fun x y => (c.val y.rev x) ^ 2) cv epz := by
  rw [convRaster_pix]
  simp only [Except.bind_ok, meeinv_false_ok]
  constructor
  · rintro ⟨z, hz, y, hy, x, hx, zi, ⟨hu, hi⟩, e⟩
    simp only [Except.ok.injEq] at e
    subst e
    exact ⟨z, ⟨hz, hy, hx, hu, hi⟩⟩
  · rintro ⟨z, h⟩
    exact ⟨z, h.hz, _, h.hy, _, h.hx, _, ⟨h.hu, h.hi⟩, rfl⟩

/-! ### Repeated pixels -/

theorem pixL_repeat {N k N' : ℕ} [NeZero N] [NeZero N'] (hk : 0 < k) (hN : N' = N * k) (σ : Fin N' → Fin N)
    (hσ : ∀ j, (σ j).val = j.val / k) (a : Fin N → ℂ) (m : ℤ) : pixL N' (fun j => a (σ j)) m = pixL N a m := by
  subst hN
  have hlt : ∀ i : Fin N, i.val * k + (k - 1) < N * k := by
    intro i
    have h1 : (i.val + 1) * k ≤ N * k := Nat.mul_le_mul_right k i.isLt
    have h2 : (i.val + 1) * k = i.val * k + k := by ring
    omega
  have hv : ∀ (M : ℕ) [NeZero M], ((-1 : Fin M)).val = M - 1 := by
    intro M _
    obtain ⟨k', rfl⟩ : ∃ k', M = k' + 1 := ⟨M - 1, by have := NeZero.pos M; omega⟩
    rw [Fin.neg_one_eq_last', Fin.val_last]; rfl
  have hadd : ∀ (M : ℕ) [NeZero M] (i : Fin M), (i + 1).val = if i.val = M - 1 then 0 else i.val + 1 := by
    intro M _ i
    obtain ⟨k', rfl⟩ : ∃ k', M = k' + 1 := ⟨M - 1, by have := NeZero.pos M; omega⟩
    rw [Fin.val_add_one]
    simp only [Fin.ext_iff, Fin.val_last, Nat.add_sub_cancel]
  have hdiv : ∀ i : ℕ, (i * k + (k - 1)) / k = i := by
    intro i
    rw [mul_comm, Nat.mul_add_div hk, Nat.div_eq_of_lt (by omega), add_zero]
  unfold pixL
  rw [pixEdge_last, pixEdge_last]
  refine cfsC_group σ (fun i => ⟨i.val * k + (k - 1), hlt i⟩) ?_ ?_ ?_ ?_ ?_ ?_ 1 a m
  · intro i i' h
    have h := congrArg (fun j : Fin (N * k) => j.val / k) h
    simp only [hdiv] at h
    exact Fin.ext h
  · intro i
    unfold pixEdge
    have hN0 : ((N : ℝ)) ≠ 0 := Nat.cast_ne_zero.mpr (NeZero.ne N)
    have hk0 : ((k : ℝ)) ≠ 0 := Nat.cast_ne_zero.mpr hk.ne'
    have : i.val * k + (k - 1) + 1 = (i.val + 1) * k := by
      have : (i.val + 1) * k = i.val * k + k := by ring
      omega
    rw [this]
    push_cast
    field_simp
  · intro i
    exact Fin.ext (by rw [hσ, hdiv])
  · intro i
    apply Fin.ext
    rw [hσ, hadd, hadd]
    have h1 : i.val * k + (k - 1) = N * k - 1 ↔ i.val = N - 1 := by
      have hN1 : N * k = (N - 1) * k + k := by
        have := NeZero.pos N
        conv_lhs => rw [show N = N - 1 + 1 by omega]
        ring
      constructor
      · intro h
        have : i.val * k = (N - 1) * k := by omega
        exact Nat.eq_of_mul_eq_mul_right hk this
      · intro h; rw [h]; omega
    by_cases h : i.val = N - 1
    · rw [if_pos h, if_pos (h1.mpr h), Nat.zero_div]
    · rw [if_neg h, if_neg (fun h' => h (h1.mp h'))]
      have : i.val * k + (k - 1) + 1 = (i.val + 1) * k := by
        have : (i.val + 1) * k = i.val * k + k := by ring
        omega
      show (i.val * k + (k - 1) + 1) / k = i.val + 1
      rw [this, Nat.mul_div_cancel _ hk]
  · intro j hj
    apply Fin.ext
    rw [hσ, hσ, hadd]
    have hne : j.val % k ≠ k - 1 := by
      intro h
      apply hj
      refine ⟨σ j, Fin.ext ?_⟩
      show (σ j).val * k + (k - 1) = j.val
      rw [hσ, ← h, mul_comm]
      exact Nat.div_add_mod _ _
    have hlast : j.val ≠ N * k - 1 := by
      intro h
      apply hne
      have hN1 : N * k - 1 = k * (N - 1) + (k - 1) := by
        have := NeZero.pos N
        have : N * k = k * (N - 1) + k := by
          conv_lhs => rw [show N = N - 1 + 1 by omega]
          ring
        omega
      rw [h, hN1, Nat.mul_add_mod, Nat.mod_eq_of_lt (by omega)]
    rw [if_neg hlast]
    rw [Nat.succ_div, if_neg, add_zero]
    intro hd
    apply hne
    have h1 : (j.val + 1) % k = 0 := Nat.mod_eq_zero_of_dvd hd
    have h2 := Nat.mod_lt j.val hk
    by_contra hlt
    have : j.val % k + 1 < k := by omega
    have h3 : (j.val + 1) % k = j.val % k + 1 := by
      conv_lhs => rw [← Nat.div_add_mod j.val k, add_assoc, Nat.mul_add_mod]
      exact Nat.mod_eq_of_lt this
    omega
  · apply Fin.ext
    show ((-1 : Fin N)).val * k + (k - 1) = ((-1 : Fin (N * k))).val
    rw [hv, hv]
    have := NeZero.pos N
    have : N * k = (N - 1) * k + k := by
      conv_lhs => rw [show N = N - 1 + 1 by omega]
      ring
    omega

theorem rev_div {n n' k t : ℕ} (hk : 0 < k) (e : n' = n * k) (ht : t < n') : n - (t / k + 1) = (n' - (t + 1)) / k := by
  subst e
  have h1 := Nat.div_add_mod t k
  have h2 := Nat.mod_lt t hk
  have h3 : t / k < n := by rw [Nat.div_lt_iff_lt_mul hk]; exact ht
  have h4 : n * k - (t + 1) = k * (n - (t / k + 1)) + (k - 1 - t % k) := by
    have h5 : n = (n - (t / k + 1)) + 1 + t / k := by omega
    have h6 : n * k = k * (n - (t / k + 1)) + k + k * (t / k) := by
      conv_lhs => rw [h5]
      ring
    omega
  rw [h4, Nat.mul_add_div hk, Nat.div_eq_of_lt (a := k - 1 - t % k) (by omega), add_zero]

/-- One layer with repeated pixels. -/
theorem convRaster_repeat (la : LinAlg) {ny nx ny' nx' : ℕ} {a : Fin ny → Fin nx → ℂ} {b : Fin ny' → Fin nx' → ℂ} (hy : 0 < ny)
    (hx : 0 < nx) (h : Spec.IsRepeated a b) (fx fy : ℕ) (u : Bool) :
    convRasterContinuous la ⟨ny', nx', b⟩ fx fy u = convRasterContinuous la ⟨ny, nx, a⟩ fx fy u := by
  obtain ⟨ky, kx, hky, hkx, ey, ex, hb⟩ := h
  have i1 : NeZero (Raster.mk ny nx a).ny := ⟨hy.ne'⟩
  have i2 : NeZero (Raster.mk ny nx a).nx := ⟨hx.ne'⟩
  have i3 : NeZero (Raster.mk ny' nx' b).ny := ⟨by show ny' ≠ 0; rw [ey]; exact (Nat.mul_pos hy hky).ne'⟩
  have i4 : NeZero (Raster.mk ny' nx' b).nx := ⟨by show nx' ≠ 0; rw [ex]; exact (Nat.mul_pos hx hkx).ne'⟩
  rw [convRaster_pix, convRaster_pix]
  let σ : ∀ {N N' k : ℕ}, 0 < k → N' = N * k → Fin N' → Fin N := fun {N N' k} hk e j =>
    ⟨j.val / k, by rw [Nat.div_lt_iff_lt_mul hk, ← e]; exact j.isLt⟩
  have hsurj : ∀ {N N' k : ℕ} (hk : 0 < k) (e : N' = N * k), Function.Surjective (σ hk e) := by
    intro N N' k hk e i
    refine ⟨⟨i.val * k, by rw [e]; exact Nat.mul_lt_mul_of_pos_right i.isLt hk⟩, Fin.ext ?_⟩
    exact Nat.mul_div_cancel _ hk
  have key : ∀ cx cy, genConv (pixL nx') (pixL ny') cx cy fx fy (fun x y => (b y.rev x) ^ 2)
      = genConv (pixL nx) (pixL ny) cx cy fx fy (fun x y => (a y.rev x) ^ 2) := by
    intro cx cy
    refine genConv_group (σx := σ hkx ex) (σy := σ hky ey) (hsurj hkx ex) (hsurj hky ey)
      (fun a m => pixL_repeat hkx ex _ (fun _ => rfl) a m) (fun a m => pixL_repeat hky ey _ (fun _ => rfl) a m) ?_ cx cy fx fy
    intro x y
    have hr : ((σ hky ey y).rev).val = y.rev.val / ky := by
      rw [Fin.val_rev, Fin.val_rev]
      exact rev_div hky ey y.isLt
    rw [hb y.rev x _ (σ hkx ex x) hr rfl]
  simp only [key]

end Meent
