import Verif.Lemmas.Clear
import Verif.Lemmas.Energy2D
import Verif.Lemmas.ConvMats
import Verif.Spec.Stack

/-!
# Gratings of transparent and absorbing layers (helper lemmas)
-/

open Matrix

namespace Meent

set_option linter.unusedSectionVars false
set_option linter.unusedSimpArgs false
set_option linter.unusedVariables false

/-- The convolution matrices of a layer do not depend on the other layers. -/
theorem convMats_get {la : LinAlg} {s : Settings} {u : Ucell} (hu : s.ucell = .raster u)
    {cs : List (Conv (FlatIdx s.p.fto.1 s.p.fto.2))} (hcs : convMats la s = .ok cs) {k : ℕ} {c} (hk : cs[k]? = some c) :
    ∃ l, u.layers[k]? = some l ∧ convMats la { s with ucell := .raster ⟨u.ny, u.nx, [l]⟩ } = .ok [c] := by
  unfold convMats at hcs ⊢
  rw [hu] at hcs
  simp only at hcs ⊢
  have key : ∀ (f : Raster → Res (Conv (FlatIdx s.p.fto.1 s.p.fto.2))), u.rasters.mapM f = .ok cs →
      ∃ l, u.layers[k]? = some l ∧ (Ucell.rasters ⟨u.ny, u.nx, [l]⟩).mapM f = .ok [c] := by
    intro f hf
    have h2 := mapM_ok.mp hf
    have hkl : k < cs.length := by
      by_contra h
      rw [List.getElem?_eq_none (not_lt.mp h)] at hk
      cases hk
    have hlen := h2.length_eq
    have hk2 : k < u.rasters.length := by omega
    have h3 := (List.forall₂_iff_get.mp h2).2 k hk2 hkl
    have hk3 : k < u.layers.length := by simpa [Ucell.rasters] using hk2
    refine ⟨u.layers[k], by simp [hk3], ?_⟩
    rw [mapM_ok]
    refine .cons ?_ .nil
    rw [List.getElem?_eq_getElem hkl] at hk
    have : cs[k] = c := by simpa using hk
    rw [← this]
    simpa [Ucell.rasters] using h3
  split_ifs at hcs ⊢ with h0 h1
  · exact key _ hcs
  · exact key _ hcs

theorem convMats_class {la : LinAlg} {s : Settings} {u : Ucell} (hp : s.p.use_pinv = false) (h : Spec.OrdinaryStack s u) (hny : 0 < u.ny)
    {cs : List (Conv (FlatIdx s.p.fto.1 s.p.fto.2))} (hcs : convMats la s = .ok cs) {k : ℕ} {c} (hk : cs[k]? = some c) :
    ∃ l, u.layers[k]? = some l ∧ ((∃ i j, Spec.AbsorbingMedium (l i j)) → SideConv Complex.I c) ∧
      ((∀ i j, Spec.TransparentMedium (l i j)) → ClearConv c) := by
  obtain ⟨l, hl, h1⟩ := convMats_get h.raster hcs hk
  have hlm : l ∈ u.layers := List.mem_of_getElem? hl
  have hm := h.media l hlm
  refine ⟨l, hl, fun hab => ?_, fun ht => ?_⟩
  · exact convMats_absorbing (s := { s with ucell := .raster ⟨u.ny, u.nx, [l]⟩ }) hp h.coefficients rfl
      (by
        intro l' hl'
        have hl2 : l' = l := by simpa using hl'
        rw [hl2]
        exact ⟨hm, hab⟩) h1 c (by simp)
  · have hf : s.fourier_type = 0 ∨ s.fourier_type = 1 := by
      rcases h.coefficients with h | h
      · exact Or.inr h
      · exact Or.inl h.1
    have hone : ∀ l' ∈ (⟨u.ny, u.nx, [l]⟩ : Ucell).layers, ∃ w : ℂ, w = 1 ∧ ∀ i j, 0 < (w * (l' i j) ^ 2).re := by
      intro l' hl'
      have hl2 : l' = l := by simpa using hl'
      refine ⟨1, rfl, fun i j => ?_⟩
      have hij := ht i j
      rw [hl2]
      have e : l i j = (((l i j).re : ℝ) : ℂ) := Complex.ext rfl (by rw [hij.2, Complex.ofReal_im])
      have hpos := hij.1
      rw [one_mul, e, ← Complex.ofReal_pow, Complex.ofReal_re]
      positivity
    obtain ⟨cs', e, hw, -⟩ := convMats_side (la := la) (s := { s with ucell := .raster ⟨u.ny, u.nx, [l]⟩ }) hp hf rfl
      (by simp only; omega) h.columns (fun w => w = 1) hone
    rw [h1] at e
    cases e
    obtain ⟨w, rfl, hsd⟩ := hw c (by simp)
    obtain ⟨a1, a2, a3⟩ := convMats_isHermitian (s := { s with ucell := .raster ⟨u.ny, u.nx, [l]⟩ }) hp
      (by
        intro l' hl' i j
        have hl2 : l' = l := by simpa using hl'
        rw [hl2]
        exact (ht i j).2) h1 c (by simp)
    exact ⟨a1, a2, a3, hsd.x⟩

/-- A layer of ordinary media is transparent or absorbs somewhere. -/
theorem transparent_or_absorbs {ny nx : ℕ} {l : Fin ny → Fin nx → ℂ} (h : ∀ i j, Spec.OrdinaryMedium (l i j)) :
    (∀ i j, Spec.TransparentMedium (l i j)) ∨ ∃ i j, Spec.AbsorbingMedium (l i j) := by
  by_cases hab : ∃ i j, Spec.AbsorbingMedium (l i j)
  · exact Or.inr hab
  · refine Or.inl fun i j => ⟨(h i j).1, ?_⟩
    by_contra hne
    exact hab ⟨i, j, (h i j).1, lt_of_le_of_ne (h i j).2 hne⟩

section
variable {n : Type} [Fintype n] [DecidableEq n]

theorem ClearConv.lossy {c : Conv n} (h : ClearConv c) : LossyConv c where
  x := fun v => (IsHermitian.beta_im h.x v).le
  y := fun v => (IsHermitian.beta_im h.y v).le
  z := fun v => (IsHermitian.beta_im h.z v).ge

theorem strict_bottom_1d {k : n → ℂ} (hk : ∀ i, 0 < (k i).re) (T : Matrix n n ℂ) : StrictState 1 ⟨1, Complex.I • diagonal k, T⟩ := by
  intro t ht
  simp only [one_mulVec, flux_diag]
  have : ∃ i, t i ≠ 0 := by
    by_contra h
    push Not at h
    exact ht (funext h)
  obtain ⟨i, hi⟩ := this
  exact Finset.sum_pos' (fun i _ => mul_nonneg (Complex.normSq_nonneg _) (hk i).le)
    ⟨i, Finset.mem_univ _, mul_pos (Complex.normSq_pos.mpr hi) (hk i)⟩

/-- What is known about a layer of the stack. -/
structure StackLayer (la : LinAlg) (pol : ℝ) (kx : n → ℂ) (c : Conv n) : Prop where
  kind : SideConv Complex.I c ∨ ClearConv c
  cut : NoCutoff pol kx c
  modes : IsUnit (la.eig (eigMat1d pol kx c)).2.det

theorem stack_loop {la : LinAlg} {p : Params} (hp : p.use_pinv = false) (hpol : p.pol = 0 ∨ p.pol = 1) {k0 : ℝ} (hk0 : 0 < k0)
    {kx : n → ℂ} (hkx : ∀ i, star (kx i) = kx i) {xs : List (Conv n × ℝ)} (hd : ∀ x ∈ xs, 0 < x.2)
    (hl : ∀ x ∈ xs, StackLayer la p.pol kx x.1) {kb : n → ℂ} (hkb : ∀ i, 0 ≤ (kb i).re)
    (hbot : (∀ i, 0 < (kb i).re) ∨ ∃ x, xs.getLast? = some x ∧ SideConv Complex.I x.1) :
    ∃ r, runLayers (step1d la p k0 kx) xs (⟨1, Complex.I • diagonal kb, 1⟩, []) = .ok r ∧ StrictState 1 r.1 ∧
      FluxDec 1 ⟨1, Complex.I • diagonal kb, 1⟩ r.1 ∧
      ((∀ x ∈ xs, ClearConv x.1) → FluxInv 1 ⟨1, Complex.I • diagonal kb, 1⟩ r.1) := by
  have hP : ∀ (x : Conv n × ℝ) s, (x ∈ xs ∧ SideConv Complex.I x.1) → WeakState 1 s →
      ∃ r, step1d la p k0 kx x.1 x.2 s = .ok r ∧ StrictState 1 r.1 := by
    rintro x s ⟨hx, hc⟩ hs
    obtain ⟨m, hm, hg⟩ := goodModes_1d hpol hkx hc (hl x hx).modes
    obtain ⟨r, hr, hst⟩ := hg.step (la := la) hk0 (hd _ hx) hs
    refine ⟨(r.1, { epzi := x.1.epzi, modes := m, d := x.2, A_i := r.2.1, B := r.2.2 }), ?_, hst⟩
    unfold step1d transfer_1d_3
    simp only [Except.bind_ok, hp]
    exact ⟨m, hm, r, hr, rfl⟩
  have hQ : ∀ (x : Conv n × ℝ) s, (x ∈ xs ∧ ClearConv x.1) → StrictState 1 s →
      ∃ r, step1d la p k0 kx x.1 x.2 s = .ok r ∧ StrictState 1 r.1 := by
    rintro x s ⟨hx, hc⟩ hs
    obtain ⟨m, hm, hg⟩ := clearModes_1d hpol hkx hc (hl x hx).cut (hl x hx).modes
    obtain ⟨r, hr, hst⟩ := hg.step (la := la) (k0 := k0) (d := x.2) hs
    refine ⟨(r.1, { epzi := x.1.epzi, modes := m, d := x.2, A_i := r.2.1, B := r.2.2 }), ?_, hst⟩
    unfold step1d transfer_1d_3
    simp only [Except.bind_ok, hp]
    exact ⟨m, hm, r, hr, rfl⟩
  obtain ⟨r, hr, hst⟩ := runLayers_mixed (J := 1) _ _ hP hQ xs (⟨1, Complex.I • diagonal kb, 1⟩, [])
    (fun x hx => (hl x hx).kind.imp (fun h => ⟨hx, h⟩) fun h => ⟨hx, h⟩) (by
      rcases hbot with h | ⟨x, h1, h2⟩
      · exact Or.inl (strict_bottom_1d h _)
      · exact Or.inr ⟨weak_bottom_1d hkb _, x, h1, List.mem_of_getLast? h1, h2⟩)
  have step_of : ∀ (x : Conv n × ℝ) s r, step1d la p k0 kx x.1 x.2 s = .ok r → ∃ m r3, transfer_1d_2 la p.pol kx x.1 false = .ok m ∧
      tmmStep la false (phaseX k0 m.q x.2) m.W m.V s = .ok r3 ∧ r.1 = r3.1 := by
    intro x s r hs
    unfold step1d transfer_1d_3 at hs
    simp only [Except.bind_ok, hp, Except.ok.injEq] at hs
    obtain ⟨m, hm, r3, h3, rfl⟩ := hs
    exact ⟨m, r3, hm, h3, rfl⟩
  refine ⟨r, hr, hst, ?_, fun hall => ?_⟩
  · refine runLayers_inv (FluxDec 1 ⟨1, Complex.I • diagonal kb, 1⟩) xs ?_ _ _ hr (by intro t; simp)
    intro c d s r hx hs hP
    obtain ⟨m, r3, hm, h3, e⟩ := step_of (c, d) s r hs
    rw [e]
    have hc : LossyConv c := by
      rcases (hl _ hx).kind with hc | hc
      · exact hc.lossy
      · exact hc.lossy
    exact StepData.fluxDec hk0.le (hd _ hx).le (tmmStep_ok.mp h3) (modes1d_dissipative hkx hc hm) hP
  · refine runLayers_inv (FluxInv 1 ⟨1, Complex.I • diagonal kb, 1⟩) xs ?_ _ _ hr (by intro t; simp)
    intro c d s r hx hs hP
    obtain ⟨m, r3, hm, h3, e⟩ := step_of (c, d) s r hs
    rw [e]
    have hc := hall _ hx
    exact StepData.fluxInv (tmmStep_ok.mp h3) (modes1d_lossless hkx hc.x hc.y hc.z hm) hP

/-! ### What a successful step says -/

theorem cutoff_step {la : LinAlg} {p : Params} (hp : p.use_pinv = false) (hpol : p.pol = 0 ∨ p.pol = 1) {k0 : ℝ} {kx : n → ℂ}
    {c : Conv n} {d : ℝ} {s : TState n} {r : TState n × LayerInfo n n}
    (h : step1d la p k0 kx c d s = .ok r) : NoCutoff p.pol kx c := by
  have hW := eig_step1d hp h
  unfold step1d transfer_1d_3 at h
  simp only [Except.bind_ok, hp, Except.ok.injEq] at h
  obtain ⟨m, hm, t, ht, rfl⟩ := h
  have hV := (tmmStep_ok.mp ht).hV
  have key : ∀ A : Matrix n n ℂ, IsUnit (la.eig A).2.det → IsUnit (diagonal fun i => csqrt ((la.eig A).1 i)).det → IsUnit A.det := by
    intro A h1 h2
    have e := congrArg det (la.eig_law A)
    rw [det_mul, det_mul] at e
    have h3 : IsUnit (diagonal (la.eig A).1).det := by
      refine isUnit_diag fun i => ?_
      have := isUnit_diag_ne h2 i
      intro h0
      apply this
      have h4 := csqrt_sq ((la.eig A).1 i)
      rw [h0] at h4
      rw [h0]
      exact pow_eq_zero_iff (two_ne_zero) |>.mp h4
    exact isUnit_of_mul_isUnit_left (by rw [e]; exact h1.mul h3)
  unfold NoCutoff
  unfold eigMat1d at hW
  rcases hpol with h0 | h0
  · simp only [transfer_1d_2, h0, if_true, Except.ok.injEq] at hm hW ⊢
    subst hm
    exact key _ hW (isUnit_det_of_mul_right hV)
  · simp only [transfer_1d_2, h0, if_true, if_false, one_ne_zero, Except.bind_ok, Except.ok.injEq] at hm hW ⊢
    obtain ⟨_, _, rfl⟩ := hm
    exact isUnit_det_of_mul_right (key _ hW (isUnit_det_of_mul_right hV))

end

/-! ### Whole solves -/

/-- The admittance of the substrate seen by the recursion. -/
noncomputable def bottomY {n : Type} (pol : ℝ) (kb : n → ℂ) (nb : ℂ) (i : n) : ℂ := if pol = 0 then kb i else kb i / nb ^ 2

/-- Power balance of the last step, for any vector of wave numbers in the substrate. -/
theorem balance_4 {la : LinAlg} {p : Params} {wl nt th : ℝ} (hphi : p.phi = none) (hi : RealIncidence p nt th)
    {s : TState (Fin (2 * p.fto.1 + 1))} {kb : Fin (2 * p.fto.1 + 1) → ℂ} {nb : ℂ} {x}
    (h4 : transfer_1d_4 la p.pol s (kz1d p.n_top (kxVec p wl)) kb p.theta p.n_top nb false = .ok x) :
    ∃ y : ℝ, 0 < y ∧ flux 1 (s.F *ᵥ x.2) (s.G *ᵥ x.2) = y * (1 - ∑ j, ∑ i, x.1.de_ri j i) ∧
      flux 1 (s.T *ᵥ x.2) ((Complex.I • diagonal (bottomY p.pol kb nb)) *ᵥ (s.T *ᵥ x.2)) = y * ∑ j, ∑ i, x.1.de_ti j i := by
  obtain ⟨R, T, eF, eT, eri, hcase⟩ := transfer_1d_4_ok h4
  have hcos := hi.cos_pos
  have hk : 0 < nt * Real.cos th := mul_pos hi.hnt hcos
  have hne : (nt : ℂ) ≠ 0 := by exact_mod_cast hi.hnt.ne'
  have hce : (Real.cos th : ℂ) ≠ 0 := by exact_mod_cast hcos.ne'
  have hnt' := hi.hnt.ne'
  have hcos' := hcos.ne'
  have hout : ∀ k : Fin (2 * p.fto.1 + 1) → ℂ, flux 1 T ((Complex.I • diagonal k) *ᵥ T) = ∑ i, Complex.normSq (T i) * (k i).re := by
    intro k
    exact flux_diag k T
  rcases hcase with ⟨hpol, eG, eti, -⟩ | ⟨hpol, eG, eti, -⟩
  · refine ⟨nt * Real.cos th, hk, ?_, ?_⟩
    · rw [eF, eG]
      have := flux_in (kz1d p.n_top (kxVec p wl)) R (ctr p.fto.1) (nt * Real.cos th)
        (hi.kz_ctr hphi wl) deltaI0 deltaI0_eq
      rw [hi.cos_eq, hi.hn] at *
      rw [← Complex.ofReal_mul, this]
      simp only [eri, effOf_eq, Finset.univ_unique, Finset.sum_singleton]
      rw [mul_sub, mul_one, Finset.mul_sum]
      congr 1
      refine Finset.sum_congr rfl fun i _ => ?_
      rw [← Complex.ofReal_mul, Complex.div_ofReal_re]
      field_simp
    · rw [← eT, hout]
      simp only [eti, effOf_eq, Finset.univ_unique, Finset.sum_singleton, bottomY, if_pos hpol]
      rw [Finset.mul_sum]
      refine Finset.sum_congr rfl fun i _ => ?_
      rw [hi.cos_eq, hi.hn, ← Complex.ofReal_mul, Complex.div_ofReal_re]
      field_simp
  · have hp0 : ¬ p.pol = 0 := by rw [hpol]; exact one_ne_zero
    refine ⟨Real.cos th / nt, div_pos hcos hi.hnt, ?_, ?_⟩
    · rw [eF, eG]
      have := flux_in (fun i => kz1d p.n_top (kxVec p wl) i / p.n_top ^ 2) R (ctr p.fto.1)
        (Real.cos th / nt)
        (by
          simp only [hi.kz_ctr hphi wl]
          rw [hi.hn]; push_cast; field_simp) deltaI0 deltaI0_eq
      rw [hi.cos_eq, hi.hn] at *
      rw [← Complex.ofReal_div, this]
      simp only [eri, effOf_eq, Finset.univ_unique, Finset.sum_singleton]
      rw [mul_sub, mul_one, Finset.mul_sum]
      congr 1
      refine Finset.sum_congr rfl fun i _ => ?_
      rw [← Complex.ofReal_mul, Complex.div_ofReal_re, ← Complex.ofReal_pow, Complex.div_ofReal_re]
      field_simp
    · rw [← eT, hout]
      simp only [eti, effOf_eq, Finset.univ_unique, Finset.sum_singleton, bottomY, if_neg hp0]
      rw [Finset.mul_sum]
      refine Finset.sum_congr rfl fun i _ => ?_
      rw [hi.cos_eq, hi.hn, ← Complex.ofReal_div, Complex.div_ofReal_re]
      field_simp

theorem stack_core {la : LinAlg} {p : Params} {wl nt th : ℝ} (hp : p.use_pinv = false) (hphi : p.phi = none) (hi : RealIncidence p nt th)
    (hpol : p.pol = 0 ∨ p.pol = 1) (hwl : 0 < wl) {xs : List (Conv (Fin (2 * p.fto.1 + 1)) × ℝ)} (hd : ∀ x ∈ xs, 0 < x.2)
    (hl : ∀ x ∈ xs, StackLayer la p.pol (kxVec p wl) x.1) {kb : Fin (2 * p.fto.1 + 1) → ℂ} {nb : ℂ}
    (hkb : ∀ i, 0 ≤ (bottomY p.pol kb nb i).re)
    (hbot : (∀ i, 0 < (bottomY p.pol kb nb i).re) ∨ ∃ x, xs.getLast? = some x ∧ SideConv Complex.I x.1) :
    ∃ r x, runLayers (step1d la p (2 * Real.pi / wl) (kxVec p wl)) xs (⟨1, Complex.I • diagonal (bottomY p.pol kb nb), 1⟩, []) = .ok r ∧
      transfer_1d_4 la p.pol r.1 (kz1d p.n_top (kxVec p wl)) kb p.theta p.n_top nb false = .ok x ∧
      ∑ j, ∑ i, x.1.de_ri j i + ∑ j, ∑ i, x.1.de_ti j i ≤ 1 ∧
      ((∀ y ∈ xs, ClearConv y.1) → ∑ j, ∑ i, x.1.de_ri j i + ∑ j, ∑ i, x.1.de_ti j i = 1) := by
  have hk0 : 0 < 2 * Real.pi / wl := by positivity
  obtain ⟨r, hr, hst, hdec, hinv⟩ := stack_loop hp hpol hk0 (hi.kx_real hphi wl) hd hl hkb hbot
  have hkz : ∀ (nn : ℂ) i, 0 ≤ (kz1d nn (kxVec p wl) i).re := fun nn i => star_csqrt_re _
  have hfin : ∃ x, transfer_1d_4 la p.pol r.1 (kz1d p.n_top (kxVec p wl)) kb p.theta p.n_top nb false = .ok x := by
    rcases hpol with hpol | hpol
    · rw [hpol]
      exact te_final (final_unit_1d (hkz p.n_top) hst)
    · rw [hpol]
      have hu := final_unit_1d (k := fun i => kz1d (nt : ℂ) (kxVec p wl) i / (nt : ℂ) ^ 2) (fun i => re_div_sq (hkz _ i)) hst
      have e : (Complex.I • diagonal fun i => kz1d (nt : ℂ) (kxVec p wl) i / (nt : ℂ) ^ 2)
          = ((1 : ℂ) / p.n_top ^ 2) • (Complex.I • diagonal (kz1d p.n_top (kxVec p wl))) := by
        rw [hi.hn]
        ext i j
        by_cases hij : i = j
        · subst hij; simp; ring
        · simp [hij]
      rw [e] at hu
      exact tm_final hu
  obtain ⟨x, hx⟩ := hfin
  obtain ⟨y, hy, e1, e2⟩ := balance_4 hphi hi hx
  refine ⟨r, x, hr, hx, ?_, fun hall => ?_⟩
  · have := hdec x.2
    simp only [one_mulVec] at this
    rw [e1, e2] at this
    have := le_of_mul_le_mul_left this hy
    linarith
  · have := hinv hall x.2
    simp only [one_mulVec] at this
    rw [e1, e2] at this
    have := mul_left_cancel₀ hy.ne' this
    linarith

end Meent
