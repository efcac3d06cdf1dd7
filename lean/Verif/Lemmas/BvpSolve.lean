import Verif.Lemmas.BvpFields

/-!
# The boundary value problem solved by the three solvers (helper lemmas)
-/

open Matrix

namespace Meent

set_option linter.unusedSectionVars false
set_option linter.unusedSimpArgs false

section
variable {m : Type} [Fintype m] [DecidableEq m]

/-- Amplitudes just above the stack, in the s/p frame. -/
noncomputable def topF (nt : ℂ) (kzt δ : m → ℂ) (ψ θ : ℂ) (R : m ⊕ m → ℂ) : m ⊕ m → ℂ :=
  Sum.elim (fun i => R (.inl i) + Complex.sin ψ * δ i)
    fun i => -(Complex.I * (kzt i / nt ^ 2) * R (.inr i)) - Complex.cos ψ * Complex.cos θ * δ i
noncomputable def topG (nt : ℂ) (kzt δ : m → ℂ) (ψ θ : ℂ) (R : m ⊕ m → ℂ) : m ⊕ m → ℂ :=
  Sum.elim (fun i => -(Complex.I * kzt i * R (.inl i)) + Complex.I * Complex.sin ψ * nt * Complex.cos θ * δ i)
    fun i => R (.inr i) + Complex.I * nt * Complex.cos ψ * δ i

theorem final_top {nt th ps : ℂ} {kzt δ : m → ℂ} {s : TState (m ⊕ m)} {rt : (m ⊕ m) ⊕ (m ⊕ m) → ℂ}
    (h : finalA nt kzt s *ᵥ rt = finalB δ ps th nt) :
    (s.F *ᵥ fun j => rt (.inr j)) = topF nt kzt δ ps th (fun j => rt (.inl j)) ∧
    (s.G *ᵥ fun j => rt (.inr j)) = topG nt kzt δ ps th fun j => rt (.inl j) := by
  obtain ⟨h1, h2, h3, h4⟩ := final_eqs h
  constructor
  · ext (i | i)
    · exact h1 i
    · exact h2 i
  · ext (i | i)
    · exact h3 i
    · exact h4 i

theorem top_final {nt th ps : ℂ} {kzt δ : m → ℂ} {s : TState (m ⊕ m)} {R T : m ⊕ m → ℂ}
    (h1 : s.F *ᵥ T = topF nt kzt δ ps th R) (h2 : s.G *ᵥ T = topG nt kzt δ ps th R) :
    finalA nt kzt s *ᵥ Sum.elim R T = finalB δ ps th nt := by
  unfold finalA
  rw [fromBlocks_mulVec, fromBlocks_mulVec, fromBlocks_mulVec, Sum.elim_comp_inl, Sum.elim_comp_inr,
    neg_mulVec _ s.F, neg_mulVec _ s.G, h1, h2]
  ext ((i | i) | (i | i)) <;>
  simp only [Sum.elim_inl, Sum.elim_inr, Pi.add_apply, one_mulVec, zero_mulVec, add_zero, zero_add, Pi.zero_apply,
      neg_mulVec, Pi.neg_apply, Function.comp_apply, finalB, smul_mulVec, Pi.smul_apply, topF, topG,
      mulVec_diagonal, smul_eq_mul] <;> ring

end

/-- Reflected and transmitted amplitudes of a dictionary. -/
def rVec {fx fy : ℕ} (r : SubRes (2 * fy + 1) (2 * fx + 1)) : FlatIdx fx fy ⊕ FlatIdx fx fy → ℂ :=
  Sum.elim (fun i => r.R_s i.divNat i.modNat) fun i => r.R_p i.divNat i.modNat
def tVec {fx fy : ℕ} (r : SubRes (2 * fy + 1) (2 * fx + 1)) : FlatIdx fx fy ⊕ FlatIdx fx fy → ℂ :=
  Sum.elim (fun i => r.T_s i.divNat i.modNat) fun i => r.T_p i.divNat i.modNat

theorem flat_eta {fx fy : ℕ} (i : FlatIdx fx fy) : finProdFinEquiv (i.divNat, i.modNat) = i :=
  finProdFinEquiv.apply_symm_apply i

theorem rVec_subResOf {fx fy : ℕ} (s : TState (FlatIdx fx fy ⊕ FlatIdx fx fy)) (kzt kzb : FlatIdx fx fy → ℂ)
    (theta nt nb : ℂ) (rt : (FlatIdx fx fy ⊕ FlatIdx fx fy) ⊕ (FlatIdx fx fy ⊕ FlatIdx fx fy) → ℂ) :
    rVec (subResOf s kzt kzb theta nt nb rt) = (fun j => rt (.inl j)) ∧
    tVec (subResOf s kzt kzb theta nt nb rt) = s.T *ᵥ fun j => rt (.inr j) := by
  constructor <;> ext (i | i) <;> simp only [rVec, tVec, subResOf, Sum.elim_inl, Sum.elim_inr, flat_eta]

theorem rVec_inj {fx fy : ℕ} {r r' : SubRes (2 * fy + 1) (2 * fx + 1)} (h : rVec (fx := fx) (fy := fy) r = rVec r')
    (h' : tVec (fx := fx) (fy := fy) r = tVec r') : r.R_s = r'.R_s ∧ r.R_p = r'.R_p ∧ r.T_s = r'.T_s ∧ r.T_p = r'.T_p := by
  refine ⟨?_, ?_, ?_, ?_⟩ <;> funext jy jx
  · have := congrFun h (.inl (finProdFinEquiv (jy, jx)))
    simpa only [rVec, Sum.elim_inl, modNat_prod, divNat_prod] using this
  · have := congrFun h (.inr (finProdFinEquiv (jy, jx)))
    simpa only [rVec, Sum.elim_inr, modNat_prod, divNat_prod] using this
  · have := congrFun h' (.inl (finProdFinEquiv (jy, jx)))
    simpa only [tVec, Sum.elim_inl, modNat_prod, divNat_prod] using this
  · have := congrFun h' (.inr (finProdFinEquiv (jy, jx)))
    simpa only [tVec, Sum.elim_inr, modNat_prod, divNat_prod] using this

section
variable {p : Params} {kzt kzb varphi : FlatIdx p.fto.1 p.fto.2 → ℂ}
  {s0 : TState (FlatIdx p.fto.1 p.fto.2 ⊕ FlatIdx p.fto.1 p.fto.2)}

theorem delta_flat (i : FlatIdx p.fto.1 p.fto.2) : Spec.incidentOrder i.divNat i.modNat = (deltaI0 i : ℂ) := by
  rw [← flat_eta i, deltaI0_order, modNat_prod, divNat_prod]
  unfold Spec.incidentOrder Spec.colOrder Spec.rowOrder
  refine if_congr ?_ rfl rfl
  omega

theorem above_mk (hn : p.n_top ≠ 0)
    (h1 : transfer_2d_1 (kxF p p.wavelength) (kyF p p.wavelength) p.n_top p.n_bot = .ok (kzt, kzb, varphi, s0))
    (ψ : ℂ) (r : SubRes (2 * p.fto.2 + 1) (2 * p.fto.1 + 1)) :
    (fun i : FlatIdx p.fto.1 p.fto.2 => Spec.above p ψ r i.divNat i.modNat)
      = mkT varphi (topF p.n_top kzt deltaI0 ψ p.theta (rVec r)) (-(topG p.n_top kzt deltaI0 ψ p.theta (rVec r))) := by
  obtain ⟨k1, k2, hv, e0⟩ := transfer_2d_1_ok h1
  simp only at k1 k2 hv e0
  funext i
  have hphi : Spec.azimuth (kxVec p p.wavelength i.modNat) (kyVec p p.wavelength i.divNat) = varphi i := hv i
  have hkz : Spec.kzOf p.n_top (kxVec p p.wavelength i.modNat) (kyVec p p.wavelength i.divNat) = kzt i := by
    rw [k1]; rfl
  have hnn : p.n_top * Complex.cos p.theta / p.n_top ^ 2 * (p.n_top * Complex.cos ψ)
      = Complex.cos p.theta * Complex.cos ψ := by field_simp
  have hd := delta_flat i
  unfold mkT Spec.above
  refine congr (congr (congr (congrArg _ ?_) ?_) ?_) ?_ <;>
    simp only [rotE_inl, rotE_inr, rotH'_inl, rotH'_inr, Pi.neg_apply, Spec.planeWave,
      hphi, hkz, hd, topF, topG, rVec, Sum.elim_inl, Sum.elim_inr]
  · linear_combination (-Complex.cos (varphi i) * deltaI0 i) * hnn
  · linear_combination (-Complex.sin (varphi i) * deltaI0 i) * hnn
  · linear_combination (-(Complex.cos (varphi i) * (kzt i * r.R_s i.divNat i.modNat
        - Complex.sin ψ * p.n_top * Complex.cos p.theta * deltaI0 i)
      + Complex.sin (varphi i) * p.n_top * Complex.cos ψ * deltaI0 i)) * Complex.I_sq
  · linear_combination (-(Complex.sin (varphi i) * (kzt i * r.R_s i.divNat i.modNat
        - Complex.sin ψ * p.n_top * Complex.cos p.theta * deltaI0 i)
      - Complex.cos (varphi i) * p.n_top * Complex.cos ψ * deltaI0 i)) * Complex.I_sq

theorem below_mk
    (h1 : transfer_2d_1 (kxF p p.wavelength) (kyF p p.wavelength) p.n_top p.n_bot = .ok (kzt, kzb, varphi, s0))
    (r : SubRes (2 * p.fto.2 + 1) (2 * p.fto.1 + 1)) :
    (fun i : FlatIdx p.fto.1 p.fto.2 => Spec.below p r i.divNat i.modNat)
      = mkT varphi (s0.F *ᵥ tVec r) (-(s0.G *ᵥ tVec r)) := by
  obtain ⟨k1, k2, hv, e0⟩ := transfer_2d_1_ok h1
  simp only at k1 k2 hv e0
  funext i
  have hphi : Spec.azimuth (kxVec p p.wavelength i.modNat) (kyVec p p.wavelength i.divNat) = varphi i := hv i
  have hkz : Spec.kzOf p.n_bot (kxVec p p.wavelength i.modNat) (kyVec p p.wavelength i.divNat)
      = kz2d p.n_bot (kxF p p.wavelength) (kyF p p.wavelength) i := rfl
  subst e0
  unfold mkT Spec.below
  refine congr (congr (congr (congrArg _ ?_) ?_) ?_) ?_ <;>
    simp only [rotE_inl, rotE_inr, rotH'_inl, rotH'_inr, Pi.neg_apply, fromBlocks_mulVec, Spec.planeWave,
      hphi, hkz, tVec, Sum.elim_inl, Sum.elim_inr, one_mulVec, zero_mulVec, add_zero, zero_add,
      Pi.add_apply, Pi.zero_apply, smul_mulVec, Pi.smul_apply, mulVec_diagonal, smul_eq_mul, Function.comp_apply]
  · ring
  · ring
  · linear_combination (Complex.cos (varphi i) * kz2d p.n_bot (kxF p p.wavelength) (kyF p p.wavelength) i
      * r.T_s i.divNat i.modNat) * Complex.I_sq
  · linear_combination (Complex.sin (varphi i) * kz2d p.n_bot (kxF p p.wavelength) (kyF p p.wavelength) i
      * r.T_s i.divNat i.modNat) * Complex.I_sq

/-- Existence and uniqueness for one incident wave. -/
theorem bvp_core {L : Type} {v : L → LView (FlatIdx p.fto.1 p.fto.2 ⊕ FlatIdx p.fto.1 p.fto.2)}
    {F : L → (FlatIdx p.fto.1 p.fto.2 ⊕ FlatIdx p.fto.1 p.fto.2 → ℂ) → Spec.OrderFields (FlatIdx p.fto.1 p.fto.2)}
    {step : Conv (FlatIdx p.fto.1 p.fto.2) → ℝ → TState (FlatIdx p.fto.1 p.fto.2 ⊕ FlatIdx p.fto.1 p.fto.2) →
      Res (TState (FlatIdx p.fto.1 p.fto.2 ⊕ FlatIdx p.fto.1 p.fto.2) × L)} {k0 : ℝ} (hn : p.n_top ≠ 0)
    (h1 : transfer_2d_1 (kxF p p.wavelength) (kyF p p.wavelength) p.n_top p.n_bot = .ok (kzt, kzb, varphi, s0))
    {xs : List (Conv (FlatIdx p.fto.1 p.fto.2) × ℝ)}
    (hs : ∀ c d s r, (c, d) ∈ xs → step c d s = .ok r → (v r.2).Step s r.1 ∧
      Carries k0 (kxF p p.wavelength) (kyF p p.wavelength) (mkT varphi) c d (v r.2) (F r.2) ∧
      Complete k0 (kxF p p.wavelength) (kyF p p.wavelength) (tS varphi) (tU varphi) c d (v r.2))
    {r : TState (FlatIdx p.fto.1 p.fto.2 ⊕ FlatIdx p.fto.1 p.fto.2) × List L} (hr : runLayers step xs (s0, []) = .ok r)
    (hu : IsUnit (finalA p.n_top kzt r.1).det) {ψ : ℂ}
    {rt : (FlatIdx p.fto.1 p.fto.2 ⊕ FlatIdx p.fto.1 p.fto.2) ⊕ (FlatIdx p.fto.1 p.fto.2 ⊕ FlatIdx p.fto.1 p.fto.2) → ℂ}
    (hrt : finalA p.n_top kzt r.1 *ᵥ rt = finalB deltaI0 ψ p.theta p.n_top)
    (res : SubRes (2 * p.fto.2 + 1) (2 * p.fto.1 + 1)) (hres : res = subResOf r.1 kzt kzb p.theta p.n_top p.n_bot rt) :
    Spec.SolvesStack k0 (kxF p p.wavelength) (kyF p p.wavelength) xs
      ((trace v r.2.reverse fun i => rt (.inr i)).map fun x => F x.1 x.2)
      (fun i => Spec.above p ψ res i.divNat i.modNat) (fun i => Spec.below p res i.divNat i.modNat) ∧
    ∀ (r' : SubRes (2 * p.fto.2 + 1) (2 * p.fto.1 + 1)) (fs : List (Spec.OrderFields (FlatIdx p.fto.1 p.fto.2))),
      Spec.SolvesStack k0 (kxF p p.wavelength) (kyF p p.wavelength) xs fs
        (fun i => Spec.above p ψ r' i.divNat i.modNat) (fun i => Spec.below p r' i.divNat i.modNat) →
      r'.R_s = res.R_s ∧ r'.R_p = res.R_p ∧ r'.T_s = res.T_s ∧ r'.T_p = res.T_p := by
  obtain ⟨eR, eT⟩ := rVec_subResOf r.1 kzt kzb p.theta p.n_top p.n_bot rt
  rw [← hres] at eR eT
  have e0 : s0.T = 1 := congrArg TState.T (transfer_2d_1_ok h1).2.2.2
  obtain ⟨hF, hG⟩ := final_top hrt
  constructor
  · obtain ⟨t, ht, hsol⟩ := stack_exists (mk := mkT varphi) (fun c d s r hm h => ⟨(hs c d s r hm h).1, (hs c d s r hm h).2.1⟩) hr
      (fun i => rt (.inr i))
    rw [e0, one_mulVec] at ht
    rw [above_mk hn h1, below_mk h1, eR, eT, ht, ← hF, ← hG]
    exact hsol
  · intro r' fs hsol
    rw [above_mk hn h1, below_mk h1] at hsol
    obtain ⟨t', g1, g2, g3⟩ := stack_unique (fun c d s r hm h => ⟨(hs c d s r hm h).1, (hs c d s r hm h).2.2⟩) hsol hr
      (tS_mkT _ _ _) (tU_mkT _ _ _)
    rw [tS_mkT] at g1
    rw [tU_mkT, neg_inj] at g2
    have hfin := top_final g1.symm g2.symm
    have : Sum.elim (rVec r') t' = rt := by
      have := hfin.trans hrt.symm
      have := congrArg (fun w => (finalA p.n_top kzt r.1)⁻¹ *ᵥ w) this
      simpa only [mulVec_mulVec, nonsing_inv_mul _ hu, one_mulVec] using this
    subst this
    rw [e0, one_mulVec] at g3
    exact rVec_inj (eR.symm ▸ rfl) (by rw [eT, ← g3]; rfl)

end

/-- Thicknesses of the layers left behind by a run. -/
theorem run_d {n C L : Type} {step : C → ℝ → TState n → Res (TState n × L)} {dd : L → ℝ}
    (hs : ∀ c d s r, step c d s = .ok r → dd r.2 = d) {s0 : TState n} :
    ∀ {xs : List (C × ℝ)} {r : TState n × List L}, runLayers step xs (s0, []) = .ok r →
      r.2.reverse.map dd = xs.map Prod.snd
  | [], r, h => by
    obtain rfl := Except.ok.inj h
    rfl
  | x :: xs, r, h => by
    simp only [runLayers, Except.bind_ok] at h
    obtain ⟨r1, h1, r2, h2, h3⟩ := h
    obtain rfl := Except.ok.inj h3
    have := run_d hs h1
    rw [List.reverse_append, List.map_append, this]
    simp [hs _ _ _ _ h2]

theorem trace_fst {n L : Type} [Fintype n] [DecidableEq n] {v : L → LView n} : ∀ (ls : List L) (T : n → ℂ),
    (trace v ls T).map Prod.fst = ls
  | [], _ => rfl
  | l :: ls, T => by simp [trace, trace_fst ls]

/-! ### Samples -/

theorem zSample_eq (rz : ℕ) (d : ℝ) (i : Fin rz) : zSample rz d i = Spec.samplePoint d rz i := by
  unfold zSample
  rw [linspace_eq]
  unfold Spec.samplePoint
  split
  · simp
  · have h0 : (rz : ℝ) ≠ 0 := by exact_mod_cast (i.pos).ne'
    field_simp

theorem samples_of {m : Type} [Fintype m] {k0 : ℝ} {kx ky : m → ℂ} {per : ℝ × ℝ} {rx ry rz : ℕ} {α L : Type}
    {six : α → Field6} {ds : List ℝ} {ls : List L} {dd : L → ℝ} {f : L → Spec.OrderFields m}
    {b : L → Block rx ry rz α} (hd : ls.map dd = ds)
    (h : ∀ x iz iy ix, six (b x iz iy ix) = (f x).at k0 kx ky (Spec.samplePoint per.1 rx ix)
      (Spec.samplePoint per.2 ry iy.rev) (zSample rz (dd x) iz)) :
    Spec.Samples k0 kx ky per six ds (ls.map f) (ls.map b) := by
  subst hd
  refine ⟨by simp, by simp, ?_⟩
  intro k d g a h1 h2 h3 iz iy ix
  rw [List.getElem?_map, Option.map_eq_some_iff] at h1 h2 h3
  obtain ⟨x1, g1, rfl⟩ := h1
  obtain ⟨x2, g2, rfl⟩ := h2
  obtain ⟨x3, g3, rfl⟩ := h3
  obtain rfl : x1 = x2 := Option.some.inj (g1.symm.trans g2)
  obtain rfl : x1 = x3 := Option.some.inj (g1.symm.trans g3)
  rw [h, zSample_eq]

theorem block6_at {m : Type} [Fintype m] [DecidableEq m] (k0 : ℝ) (per : ℝ × ℝ) (kx ky : m → ℂ) (rx ry rz : ℕ) (d : ℝ)
    (a : ℝ → Amps6 m) (iz : Fin rz) (iy : Fin ry) (ix : Fin rx) :
    block6 k0 per kx ky rx ry rz d a iz iy ix = (fieldsOf a).at k0 kx ky (Spec.samplePoint per.1 rx ix)
      (Spec.samplePoint per.2 ry iy.rev) (zSample rz d iz) := by
  have e : ∀ x y i, invFourier2d k0 kx ky x y i = Complex.exp (-Complex.I * (k0 * (x * kx i + y * ky i))) := by
    intro x y i; unfold invFourier2d; rw [← Complex.exp_add]; congr 1; ring
  unfold block6 Spec.OrderFields.at fieldsOf
  simp only [dotProduct, linspace_eq, e, Finset.mul_sum, Field6.mk.injEq, true_and]
  refine ⟨?_, ?_, ?_⟩ <;> refine Finset.sum_congr rfl fun i _ => ?_ <;> ring

theorem block1d_at {m : Type} [Fintype m] [DecidableEq m] (k0 pol : ℝ) (per : ℝ × ℝ) (kx : m → ℂ) (rx rz : ℕ)
    (l : LayerInfo m m) (T : m → ℂ) (iz : Fin rz) (iy : Fin 1) (ix : Fin rx) (y : ℝ) :
    Spec.six pol (block1d k0 pol per.1 kx rx rz l T iz iy ix) = (fieldsOf (amps16 k0 pol kx l T)).at k0 kx 0
      (Spec.samplePoint per.1 rx ix) y (zSample rz l.d iz) := by
  have e : ∀ (x y : ℝ) i, Complex.exp (-Complex.I * (k0 * (x * kx i + y * (0 : m → ℂ) i))) = invFourier1d k0 kx x i := by
    intro x y i; unfold invFourier1d; congr 1; simp only [Pi.zero_apply]; ring
  have hI := Complex.I_sq
  unfold block1d Spec.six Spec.OrderFields.at fieldsOf amps16
  simp only [e, linspace_eq]
  have hz : ∀ (M : Matrix m m ℂ) (k : m → ℂ) (u : m → ℂ), M *ᵥ diagonal k *ᵥ (fun i => -Complex.I * u i)
      = (-Complex.I) • (M *ᵥ diagonal k *ᵥ u) := by
    intro M k u
    rw [← mulVec_smul, ← mulVec_smul]; rfl
  by_cases h0 : pol = 0
  · simp only [h0, if_true, withZ, dotProduct, Finset.mul_sum, Field6.mk.injEq, Pi.zero_apply, mul_zero,
      Finset.sum_const_zero, true_and, mulVec_zero, sub_self, smul_zero, diagonal_zero, zero_mulVec, sub_zero,
      show (diagonal (0 : m → ℂ)) = 0 from diagonal_zero]
    refine ⟨?_, ?_⟩ <;> refine Finset.sum_congr rfl fun i _ => ?_
    · ring
    · simp only [amps1d, if_true]; ring
  · simp only [h0, if_false, withZ, dotProduct, Finset.mul_sum, Field6.mk.injEq, Pi.zero_apply, mul_zero,
      Finset.sum_const_zero, true_and, mulVec_zero, sub_self, smul_zero, zero_mulVec, sub_zero, and_true,
      show (diagonal (0 : m → ℂ)) = 0 from diagonal_zero, hz]
    refine ⟨?_, ?_, ?_⟩ <;> refine Finset.sum_congr rfl fun i _ => ?_
    · ring
    · simp only [amps1d, h0, if_false, Pi.smul_apply, smul_eq_mul]; ring
    · linear_combination (invFourier1d k0 kx (Spec.samplePoint per.1 rx ix) i
        * (amps1d k0 pol kx l T (zSample rz l.d iz)).1 i) * hI

theorem samples_6 {m n : Type} [Fintype m] [DecidableEq m] [Fintype n] [DecidableEq n] {k0 : ℝ} {kx ky : m → ℂ}
    {per : ℝ × ℝ} {rx ry rz : ℕ} {L : Type} {ds : List ℝ} {ls : List (L × (n → ℂ))} {dd : L → ℝ}
    {a : L → (n → ℂ) → ℝ → Amps6 m} (hd : ls.map (fun x => dd x.1) = ds) :
    Spec.Samples k0 kx ky per id ds (ls.map fun x => fieldsOf (a x.1 x.2))
      (ls.map fun x => block6 k0 per kx ky rx ry rz (dd x.1) (a x.1 x.2)) :=
  samples_of (dd := fun x : L × (n → ℂ) => dd x.1) (f := fun x : L × (n → ℂ) => fieldsOf (a x.1 x.2))
    (b := fun x : L × (n → ℂ) => block6 k0 per kx ky rx ry rz (dd x.1) (a x.1 x.2)) hd
    fun x iz iy ix => block6_at k0 per kx ky rx ry rz (dd x.1) (a x.1 x.2) iz iy ix

theorem samples_1 {m : Type} [Fintype m] [DecidableEq m] {k0 pol : ℝ} {kx : m → ℂ}
    {per : ℝ × ℝ} {rx rz : ℕ} {ds : List ℝ} {ls : List (LayerInfo m m × (m → ℂ))}
    (hd : ls.map (fun x => x.1.d) = ds) :
    Spec.Samples k0 kx 0 per (Spec.six pol) ds (ls.map fun x => fieldsOf (amps16 k0 pol kx x.1 x.2))
      (ls.map fun x => block1d k0 pol per.1 kx rx rz x.1 x.2) :=
  samples_of (dd := fun x : LayerInfo m m × (m → ℂ) => x.1.d)
    (f := fun x : LayerInfo m m × (m → ℂ) => fieldsOf (amps16 k0 pol kx x.1 x.2))
    (b := fun x : LayerInfo m m × (m → ℂ) => block1d k0 pol per.1 kx rx rz x.1 x.2) hd
    fun x iz iy ix => block1d_at k0 pol per kx rx rz x.1 x.2 iz iy ix _

/-! ### TE / TM -/

noncomputable def topG1 (pol : ℝ) {f : ℕ} (nt θ : ℂ) (kzt R : Fin (2 * f + 1) → ℂ) (i : Fin (2 * f + 1)) : ℂ :=
  if pol = 0 then Complex.I * ((nt * Complex.cos θ) * deltaI0 i) - Complex.I * (kzt i * R i)
  else Complex.I * ((Complex.cos θ / nt) * deltaI0 i) - Complex.I * (kzt i / nt ^ 2 * R i)

theorem transfer_1d_4_unique {f : ℕ} {la : LinAlg} {pol : ℝ} {s : TState (Fin (2 * f + 1))}
    {kzt kzb : Fin (2 * f + 1) → ℂ} {theta nt nb : ℂ} {o : SubRes 1 (2 * f + 1) × (Fin (2 * f + 1) → ℂ)}
    (h : transfer_1d_4 la pol s kzt kzb theta nt nb false = .ok o) {R T : Fin (2 * f + 1) → ℂ}
    (h1 : s.F *ᵥ T = R + deltaI0) (h2 : s.G *ᵥ T = topG1 pol nt theta kzt R) : T = o.2 := by
  unfold transfer_1d_4 at h
  by_cases h0 : pol = 0
  · simp only [h0, if_true, Except.bind_ok, meeinv_false_ok] at h
    obtain ⟨M, ⟨hu, rfl⟩, T1, e1, e2⟩ := h
    simp only [Except.ok.injEq] at e1 e2
    subst e2
    simp only
    have hT : (s.G + (Complex.I • diagonal kzt) * s.F) *ᵥ T
        = (Complex.I • diagonal kzt) *ᵥ deltaI0 + (Complex.I * nt * Complex.cos theta) • deltaI0 := by
      rw [add_mulVec, ← mulVec_mulVec, h1, h2]
      ext i
      simp only [topG1, h0, if_true, Pi.add_apply, smul_mulVec, Pi.smul_apply, mulVec_diagonal, smul_eq_mul]
      ring
    rw [← e1, ← hT, mulVec_mulVec, nonsing_inv_mul _ hu, one_mulVec]
  · by_cases h1' : pol = 1
    · simp only [h1', if_true, if_false, Except.bind_ok, meeinv_false_ok, one_ne_zero] at h
      obtain ⟨M, ⟨hu, rfl⟩, T1, e1, e2⟩ := h
      simp only [Except.ok.injEq] at e1 e2
      subst e2
      simp only
      have hT : (s.G + (((1 : ℂ) / nt ^ 2) • (Complex.I • diagonal kzt)) * s.F) *ᵥ T
          = (((1 : ℂ) / nt ^ 2) • (Complex.I • diagonal kzt)) *ᵥ deltaI0
            + (Complex.I * Complex.cos theta / nt) • deltaI0 := by
        rw [add_mulVec, ← mulVec_mulVec, h1, h2]
        ext i
        simp only [topG1, h0, if_false, Pi.add_apply, smul_mulVec, Pi.smul_apply, mulVec_diagonal, smul_eq_mul]
        ring
      rw [← e1, ← hT, mulVec_mulVec, nonsing_inv_mul _ hu, one_mulVec]
    · simp only [h0, h1', if_false] at h
      simp [bind, Except.bind] at h

section
variable {p : Params}

/-- The amplitudes of the polarization of a TE/TM solve. -/
noncomputable def r1 (r : SubRes 1 (2 * p.fto.1 + 1)) (j : Fin (2 * p.fto.1 + 1)) : ℂ := if p.pol = 0 then r.R_s 0 j else r.R_p 0 j
noncomputable def t1 (r : SubRes 1 (2 * p.fto.1 + 1)) (j : Fin (2 * p.fto.1 + 1)) : ℂ := if p.pol = 0 then r.T_s 0 j else r.T_p 0 j

theorem above1d_mk (hn : p.n_top ≠ 0) (r : SubRes 1 (2 * p.fto.1 + 1)) :
    Spec.above1d p r = mk1 p.pol (r1 r + deltaI0)
      (-(topG1 p.pol p.n_top p.theta (kz1d p.n_top (kxVec p p.wavelength)) (r1 r))) := by
  have hd : ∀ j : Fin (2 * p.fto.1 + 1), (deltaI0 j : ℂ) = if j.val = p.fto.1 then 1 else 0 := by
    intro j; unfold deltaI0; congr 2; omega
  have hI := Complex.I_sq
  have hnn : p.n_top * Complex.cos p.theta / p.n_top ^ 2 = Complex.cos p.theta / p.n_top := by field_simp
  funext j
  unfold Spec.above1d mk1
  by_cases h0 : p.pol = 0
  · simp only [h0, if_true, r1, topG1, Pi.add_apply, Pi.neg_apply, hd]
    refine congr (congr (congr (congrArg _ ?_) ?_) ?_) ?_ <;>
      simp only [Spec.planeWave, kzOf_zero, Complex.cos_zero, Complex.sin_zero]
    · ring
    · ring
    · linear_combination (p.n_top * Complex.cos p.theta * (if j.val = p.fto.1 then 1 else 0)
          - kz1d p.n_top (kxVec p p.wavelength) j * r.R_s 0 j) * hI
    · ring
  · simp only [h0, if_false, r1, topG1, Pi.add_apply, Pi.neg_apply, hd]
    refine congr (congr (congr (congrArg _ ?_) ?_) ?_) ?_ <;>
      simp only [Spec.planeWave, kzOf_zero, Complex.cos_zero, Complex.sin_zero]
    · rw [hnn]
      linear_combination (-(Complex.cos p.theta / p.n_top * (if j.val = p.fto.1 then 1 else 0))
          + kz1d p.n_top (kxVec p p.wavelength) j / p.n_top ^ 2 * r.R_p 0 j) * hI
    · ring
    · ring
    · ring

theorem below1d_mk {init : (Fin (2 * p.fto.1 + 1) → ℂ) × (Fin (2 * p.fto.1 + 1) → ℂ) × TState (Fin (2 * p.fto.1 + 1))}
    (h : transfer_1d_1 p.pol (kxVec p p.wavelength) p.n_top p.n_bot = .ok init) (r : SubRes 1 (2 * p.fto.1 + 1)) :
    Spec.below1d p r = mk1 p.pol (init.2.2.F *ᵥ t1 r) (-(init.2.2.G *ᵥ t1 r)) := by
  obtain ⟨k1, k2, f1, -, hg⟩ := transfer_1d_1_ok h
  have hI := Complex.I_sq
  funext j
  rw [f1, one_mulVec]
  unfold Spec.below1d mk1 Spec.planeWave
  rcases hg with ⟨h0, eG⟩ | ⟨h1, eG⟩
  · rw [eG]
    simp only [h0, if_true, t1, Pi.neg_apply, smul_mulVec, Pi.smul_apply, mulVec_diagonal, smul_eq_mul]
    refine congr (congr (congr (congrArg _ ?_) ?_) ?_) ?_ <;>
      simp only [Spec.planeWave, kzOf_zero, Complex.cos_zero, Complex.sin_zero]
    · ring
    · ring
    · linear_combination (kz1d p.n_bot (kxVec p p.wavelength) j * r.T_s 0 j) * hI
    · ring
  · rw [eG]
    simp only [h1, one_ne_zero, if_false, t1, Pi.neg_apply, smul_mulVec, Pi.smul_apply, mulVec_diagonal, smul_eq_mul]
    refine congr (congr (congr (congrArg _ ?_) ?_) ?_) ?_ <;>
      simp only [Spec.planeWave, kzOf_zero, Complex.cos_zero, Complex.sin_zero]
    · linear_combination (-(kz1d p.n_bot (kxVec p p.wavelength) j / p.n_bot ^ 2 * r.T_p 0 j)) * hI
    · ring
    · ring
    · ring

end

/-! ### The three solvers -/

theorem map_snd_zip_th {α : Type} {cs : List α} {th : List ℝ} (h : th.length ≤ cs.length) :
    (cs.zip th).map Prod.snd = th := List.map_snd_zip h

theorem trace_map_d {n L : Type} [Fintype n] [DecidableEq n] {v : L → LView n} {dd : L → ℝ} {ls : List L} {T : n → ℂ}
    {ds : List ℝ} (h : ls.map dd = ds) : (trace v ls T).map (fun x => dd x.1) = ds := by
  rw [← h]
  conv_rhs => rw [← trace_fst (v := v) ls T]
  rw [List.map_map]; rfl

theorem solve_1d_bvp {la : LinAlg} {p : Params} {convs : List (Conv (Fin (2 * p.fto.1 + 1)))}
    {o : Out1D (2 * p.fto.1 + 1)} (hp : p.use_pinv = false) (hn : p.n_top ≠ 0)
    (h : solve_1d la p p.wavelength convs = .ok o) :
    (∀ rx rz, ∃ fs, Spec.Diffraction1d p convs o.res fs ∧
      Spec.Samples (Spec.k0Of p) (kxVec p p.wavelength) 0 p.period (Spec.six p.pol) p.thickness fs
        (field_dist_1d p o rx rz)) ∧
    ∀ r, (∃ fs, Spec.Diffraction1d p convs r fs) ↔
      if p.pol = 0 then r.R_s = o.res.R_s ∧ r.T_s = o.res.T_s else r.R_p = o.res.R_p ∧ r.T_p = o.res.T_p := by
  obtain ⟨hl, init, r, x, h1, hr, hx, rfl⟩ := (solve_1d_iff hp).mp h
  obtain ⟨k1, k2, f1, t1', hg⟩ := transfer_1d_1_ok h1
  obtain ⟨R, T, eF, eT, -, hc⟩ := transfer_1d_4_ok hx
  have hs : ∀ c d s r, (c, d) ∈ convs.zip p.thickness →
      step1d la p (2 * Real.pi / p.wavelength) (kxVec p p.wavelength) c d s = .ok r →
      (view1d (2 * Real.pi / p.wavelength) r.2).Step s r.1 ∧ _ ∧ _ :=
    fun c d s r _ h => ⟨view1d_step la hp _ _ c d s r h, layer_1d hp h⟩
  have eR : r1 (p := p) x.1 = R := by
    rcases hc with ⟨h0, -, -, a, -⟩ | ⟨h0, -, -, a, -⟩ <;> funext j <;> simp [r1, h0, a]
  have eT' : t1 (p := p) x.1 = T := by
    rcases hc with ⟨h0, -, -, -, a, -⟩ | ⟨h0, -, -, -, a, -⟩ <;> funext j <;> simp [t1, h0, a]
  have eG : r.1.G *ᵥ x.2 = topG1 p.pol p.n_top p.theta (kz1d p.n_top (kxVec p p.wavelength)) R := by
    rw [← k1]
    rcases hc with ⟨h0, a, -⟩ | ⟨h0, a, -⟩ <;> rw [a] <;> funext j <;> simp [topG1, h0]
  have hd : r.2.reverse.map LayerInfo.d = p.thickness := by
    refine (run_d (dd := LayerInfo.d) ?_ hr).trans (map_snd_zip_th hl)
    intro c d s r h
    unfold step1d at h
    simp only [Except.bind_ok] at h
    obtain ⟨M, -, y, -, e⟩ := h
    obtain rfl := Except.ok.inj e
    rfl
  have key : ∀ q : SubRes 1 (2 * p.fto.1 + 1), r1 (p := p) q = R → t1 (p := p) q = T → Spec.Diffraction1d p convs q
      ((trace (view1d (2 * Real.pi / p.wavelength)) r.2.reverse x.2).map fun y =>
        fieldsOf (amps16 (2 * Real.pi / p.wavelength) p.pol (kxVec p p.wavelength) y.1 y.2)) := by
    intro q hq hq'
    obtain ⟨t, ht, hsol⟩ := stack_exists (mk := mk1 p.pol)
      (F := fun l T => fieldsOf (amps16 (2 * Real.pi / p.wavelength) p.pol (kxVec p p.wavelength) l T))
      (fun c d s r hm h => ⟨(hs c d s r hm h).1, (hs c d s r hm h).2.1⟩) hr x.2
    rw [t1', one_mulVec] at ht
    unfold Spec.Diffraction1d
    rw [above1d_mk hn, below1d_mk h1, hq, hq', ← eF, ← eG, eT, ht]
    exact hsol
  refine ⟨fun rx rz => ⟨_, key _ eR eT', ?_⟩, fun q => ⟨?_, ?_⟩⟩
  · unfold field_dist_1d
    simp only
    rw [fieldLoop1d_eq]
    exact samples_1 (trace_map_d hd)
  · rintro ⟨fs, hsol⟩
    unfold Spec.Diffraction1d at hsol
    rw [above1d_mk hn, below1d_mk h1] at hsol
    obtain ⟨t', g1, g2, g3⟩ := stack_unique (fun c d s r hm h => ⟨(hs c d s r hm h).1, (hs c d s r hm h).2.2⟩) hsol hr
      (t1S_mk1 _ _ _) (t1U_mk1 _ _ _)
    rw [t1S_mk1] at g1
    rw [t1U_mk1, neg_inj, ← k1] at g2
    obtain rfl := transfer_1d_4_unique hx g1.symm g2.symm
    rw [t1', one_mulVec, ← eT] at g3
    rw [eF, add_left_inj] at g1
    rcases hc with ⟨h0, -, -, a, b, -⟩ | ⟨h1, -, -, a, b, -⟩
    · rw [if_pos h0]
      constructor <;> funext j i <;> rw [Subsingleton.elim j 0]
      · simp only [a]; have := congrFun g1 i; simpa [r1, h0] using this
      · simp only [b]; have := congrFun g3 i; simpa [t1, h0] using this.symm
    · rw [if_neg (by rw [h1]; norm_num)]
      constructor <;> funext j i <;> rw [Subsingleton.elim j 0]
      · simp only [a]; have := congrFun g1 i; simpa [r1, h1] using this
      · simp only [b]; have := congrFun g3 i; simpa [t1, h1] using this.symm
  · intro hq
    refine ⟨_, key q ?_ ?_⟩
    · rw [← eR]
      funext j
      unfold r1
      split at hq <;> rename_i h0 <;> simp only [h0, if_true, if_false] <;> rw [hq.1]
    · rw [← eT']
      funext j
      unfold t1
      split at hq <;> rename_i h0 <;> simp only [h0, if_true, if_false] <;> rw [hq.2]

/-- The solution vectors, and the matrix that determines them. -/
theorem transfer_2d_4_unit {fx fy : ℕ} {la : LinAlg} {s : TState (FlatIdx fx fy ⊕ FlatIdx fx fy)}
    {kzt kzb : FlatIdx fx fy → ℂ} {psi theta nt nb : ℂ} {o : Out4 fx fy}
    (h : transfer_2d_4 la s kzt kzb psi theta nt nb false = .ok o) : IsUnit (finalA nt kzt s).det := by
  unfold transfer_2d_4 at h
  simp only [Except.bind_ok, meeinv_false_ok] at h
  obtain ⟨M, ⟨hu, rfl⟩, e⟩ := h
  exact hu

theorem same_diffraction {p : Params} {cs : List (Conv (FlatIdx p.fto.1 p.fto.2))} {ψ : ℂ}
    {r r' : SubRes (2 * p.fto.2 + 1) (2 * p.fto.1 + 1)} {fs : List (Spec.OrderFields (FlatIdx p.fto.1 p.fto.2))}
    (h : Spec.SameAmplitudes r r') (hd : Spec.Diffraction p cs ψ r' fs) : Spec.Diffraction p cs ψ r fs := by
  obtain ⟨h1, h2, h3, h4⟩ := h
  unfold Spec.Diffraction Spec.above Spec.below at hd ⊢
  rw [h1, h2, h3, h4]
  exact hd

theorem mem_selected {p : ℂ} {fx fy : ℕ} {o : Out4 fx fy}
    {P : ℂ × SubRes (2 * fy + 1) (2 * fx + 1) → Prop}
    (h1 : P (p, o.res)) (h2 : P (((Real.pi / 2 : ℝ) : ℂ), o.res_te)) (h3 : P (0, o.res_tm)) (sel : Bool × Bool × Bool) :
    ∀ i ∈ Spec.selectedInputs p o.res o.res_te o.res_tm sel, P i := by
  obtain ⟨a, b, c⟩ := sel
  intro i hi
  unfold Spec.selectedInputs at hi
  rw [List.mem_append, List.mem_append] at hi
  rcases hi with (hi | hi) | hi
  · cases a <;> simp at hi; rw [hi]; exact h1
  · cases b
    · simp at hi
    · rw [if_pos rfl, List.mem_singleton] at hi; rw [hi]; exact h2
  · cases c <;> simp at hi; rw [hi]; exact h3

theorem solve_con_bvp {la : LinAlg} {p : Params} {convs : List (Conv (FlatIdx p.fto.1 p.fto.2))}
    {o : OutCon p.fto.1 p.fto.2} (hp : p.use_pinv = false) (hn : p.n_top ≠ 0)
    (hz : p.fto.2 = 0 → ∀ c ∈ convs, c.epzi * c.epy = 1)
    (h : solve_1d_conical la p p.wavelength convs = .ok o) :
    (∀ rx ry rz sel, List.Forall₂ (fun i cell => ∃ fs, Spec.Diffraction p convs i.1 i.2 fs ∧
      Spec.Samples (Spec.k0Of p) (fun i => kxVec p p.wavelength i.modNat) (fun i => kyVec p p.wavelength i.divNat) p.period id
        p.thickness fs cell) (Spec.selectedInputs p.psi o.out.res o.out.res_te o.out.res_tm sel)
      (field_dist_1d_conical p o rx ry rz sel)) ∧
    ∀ i ∈ Spec.selectedInputs p.psi o.out.res o.out.res_te o.out.res_tm (true, true, true),
      ∀ r, (∃ fs, Spec.Diffraction p convs i.1 r fs) ↔ Spec.SameAmplitudes r i.2 := by
  obtain ⟨hl, hf, ⟨kzt, kzb, varphi, s0⟩, r, x, h1, hr, hx, rfl⟩ := (solve_con_iff hp).mp h
  obtain ⟨rt, hrt, e1, e2, e3, e4, e5, e6⟩ := transfer_2d_4_rt hx
  have hu := transfer_2d_4_unit hx
  have hky : kyF p p.wavelength = fun _ => kyF p p.wavelength (ctr2 _ _) := by
    funext i
    unfold kyF tileY
    congr 1
    ext
    have h1 := (i.divNat (m := 2 * p.fto.2 + 1) (n := 2 * p.fto.1 + 1)).isLt
    have h2 := ((ctr2 p.fto.1 p.fto.2).divNat (m := 2 * p.fto.2 + 1) (n := 2 * p.fto.1 + 1)).isLt
    omega
  have hs : ∀ c d s r, (c, d) ∈ convs.zip p.thickness →
      stepCon la false (2 * Real.pi / p.wavelength) (kxF p p.wavelength) (kyF p p.wavelength) varphi c d s = .ok r →
      (viewCon (2 * Real.pi / p.wavelength) varphi r.2).Step s r.1 ∧
      Carries (2 * Real.pi / p.wavelength) (kxF p p.wavelength) (kyF p p.wavelength) (mkT varphi) c d
        (viewCon (2 * Real.pi / p.wavelength) varphi r.2)
        (fun T => fieldsOf (ampsCon (2 * Real.pi / p.wavelength) (kxF p p.wavelength) (kyF p p.wavelength) r.2 T)) ∧
      Complete (2 * Real.pi / p.wavelength) (kxF p p.wavelength) (kyF p p.wavelength) (tS varphi) (tU varphi) c d
        (viewCon (2 * Real.pi / p.wavelength) varphi r.2) := by
    intro c d s r hm h
    refine ⟨viewCon_step la _ _ _ _ c d s r h, ?_⟩
    rw [hky] at h ⊢
    exact layer_con (hz hf c (List.of_mem_zip hm).1) h
  have hd : r.2.reverse.map LayerInfoCon.d = p.thickness := by
    refine (run_d (dd := LayerInfoCon.d) ?_ hr).trans (map_snd_zip_th hl)
    intro c d s r h
    unfold stepCon at h
    simp only [Except.bind_ok] at h
    obtain ⟨M, -, y, -, e⟩ := h
    obtain rfl := Except.ok.inj e
    rfl
  have key := fun ψ res hres => bvp_core
    (F := fun l T => fieldsOf (ampsCon (2 * Real.pi / p.wavelength) (kxF p p.wavelength) (kyF p p.wavelength) l T))
    hn h1 hs hr hu (hrt ψ) res hres
  have uniq : ∀ ψ res, res = subResOf r.1 kzt kzb p.theta p.n_top p.n_bot (rt ψ) → ∀ q,
      (∃ fs, Spec.Diffraction p convs ψ q fs) ↔ Spec.SameAmplitudes q res := by
    intro ψ res hres q
    refine ⟨fun ⟨fs, hfs⟩ => (key ψ res hres).2 q fs hfs, fun hq => ⟨_, same_diffraction hq (key ψ res hres).1⟩⟩
  refine ⟨fun rx ry rz sel => ?_, mem_selected (uniq _ _ e1) (uniq _ _ e2) (uniq _ _ e3) _⟩
  have cell : ∀ ψ res, res = subResOf r.1 kzt kzb p.theta p.n_top p.n_bot (rt ψ) → ∀ T, T = (fun i => rt ψ (.inr i)) →
      ∃ fs, Spec.Diffraction p convs ψ res fs ∧ Spec.Samples (Spec.k0Of p) (fun i => kxVec p p.wavelength i.modNat)
        (fun i => kyVec p p.wavelength i.divNat) p.period id p.thickness fs
        (fieldLoopCon (2 * Real.pi / p.wavelength) p.period (kxF p p.wavelength) (kyF p p.wavelength) rx ry rz
          r.2.reverse T) := by
    rintro ψ res hres T rfl
    refine ⟨_, (key ψ res hres).1, ?_⟩
    rw [fieldLoopCon_eq _ _ _ _ varphi]
    exact samples_6 (dd := LayerInfoCon.d) (trace_map_d hd)
  unfold field_dist_1d_conical
  exact forall₂_select (cell _ _ e1 _ e4) (cell _ _ e2 _ e5) (cell _ _ e3 _ e6) sel

theorem solve_2d_bvp {la : LinAlg} {p : Params} {convs : List (Conv (FlatIdx p.fto.1 p.fto.2))}
    {o : Out2D p.fto.1 p.fto.2} (hp : p.use_pinv = false) (hn : p.n_top ≠ 0)
    (h : solve_2d la p p.wavelength convs = .ok o) :
    (∀ rx ry rz sel, List.Forall₂ (fun i cell => ∃ fs, Spec.Diffraction p convs i.1 i.2 fs ∧
      Spec.Samples (Spec.k0Of p) (fun i => kxVec p p.wavelength i.modNat) (fun i => kyVec p p.wavelength i.divNat) p.period id
        p.thickness fs cell) (Spec.selectedInputs p.psi o.out.res o.out.res_te o.out.res_tm sel)
      (field_dist_2d p o rx ry rz sel)) ∧
    ∀ i ∈ Spec.selectedInputs p.psi o.out.res o.out.res_te o.out.res_tm (true, true, true),
      ∀ r, (∃ fs, Spec.Diffraction p convs i.1 r fs) ↔ Spec.SameAmplitudes r i.2 := by
  obtain ⟨hl, ⟨kzt, kzb, varphi, s0⟩, r, x, h1, hr, hx, rfl⟩ := (solve_2d_iff hp).mp h
  obtain ⟨rt, hrt, e1, e2, e3, e4, e5, e6⟩ := transfer_2d_4_rt hx
  have hu := transfer_2d_4_unit hx
  have hs : ∀ c d s r, (c, d) ∈ convs.zip p.thickness →
      step2d la false (2 * Real.pi / p.wavelength) (kxF p p.wavelength) (kyF p p.wavelength) varphi c d s = .ok r →
      (view2d (2 * Real.pi / p.wavelength) varphi r.2).Step s r.1 ∧ _ ∧ _ :=
    fun c d s r hm h => ⟨view2d_step la _ _ _ _ c d s r h, layer_2d h⟩
  have hd : r.2.reverse.map LayerInfo.d = p.thickness := by
    refine (run_d (dd := LayerInfo.d) ?_ hr).trans (map_snd_zip_th hl)
    intro c d s r h
    unfold step2d at h
    simp only [Except.bind_ok] at h
    obtain ⟨M, -, y, -, e⟩ := h
    obtain rfl := Except.ok.inj e
    rfl
  have key := fun ψ res hres => bvp_core
    (F := fun l T => fieldsOf (amps2d (2 * Real.pi / p.wavelength) (kxF p p.wavelength) (kyF p p.wavelength) l T))
    hn h1 hs hr hu (hrt ψ) res hres
  have uniq : ∀ ψ res, res = subResOf r.1 kzt kzb p.theta p.n_top p.n_bot (rt ψ) → ∀ q,
      (∃ fs, Spec.Diffraction p convs ψ q fs) ↔ Spec.SameAmplitudes q res := by
    intro ψ res hres q
    refine ⟨fun ⟨fs, hfs⟩ => (key ψ res hres).2 q fs hfs, fun hq => ⟨_, same_diffraction hq (key ψ res hres).1⟩⟩
  refine ⟨fun rx ry rz sel => ?_, mem_selected (uniq _ _ e1) (uniq _ _ e2) (uniq _ _ e3) _⟩
  have cell : ∀ ψ res, res = subResOf r.1 kzt kzb p.theta p.n_top p.n_bot (rt ψ) → ∀ T, T = (fun i => rt ψ (.inr i)) →
      ∃ fs, Spec.Diffraction p convs ψ res fs ∧ Spec.Samples (Spec.k0Of p) (fun i => kxVec p p.wavelength i.modNat)
        (fun i => kyVec p p.wavelength i.divNat) p.period id p.thickness fs
        (fieldLoop2d (2 * Real.pi / p.wavelength) p.period (kxF p p.wavelength) (kyF p p.wavelength) rx ry rz
          r.2.reverse T) := by
    rintro ψ res hres T rfl
    refine ⟨_, (key ψ res hres).1, ?_⟩
    rw [fieldLoop2d_eq _ _ _ _ varphi]
    exact samples_6 (dd := LayerInfo.d) (trace_map_d hd)
  unfold field_dist_2d
  exact forall₂_select (cell _ _ e1 _ e4) (cell _ _ e2 _ e5) (cell _ _ e3 _ e6) sel

end Meent
