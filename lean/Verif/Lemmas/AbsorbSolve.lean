import Verif.Lemmas.AbsorbModes
import Verif.Spec.Absorb

/-!
# Absorbing problems can be solved (helper lemmas)
-/

open Matrix

namespace Meent

set_option linter.unusedSectionVars false
set_option linter.unusedSimpArgs false
set_option linter.unusedVariables false

theorem star_csqrt_re (z : ℂ) : 0 ≤ (star (csqrt z)).re := by
  rw [Complex.star_def, Complex.conj_re]
  exact csqrt_re_nonneg z

theorem re_div_sq {z : ℂ} {n : ℝ} (hz : 0 ≤ z.re) : 0 ≤ (z / (n : ℂ) ^ 2).re := by
  rw [← Complex.ofReal_pow, Complex.div_ofReal_re]
  exact div_nonneg hz (sq_nonneg n)

section
variable {n : Type} [Fintype n] [DecidableEq n]

theorem flux_diag (k : n → ℂ) (t : n → ℂ) : flux 1 t ((Complex.I • diagonal k) *ᵥ t) = ∑ i, Complex.normSq (t i) * (k i).re := by
  unfold flux beta
  rw [one_mulVec, dotProduct, Complex.im_sum]
  refine Finset.sum_congr rfl fun i _ => ?_
  rw [Pi.star_apply, smul_mulVec, Pi.smul_apply, mulVec_diagonal, smul_eq_mul]
  have : star (t i) * (Complex.I * (k i * t i)) = (Complex.normSq (t i) : ℂ) * (Complex.I * k i) := by
    rw [Complex.star_def, Complex.normSq_eq_conj_mul_self]; ring
  rw [this, Complex.im_ofReal_mul, Complex.I_mul_im]

theorem weak_bottom_1d {k : n → ℂ} (hk : ∀ i, 0 ≤ (k i).re) (T : Matrix n n ℂ) : WeakState 1 ⟨1, Complex.I • diagonal k, T⟩ := by
  refine ⟨fun t => ?_, fun t h _ => by simpa using h⟩
  simp only [one_mulVec, flux_diag]
  exact Finset.sum_nonneg fun i _ => mul_nonneg (Complex.normSq_nonneg _) (hk i)

theorem final_unit_1d {k : n → ℂ} (hk : ∀ i, 0 ≤ (k i).re) {s : TState n} (hs : StrictState 1 s) :
    IsUnit (s.G + (Complex.I • diagonal k) * s.F).det := by
  rw [isUnit_iff_ne_zero]
  intro h0
  obtain ⟨t, ht, e⟩ := Matrix.exists_mulVec_eq_zero_iff.mpr h0
  have hp := hs t ht
  rw [add_mulVec, ← mulVec_mulVec] at e
  have e1 : s.G *ᵥ t = -((Complex.I • diagonal k) *ᵥ (s.F *ᵥ t)) := eq_neg_of_add_eq_zero_left e
  have e2 : flux 1 (s.F *ᵥ t) (s.G *ᵥ t) = -flux 1 (s.F *ᵥ t) ((Complex.I • diagonal k) *ᵥ (s.F *ᵥ t)) := by
    rw [e1]
    simp [flux, beta, mulVec_neg]
  rw [e2, flux_diag] at hp
  have : 0 ≤ ∑ i, Complex.normSq ((s.F *ᵥ t) i) * (k i).re :=
    Finset.sum_nonneg fun i _ => mul_nonneg (Complex.normSq_nonneg _) (hk i)
  linarith

theorem GoodModes.step {J W V : Matrix n n ℂ} {q : n → ℂ} (h : GoodModes J W V q) {la : LinAlg} {k0 d : ℝ} (hk : 0 < k0) (hd : 0 < d)
    {s : TState n} (hs : WeakState J s) : ∃ r, tmmStep la false (phaseX k0 q d) W V s = .ok r ∧ StrictState J r.1 := by
  obtain ⟨s', Ai, B, h1, h2⟩ := strict_step hk hd h.hW h.hV h.hN h.hq hs
  exact ⟨(s', Ai, B), tmmStep_ok.mpr h1, h2⟩

end

section
variable {m : Type} [Fintype m] [DecidableEq m]

theorem weak_bottom_2d {k : m → ℂ} (hk : ∀ i, 0 ≤ (k i).re) (nb : ℝ) (T : Matrix (m ⊕ m) (m ⊕ m) ℂ) :
    WeakState jSP ⟨fromBlocks 1 0 0 (((1 : ℂ) / (nb : ℂ) ^ 2) • (Complex.I • diagonal k)), fromBlocks (Complex.I • diagonal k) 0 0 1, T⟩ := by
  refine ⟨fun t => ?_, fun t h1 h2 => ?_⟩
  · simp only [flux_bot]
    exact Finset.sum_nonneg fun i _ => add_nonneg (mul_nonneg (Complex.normSq_nonneg _) (hk i))
      (mul_nonneg (Complex.normSq_nonneg _) (re_div_sq (hk i)))
  · simp only [fromBlocks_mulVec] at h1 h2
    funext i
    rcases i with i | i
    · have := congrFun h1 (.inl i)
      simpa using this
    · have := congrFun h2 (.inr i)
      simpa using this

theorem final_unit_2d {k : m → ℂ} (hk : ∀ i, 0 ≤ (k i).re) {nt : ℝ} {s : TState (m ⊕ m)} (hs : StrictState jSP s) :
    IsUnit (finalA (nt : ℂ) k s).det := by
  rw [isUnit_iff_ne_zero]
  intro h0
  obtain ⟨v, hv, e⟩ := Matrix.exists_mulVec_eq_zero_iff.mpr h0
  have e' : finalA (nt : ℂ) k s *ᵥ v = finalB (0 : m → ℂ) 0 0 (nt : ℂ) := by
    rw [e]
    funext i
    rcases i with (i | i) | (i | i) <;> simp [finalB]
  obtain ⟨f1, f2, g1, g2⟩ := final_eqs e'
  simp only [Pi.zero_apply, mul_zero, add_zero, sub_zero, zero_sub, zero_add] at f1 f2 g1 g2
  have hfl : flux jSP (s.F *ᵥ fun j => v (.inr j)) (s.G *ᵥ fun j => v (.inr j)) ≤ 0 := by
    rw [flux_jSP_eq, ← Finset.sum_sub_distrib]
    refine Finset.sum_nonpos fun i _ => ?_
    rw [f1, f2, g1, g2]
    have a1 : ∀ z : ℂ, (star z * -(Complex.I * k i * z)).im = -(Complex.normSq z * (k i).re) := by
      intro z
      have : star z * -(Complex.I * k i * z) = (Complex.normSq z : ℂ) * -(Complex.I * k i) := by
        rw [Complex.star_def, Complex.normSq_eq_conj_mul_self]; ring
      rw [this, Complex.im_ofReal_mul, Complex.neg_im, Complex.I_mul_im]; ring
    have a2 : ∀ z : ℂ, (star (-(Complex.I * (k i / (nt : ℂ) ^ 2) * z)) * z).im = Complex.normSq z * (k i / (nt : ℂ) ^ 2).re := by
      intro z
      have : star (-(Complex.I * (k i / (nt : ℂ) ^ 2) * z)) * z = (Complex.normSq z : ℂ) * (Complex.I * star (k i / (nt : ℂ) ^ 2)) := by
        rw [Complex.normSq_eq_conj_mul_self]
        simp only [Complex.star_def, map_neg, map_mul, Complex.conj_I]
        ring
      rw [this, Complex.im_ofReal_mul, Complex.I_mul_im, Complex.star_def, Complex.conj_re]
    rw [a1, a2]
    have b1 := mul_nonneg (Complex.normSq_nonneg (v (.inl (.inl i)))) (hk i)
    have b2 := mul_nonneg (Complex.normSq_nonneg (v (.inl (.inr i)))) (re_div_sq (n := nt) (hk i))
    linarith
  have ht : (fun j => v (.inr j)) = 0 := by
    by_contra hne
    exact absurd (hs _ hne) (not_lt.mpr hfl)
  apply hv
  funext i
  rcases i with (i | i) | i
  · have := f1 i
    rw [ht, mulVec_zero] at this
    exact this.symm
  · have := g2 i
    rw [ht, mulVec_zero] at this
    exact this.symm
  · exact congrFun ht i

end

/-! ### Whole solves -/

theorem te_final {ff : ℕ} {la : LinAlg} {s : TState (Fin ff)} {kt kb : Fin ff → ℂ} {th nt nb : ℂ}
    (hu : IsUnit (s.G + (Complex.I • diagonal kt) * s.F).det) : ∃ x, transfer_1d_4 la 0 s kt kb th nt nb false = .ok x := by
  unfold transfer_1d_4
  simp only [if_true]
  exact ⟨_, Except.bind_ok.mpr ⟨_, meeinv_false_ok.mpr ⟨hu, rfl⟩, rfl⟩⟩

theorem tm_final {ff : ℕ} {la : LinAlg} {s : TState (Fin ff)} {kt kb : Fin ff → ℂ} {th nt nb : ℂ}
    (hu : IsUnit (s.G + (((1 : ℂ) / nt ^ 2) • (Complex.I • diagonal kt)) * s.F).det) :
    ∃ x, transfer_1d_4 la 1 s kt kb th nt nb false = .ok x := by
  unfold transfer_1d_4
  simp only [if_true, one_ne_zero, if_false]
  exact ⟨_, Except.bind_ok.mpr ⟨_, meeinv_false_ok.mpr ⟨hu, rfl⟩, rfl⟩⟩

theorem final_2d_ok {fx fy : ℕ} {la : LinAlg} {s : TState (FlatIdx fx fy ⊕ FlatIdx fx fy)} {kt kb : FlatIdx fx fy → ℂ}
    {psi th nt nb : ℂ} (hu : IsUnit (finalA nt kt s).det) : ∃ x, transfer_2d_4 la s kt kb psi th nt nb false = .ok x := by
  unfold transfer_2d_4
  exact ⟨_, Except.bind_ok.mpr ⟨_, meeinv_false_ok.mpr ⟨hu, rfl⟩, rfl⟩⟩

theorem first_2d_ok {m : Type} [Fintype m] [DecidableEq m] {kx ky v : m → ℂ} {nt nb : ℂ} (hv : varphiAll kx ky = .ok v) :
    transfer_2d_1 kx ky nt nb = .ok (kz2d nt kx ky, kz2d nb kx ky, v,
      { F := fromBlocks 1 0 0 (((1 : ℂ) / nb ^ 2) • (Complex.I • diagonal (kz2d nb kx ky))),
        G := fromBlocks (Complex.I • diagonal (kz2d nb kx ky)) 0 0 1, T := 1 }) := by
  unfold transfer_2d_1
  exact Except.bind_ok.mpr ⟨v, hv, rfl⟩

theorem solve_1d_absorbing {la : LinAlg} {p : Params} {wl nt nb th : ℝ} {convs : List (Conv (Fin (2 * p.fto.1 + 1)))}
    (hp : p.use_pinv = false) (hphi : p.phi = none) (hi : RealIncidence p nt th) (hnb : p.n_bot = (nb : ℂ)) (hpol : p.pol = 0 ∨ p.pol = 1)
    (hwl : 0 < wl) (hd : ∀ d ∈ p.thickness, 0 < d) (hne : p.thickness ≠ []) (hlen : p.thickness.length ≤ convs.length)
    (hh : ∀ c ∈ convs, SideConv Complex.I c)
    (hb : ∀ x ∈ convs.zip p.thickness, IsUnit (la.eig (eigMat1d p.pol (kxVec p wl) x.1)).2.det) :
    ∃ o, solve_1d la p wl convs = .ok o := by
  have hk0 : 0 < 2 * Real.pi / wl := by positivity
  have hzip : convs.zip p.thickness ≠ [] := by
    intro h0
    have := congrArg List.length h0
    rw [List.length_zip, min_eq_right hlen, List.length_nil] at this
    exact hne (List.length_eq_zero_iff.mp this)
  have hstep : ∀ (x : Conv (Fin (2 * p.fto.1 + 1)) × ℝ) s, x ∈ convs.zip p.thickness → WeakState 1 s →
      ∃ r, step1d la p (2 * Real.pi / wl) (kxVec p wl) x.1 x.2 s = .ok r ∧ StrictState 1 r.1 := by
    intro x s hx hs
    obtain ⟨hc, ht⟩ := List.of_mem_zip (a := x.1) (b := x.2) hx
    obtain ⟨m, hm, hg⟩ := goodModes_1d hpol (hi.kx_real hphi wl) (hh _ hc) (hb x hx)
    obtain ⟨r, hr, hst⟩ := hg.step (la := la) hk0 (hd _ ht) hs
    refine ⟨(r.1, { epzi := x.1.epzi, modes := m, d := x.2, A_i := r.2.1, B := r.2.2 }), ?_, hst⟩
    unfold step1d transfer_1d_3
    simp only [Except.bind_ok, hp]
    exact ⟨m, hm, r, hr, rfl⟩
  have hkz : ∀ (nn : ℂ) i, 0 ≤ (kz1d nn (kxVec p wl) i).re := fun nn i => star_csqrt_re _
  have hkz2 : ∀ (nn : ℝ) i, 0 ≤ (kz1d (nn : ℂ) (kxVec p wl) i / (nn : ℂ) ^ 2).re := fun nn i => re_div_sq (hkz _ i)
  rcases hpol with hpol | hpol
  · obtain ⟨r, hr, -, hst⟩ := runLayers_strict (J := 1) (fun x => x ∈ convs.zip p.thickness) hstep _
      (⟨1, Complex.I • diagonal (kz1d p.n_bot (kxVec p wl)), 1⟩, []) (fun x hx => hx) (weak_bottom_1d (hkz _) _)
    have hu := final_unit_1d (hkz p.n_top) (hst hzip)
    obtain ⟨x, hx⟩ := te_final (la := la) (kb := kz1d p.n_bot (kxVec p wl)) (th := p.theta) (nt := p.n_top) (nb := p.n_bot) hu
    exact ⟨⟨x.1, x.2, r.2⟩, (solve_1d_iff hp).mpr ⟨hlen, (kz1d p.n_top (kxVec p wl), kz1d p.n_bot (kxVec p wl), _), r, x,
      by rw [hpol, transfer_1d_1, if_pos rfl], hr, by rw [hpol]; exact hx, rfl⟩⟩
  · obtain ⟨r, hr, -, hst⟩ := runLayers_strict (J := 1) (fun x => x ∈ convs.zip p.thickness) hstep _
      (⟨1, Complex.I • diagonal (fun i => kz1d (nb : ℂ) (kxVec p wl) i / (nb : ℂ) ^ 2), 1⟩, []) (fun x hx => hx)
      (weak_bottom_1d (hkz2 nb) _)
    have hu := final_unit_1d (hkz2 nt) (hst hzip)
    have e : (Complex.I • diagonal fun i => kz1d (nt : ℂ) (kxVec p wl) i / (nt : ℂ) ^ 2)
        = ((1 : ℂ) / p.n_top ^ 2) • (Complex.I • diagonal (kz1d p.n_top (kxVec p wl))) := by
      rw [hi.hn]
      ext i j
      by_cases hij : i = j
      · subst hij; simp; ring
      · simp [hij]
    rw [e] at hu
    obtain ⟨x, hx⟩ := tm_final (la := la) (kb := kz1d p.n_bot (kxVec p wl)) (th := p.theta) (nt := p.n_top) (nb := p.n_bot) hu
    exact ⟨⟨x.1, x.2, r.2⟩, (solve_1d_iff hp).mpr ⟨hlen, (kz1d p.n_top (kxVec p wl), kz1d p.n_bot (kxVec p wl), _), r, x,
      by rw [hpol, transfer_1d_1, if_neg one_ne_zero, if_pos rfl, hnb], hr, by rw [hpol]; exact hx, rfl⟩⟩

theorem solve_2d_absorbing {la : LinAlg} {p : Params} {wl nt nb th ph : ℝ} {convs : List (Conv (FlatIdx p.fto.1 p.fto.2))}
    (hp : p.use_pinv = false) (hphi : p.phi.getD 0 = (ph : ℂ)) (hi : RealIncidence p nt th) (hnb : p.n_bot = (nb : ℂ))
    (hwl : 0 < wl) (hd : ∀ d ∈ p.thickness, 0 < d) (hne : p.thickness ≠ []) (hlen : p.thickness.length ≤ convs.length)
    (hv : ∃ v, varphiAll (kxF p wl) (kyF p wl) = .ok v)
    (hh : ∀ c ∈ convs, SideConv Complex.I c)
    (hb : ∀ x ∈ convs.zip p.thickness, IsUnit (la.eig (omega2LR (kxF p wl) (kyF p wl) x.1)).2.det) :
    ∃ o, solve_2d la p wl convs = .ok o := by
  obtain ⟨v, hv⟩ := hv
  have hk0 : 0 < 2 * Real.pi / wl := by positivity
  have hzip : convs.zip p.thickness ≠ [] := by
    intro h0
    have := congrArg List.length h0
    rw [List.length_zip, min_eq_right hlen, List.length_nil] at this
    exact hne (List.length_eq_zero_iff.mp this)
  have hreal := varphiAll_real (hi.kxF_real hphi wl) (hi.kyF_real hphi wl) hv
  have hstep : ∀ (x : Conv (FlatIdx p.fto.1 p.fto.2) × ℝ) s, x ∈ convs.zip p.thickness → WeakState jSP s →
      ∃ r, step2d la false (2 * Real.pi / wl) (kxF p wl) (kyF p wl) v x.1 x.2 s = .ok r ∧ StrictState jSP r.1 := by
    intro x s hx hs
    obtain ⟨hc, ht⟩ := List.of_mem_zip (a := x.1) (b := x.2) hx
    obtain ⟨M, hM, hg⟩ := goodModes_2d (hi.kxF_star hphi wl) (hi.kyF_star hphi wl) (hh _ hc) (hb x hx)
    obtain ⟨r, hr, hst⟩ := (hg.rot hreal).step (la := la) hk0 (hd _ ht) hs
    refine ⟨(r.1, { epzi := x.1.epzi, modes := M, d := x.2, A_i := r.2.1, B := r.2.2 }), ?_, hst⟩
    unfold step2d
    simp only [Except.bind_ok, transfer_2d_3_eq, bigW2d_eq, bigV2d_eq]
    exact ⟨M, hM, r, hr, rfl⟩
  have hkz : ∀ (nn : ℂ) i, 0 ≤ (kz2d nn (kxF p wl) (kyF p wl) i).re := fun nn i => star_csqrt_re _
  have hw := weak_bottom_2d (hkz p.n_bot) nb 1
  rw [← hnb] at hw
  obtain ⟨r, hr, -, hst⟩ := runLayers_strict (J := jSP) (fun x => x ∈ convs.zip p.thickness) hstep _ (_, []) (fun x hx => hx) hw
  have hu := final_unit_2d (nt := nt) (hkz p.n_top) (hst hzip)
  rw [← hi.hn] at hu
  obtain ⟨x, hx⟩ := final_2d_ok (la := la) (kb := kz2d p.n_bot (kxF p wl) (kyF p wl)) (psi := p.psi) (th := p.theta) (nb := p.n_bot) hu
  exact ⟨⟨x, r.2⟩, (solve_2d_iff hp).mpr ⟨hlen, (kz2d p.n_top (kxF p wl) (kyF p wl), kz2d p.n_bot (kxF p wl) (kyF p wl), v, _), r, x,
    first_2d_ok hv, hr, hx, rfl⟩⟩

theorem solve_con_absorbing {la : LinAlg} {p : Params} {wl nt nb th ph : ℝ} {convs : List (Conv (FlatIdx p.fto.1 p.fto.2))}
    (hp : p.use_pinv = false) (hphi : p.phi.getD 0 = (ph : ℂ)) (hi : RealIncidence p nt th) (hnb : p.n_bot = (nb : ℂ))
    (hwl : 0 < wl) (hd : ∀ d ∈ p.thickness, 0 < d) (hne : p.thickness ≠ []) (hlen : p.thickness.length ≤ convs.length)
    (hv : ∃ v, varphiAll (kxF p wl) (kyF p wl) = .ok v) (hf : p.fto.2 = 0)
    (hh : ∀ c ∈ convs, SideConv Complex.I c) (hz1 : ∀ c ∈ convs, c.epzi * c.epy = 1)
    (hb1 : ∀ x ∈ convs.zip p.thickness,
      IsUnit (la.eig (diagonal (fun i => kyF p wl i ^ 2) + (diagonal (fun i => kxF p wl i ^ 2) - x.1.epy))).2.det)
    (hb2 : ∀ x ∈ convs.zip p.thickness,
      IsUnit (la.eig (diagonal (fun i => kyF p wl i ^ 2) + (diagonal (kxF p wl) * x.1.epzi * diagonal (kxF p wl) - 1) * x.1.epx)).2.det) :
    ∃ o, solve_1d_conical la p wl convs = .ok o := by
  obtain ⟨v, hv⟩ := hv
  have hk0 : 0 < 2 * Real.pi / wl := by positivity
  have hzip : convs.zip p.thickness ≠ [] := by
    intro h0
    have := congrArg List.length h0
    rw [List.length_zip, min_eq_right hlen, List.length_nil] at this
    exact hne (List.length_eq_zero_iff.mp this)
  have hreal := varphiAll_real (hi.kxF_real hphi wl) (hi.kyF_real hphi wl) hv
  obtain ⟨k, hk⟩ := kyF_const hf wl
  have hks := hi.kyF_star hphi wl
  have hstep : ∀ (x : Conv (FlatIdx p.fto.1 p.fto.2) × ℝ) s, x ∈ convs.zip p.thickness → WeakState jSP s →
      ∃ r, stepCon la false (2 * Real.pi / wl) (kxF p wl) (kyF p wl) v x.1 x.2 s = .ok r ∧ StrictState jSP r.1 := by
    intro x s hx hs
    obtain ⟨hc, ht⟩ := List.of_mem_zip (a := x.1) (b := x.2) hx
    have b1 := hb1 x hx
    have b2 := hb2 x hx
    rw [hk] at b1 b2 hks
    obtain ⟨M, hM, hg⟩ := goodModes_con (hi.kxF_star hphi wl) (hks (ctr2 _ _)) (hh _ hc) (hz1 _ hc) b1 b2
    obtain ⟨r, hr, hst⟩ := (hg.rot hreal).step (la := la) hk0 (hd _ ht) hs
    refine ⟨(r.1, { epzi := x.1.epzi, modes := M, d := x.2, A_i := r.2.1, B := r.2.2 }), ?_, hst⟩
    unfold stepCon
    simp only [Except.bind_ok, transfer_1d_conical_3_eq, conW_eq, conV_eq]
    exact ⟨M, by rw [hk]; exact hM, r, hr, rfl⟩
  have hkz : ∀ (nn : ℂ) i, 0 ≤ (kz2d nn (kxF p wl) (kyF p wl) i).re := fun nn i => star_csqrt_re _
  have hw := weak_bottom_2d (hkz p.n_bot) nb 1
  rw [← hnb] at hw
  obtain ⟨r, hr, -, hst⟩ := runLayers_strict (J := jSP) (fun x => x ∈ convs.zip p.thickness) hstep _ (_, []) (fun x hx => hx) hw
  have hu := final_unit_2d (nt := nt) (hkz p.n_top) (hst hzip)
  rw [← hi.hn] at hu
  obtain ⟨x, hx⟩ := final_2d_ok (la := la) (kb := kz2d p.n_bot (kxF p wl) (kyF p wl)) (psi := p.psi) (th := p.theta) (nb := p.n_bot) hu
  exact ⟨⟨x, r.2⟩, (solve_con_iff hp).mpr ⟨hlen, hf, (kz2d p.n_top (kxF p wl) (kyF p wl), kz2d p.n_bot (kxF p wl) (kyF p wl), v, _), r, x,
    first_2d_ok hv, hr, hx, rfl⟩⟩

end Meent
