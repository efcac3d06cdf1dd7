import Verif.Lemmas.PhiSuccess
import Verif.Lemmas.ConTo2D
import Verif.Lemmas.Nan
import Verif.Spec.Eigen

/-!
# The conical solver at azimuth zero and the 1D solver succeed together (helper lemmas)
-/

open Matrix

namespace Meent

set_option linter.unusedSectionVars false
set_option linter.unusedSimpArgs false

section
variable {n m : Type} [Fintype n] [DecidableEq n] [Fintype m] [DecidableEq m]

theorem SEquiv.sub (e : n ≃ m) {s t : TState m} (h : SEquiv s t) : SEquiv (s.sub e) (t.sub e) := by
  obtain ⟨M, hM, rfl⟩ := h
  refine ⟨M.submatrix e e, by rw [det_sub]; exact hM, ?_⟩
  simp only [TState.sub, TState.rmul, mul_sub']

theorem TState.sub_symm (e : n ≃ m) (s : TState n) : (s.sub e.symm).sub e = s := by
  simp [TState.sub, submatrix_submatrix]

theorem TState.symm_sub (e : n ≃ m) (s : TState m) : (s.sub e).sub e.symm = s := by
  simp [TState.sub, submatrix_submatrix]

theorem det_iff_ker {A : Matrix n n ℂ} : IsUnit A.det ↔ ∀ v, A *ᵥ v = 0 → v = 0 := by
  constructor
  · intro h v hv
    have : A⁻¹ *ᵥ (A *ᵥ v) = v := by rw [mulVec_mulVec, nonsing_inv_mul _ h, one_mulVec]
    rw [← this, hv, mulVec_zero]
  · intro h
    rw [isUnit_iff_ne_zero]
    intro h0
    obtain ⟨v, hv, e⟩ := exists_mulVec_eq_zero_iff.mpr h0
    exact hv (h v e)

/-- The last linear system falls apart into that of the TE solver and that of the TM solver. -/
theorem finalA_block {nt : ℂ} {kzt : m → ℂ} {a b : TState m} :
    IsUnit (finalA nt kzt (blockS a b)).det ↔
      IsUnit (a.G + (Complex.I • diagonal kzt) * a.F).det ∧
      IsUnit (b.F + (((1 : ℂ) / nt ^ 2) • (Complex.I • diagonal kzt)) * b.G).det := by
  have hB : finalB (fun _ : m => (0 : ℂ)) 0 0 nt = 0 := by
    funext k
    rcases k with (i | i) | (i | i) <;> simp [finalB]
  have hz : ∀ A : Matrix m m ℂ, (A *ᵥ fun _ => (0 : ℂ)) = 0 := fun A => mulVec_zero A
  have k1 : ∀ (A B : Matrix m m ℂ) (v : m → ℂ) i, ((A + (Complex.I • diagonal kzt) * B) *ᵥ v) i
      = (A *ᵥ v) i + Complex.I * kzt i * (B *ᵥ v) i := by
    intro A B v i
    rw [add_mulVec, ← mulVec_mulVec, Pi.add_apply, smul_mulVec, Pi.smul_apply, mulVec_diagonal, smul_eq_mul]
    ring
  have k2 : ∀ (A B : Matrix m m ℂ) (v : m → ℂ) i, ((A + (((1 : ℂ) / nt ^ 2) • (Complex.I • diagonal kzt)) * B) *ᵥ v) i
      = (A *ᵥ v) i + Complex.I * (kzt i / nt ^ 2) * (B *ᵥ v) i := by
    intro A B v i
    rw [add_mulVec, ← mulVec_mulVec, Pi.add_apply, smul_mulVec, Pi.smul_apply, smul_mulVec, Pi.smul_apply, mulVec_diagonal, smul_eq_mul,
      smul_eq_mul]
    ring
  rw [det_iff_ker, det_iff_ker, det_iff_ker]
  constructor
  · intro h
    constructor
    · intro v hv
      let rt : (m ⊕ m) ⊕ (m ⊕ m) → ℂ := Sum.elim (Sum.elim (a.F *ᵥ v) (fun _ => 0)) (Sum.elim v (fun _ => 0))
      have hr : (fun j => rt (.inr j)) = Sum.elim v (fun _ => 0) := rfl
      have h0 : rt = 0 := by
        refine h rt ?_
        rw [← hB]
        refine final_of_eqs ?_ ?_ ?_ ?_ <;> intro i <;> rw [hr] <;>
          simp only [blockS, blockS_mulVec, Sum.elim_inl, Sum.elim_inr, hz, rt, Pi.zero_apply, mul_zero, add_zero, sub_zero, neg_zero]
        have := congrFun hv i
        rw [k1, Pi.zero_apply] at this
        linear_combination this
      funext i
      exact congrFun h0 (.inr (.inl i))
    · intro v hv
      let rt : (m ⊕ m) ⊕ (m ⊕ m) → ℂ := Sum.elim (Sum.elim (fun _ => 0) (b.G *ᵥ v)) (Sum.elim (fun _ => 0) v)
      have hr : (fun j => rt (.inr j)) = Sum.elim (fun _ => 0) v := rfl
      have h0 : rt = 0 := by
        refine h rt ?_
        rw [← hB]
        refine final_of_eqs ?_ ?_ ?_ ?_ <;> intro i <;> rw [hr] <;>
          simp only [blockS, blockS_mulVec, Sum.elim_inl, Sum.elim_inr, hz, rt, Pi.zero_apply, mul_zero, add_zero, sub_zero, neg_zero]
        have := congrFun hv i
        rw [k2, Pi.zero_apply] at this
        linear_combination this
      funext i
      exact congrFun h0 (.inr (.inr i))
  · rintro ⟨h1, h2⟩ rt hrt
    rw [← hB] at hrt
    obtain ⟨e1, e2, e3, e4⟩ := final_eqs hrt
    have hr : (fun j => rt (.inr j)) = Sum.elim (fun i => rt (.inr (.inl i))) (fun i => rt (.inr (.inr i))) := by
      funext j
      rcases j with j | j <;> rfl
    rw [hr] at e1 e2 e3 e4
    simp only [blockS, blockS_mulVec, Sum.elim_inl, Sum.elim_inr, mul_zero, add_zero, sub_zero] at e1 e2 e3 e4
    have t1 : (fun i => rt (.inr (.inl i))) = 0 := h1 _ (by
      funext i
      rw [k1, e3, e1, Pi.zero_apply]
      ring)
    have t2 : (fun i => rt (.inr (.inr i))) = 0 := h2 _ (by
      funext i
      rw [k2, e2, e4, Pi.zero_apply]
      ring)
    rw [t1, mulVec_zero] at e1
    rw [t2, mulVec_zero] at e4
    funext k
    rcases k with (i | i) | (i | i)
    · exact (e1 i).symm
    · exact (e4 i).symm
    · exact congrFun t1 i
    · exact congrFun t2 i

end

theorem transfer_te_succeeds {f : ℕ} {la : LinAlg} {s : TState (Fin f)} {kzt kzb : Fin f → ℂ} {theta nt nb : ℂ} :
    (∃ x, transfer_1d_4 la 0 s kzt kzb theta nt nb false = .ok x) ↔ IsUnit (s.G + (Complex.I • diagonal kzt) * s.F).det := by
  unfold transfer_1d_4
  simp only [if_true, Except.bind_ok, meeinv_false_ok]
  constructor
  · rintro ⟨x, M, ⟨h, -⟩, -⟩
    exact h
  · intro h
    exact ⟨_, _, ⟨h, rfl⟩, _, rfl, rfl⟩

theorem transfer_tm_succeeds {f : ℕ} {la : LinAlg} {s : TState (Fin f)} {kzt kzb : Fin f → ℂ} {theta nt nb : ℂ} :
    (∃ x, transfer_1d_4 la 1 s kzt kzb theta nt nb false = .ok x) ↔
      IsUnit (s.G + (((1 : ℂ) / nt ^ 2) • (Complex.I • diagonal kzt)) * s.F).det := by
  unfold transfer_1d_4
  simp only [one_ne_zero, if_false, if_true, Except.bind_ok, meeinv_false_ok]
  constructor
  · rintro ⟨x, M, ⟨h, -⟩, -⟩
    exact h
  · intro h
    exact ⟨_, _, ⟨h, rfl⟩, _, rfl, rfl⟩

theorem transfer_2d_4_succeeds {fx fy : ℕ} {la : LinAlg} {s : TState (FlatIdx fx fy ⊕ FlatIdx fx fy)} {kzt kzb : FlatIdx fx fy → ℂ}
    {psi theta nt nb : ℂ} :
    (∃ o, transfer_2d_4 la s kzt kzb psi theta nt nb false = .ok o) ↔ IsUnit (finalA nt kzt s).det := by
  unfold transfer_2d_4
  simp only [Except.bind_ok, meeinv_false_ok]
  constructor
  · rintro ⟨x, N, ⟨h, -⟩, -⟩
    exact h
  · intro h
    exact ⟨_, _, ⟨h, rfl⟩, rfl⟩

/-- The last step of the conical solver can be taken exactly when both last steps of the 1D solver can. -/
theorem final_succeeds {fx fy : ℕ} (hf : fy = 0) {la la' : LinAlg} {a b : TState (FlatIdx fx fy)}
    {kzt kzb : FlatIdx fx fy → ℂ} {kzt' kzb' : Fin (2 * fx + 1) → ℂ} {theta nt nb psi : ℂ}
    (hkt : ∀ i, kzt (rowIdx i) = kzt' i) :
    (∃ o, transfer_2d_4 la (blockS a b) kzt kzb psi theta nt nb false = .ok o) ↔
      (∃ x, transfer_1d_4 la' 0 (a.sub (rowEquiv hf)) kzt' kzb' theta nt nb false = .ok x) ∧
      (∃ x, transfer_1d_4 la' 1 (b.swap.sub (rowEquiv hf)) kzt' kzb' theta nt nb false = .ok x) := by
  rw [transfer_2d_4_succeeds, transfer_te_succeeds, transfer_tm_succeeds, finalA_block]
  have hd : (diagonal kzt).submatrix (rowEquiv hf) (rowEquiv hf) = diagonal kzt' := by
    rw [diagonal_sub]
    congr 1
    funext i
    exact hkt i
  have e1 : (a.sub (rowEquiv hf)).G + (Complex.I • diagonal kzt') * (a.sub (rowEquiv hf)).F
      = (a.G + (Complex.I • diagonal kzt) * a.F).submatrix (rowEquiv hf) (rowEquiv hf) := by
    have : (a.G + (Complex.I • diagonal kzt) * a.F).submatrix (rowEquiv hf) (rowEquiv hf)
        = a.G.submatrix (rowEquiv hf) (rowEquiv hf) + ((Complex.I • diagonal kzt) * a.F).submatrix (rowEquiv hf) (rowEquiv hf) := rfl
    rw [this, mul_sub', ← hd]
    rfl
  have e2 : (b.swap.sub (rowEquiv hf)).G + (((1 : ℂ) / nt ^ 2) • (Complex.I • diagonal kzt')) * (b.swap.sub (rowEquiv hf)).F
      = (b.F + (((1 : ℂ) / nt ^ 2) • (Complex.I • diagonal kzt)) * b.G).submatrix (rowEquiv hf) (rowEquiv hf) := by
    have : (b.F + (((1 : ℂ) / nt ^ 2) • (Complex.I • diagonal kzt)) * b.G).submatrix (rowEquiv hf) (rowEquiv hf)
        = b.F.submatrix (rowEquiv hf) (rowEquiv hf)
          + ((((1 : ℂ) / nt ^ 2) • (Complex.I • diagonal kzt)) * b.G).submatrix (rowEquiv hf) (rowEquiv hf) := rfl
    rw [this, mul_sub', ← hd]
    rfl
  rw [e1, e2, det_sub, det_sub]

theorem phi_step_down {la la' : LinAlg} {p : Params} (hf : p.fto.2 = 0) (hp : p.use_pinv = false)
    (hpol : p.pol = 0 ∨ p.pol = 1) {k0 : ℝ} {kx : Fin (2 * p.fto.1 + 1) → ℂ} (hb : ∀ A : Matrix (Fin (2 * p.fto.1 + 1)) (Fin (2 * p.fto.1 + 1)) ℂ, BasisAt la' A)
    {c : Conv (FlatIdx p.fto.1 p.fto.2)} {d : ℝ} {s t r} (hP : PhiRel hf p.pol s t)
    (h : stepCon la false k0 (tileX kx) (fun _ => 0) (fun _ => 0) c d s = .ok r) :
    ∃ r', step1d la' p k0 kx c.row d t = .ok r' ∧ PhiRel hf p.pol r.1 r'.1 := by
  obtain ⟨a, b, rfl, he⟩ := hP
  obtain ⟨a', b', e, ha, hb'⟩ := stepCon_mode h
  suffices hs : ∃ r', step1d la' p k0 kx c.row d t = .ok r' ∧
      SEquiv ((if p.pol = 0 then a' else b'.swap).sub (rowEquiv hf)) r'.1 by
    obtain ⟨r', h1, h2⟩ := hs
    exact ⟨r', h1, a', b', e, h2⟩
  refine step1d_of_mode hp hpol (hb _) ?_ he
  rcases hpol with h0 | h0
  · have h2 := ha.sub (rowEquiv hf)
    rw [eigMat_row, submatrix_one_equiv] at h2
    rw [h0, if_pos rfl, if_pos rfl, if_pos rfl]
    exact h2
  · have h2 := hb'.sub (rowEquiv hf)
    rw [eigMat_row, ← inv_sub] at h2
    rw [h0, if_neg one_ne_zero, if_neg one_ne_zero, if_neg one_ne_zero]
    exact h2

theorem phi_step_up {la la' : LinAlg} {p p' : Params} {fx fy : ℕ} (hf : fy = 0) (hp : p.use_pinv = false) (hp' : p'.use_pinv = false)
    (h0 : p.pol = 0) (h1 : p'.pol = 1) {k0 : ℝ} {kx : Fin (2 * fx + 1) → ℂ}
    (hb : ∀ A : Matrix (FlatIdx fx fy) (FlatIdx fx fy) ℂ, BasisAt la A)
    {c : Conv (FlatIdx fx fy)} {d : ℝ} {s t t' r r'}
    (hP : ∃ a b, s = blockS a b ∧ SEquiv t (a.sub (rowEquiv hf)) ∧ SEquiv t' (b.swap.sub (rowEquiv hf)))
    (h : step1d la' p k0 kx c.row d t = .ok r) (h' : step1d la' p' k0 kx c.row d t' = .ok r') :
    ∃ q, stepCon la false k0 (tileX kx) (fun _ => 0) (fun _ => 0) c d s = .ok q ∧
      ∃ a b, q.1 = blockS a b ∧ SEquiv r.1 (a.sub (rowEquiv hf)) ∧ SEquiv r'.1 (b.swap.sub (rowEquiv hf)) := by
  obtain ⟨a, b, rfl, e1, e2⟩ := hP
  have m1 := (step1d_mode hp h).sub (rowEquiv hf).symm
  have m2 := (step1d_mode hp' h').sub (rowEquiv hf).symm
  rw [h0, if_pos rfl, ← eigMat_row hf, submatrix_submatrix, submatrix_one_equiv] at m1
  rw [h1, if_neg one_ne_zero, ← eigMat_row hf, submatrix_submatrix, ← inv_sub] at m2
  have i1 : (rowEquiv hf ∘ (rowEquiv (fx := fx) hf).symm : FlatIdx fx fy → FlatIdx fx fy) = id := by
    funext i
    exact (rowEquiv hf).apply_symm_apply i
  have ex : c.row.epx.submatrix (rowEquiv hf).symm (rowEquiv hf).symm = c.epx := by
    have : c.row.epx = c.epx.submatrix (rowEquiv hf) (rowEquiv hf) := rfl
    rw [this, submatrix_submatrix, i1, submatrix_id_id]
  rw [i1, submatrix_id_id] at m1 m2
  rw [ex] at m2
  have q1 := e1.sub (rowEquiv hf).symm
  have q2 := e2.sub (rowEquiv hf).symm
  rw [TState.symm_sub] at q1 q2
  obtain ⟨q, a', b', hq, e, r1, r2⟩ := stepCon_of_modes (hb _) (hb _) m1 m2 q1 q2
  refine ⟨q, hq, a', b', e, ?_, ?_⟩
  · have := r1.sub (rowEquiv hf)
    rwa [TState.sub_symm] at this
  · have := r2.sub (rowEquiv hf)
    rwa [TState.sub_symm] at this

/-- Runs over a list and over its image. -/
theorem run_down {S S' C C' L L' : Type} {step : C → ℝ → S → Res (S × L)} {step' : C' → ℝ → S' → Res (S' × L')} (g : C → C')
    (P : S → S' → Prop) (h : ∀ c d s s' r, step c d s = .ok r → P s s' → ∃ r', step' (g c) d s' = .ok r' ∧ P r.1 r'.1)
    (xs : List (C × ℝ)) :
    ∀ {s : S} {s' : S'} {r : S × List L}, P s s' → runLayers step xs (s, []) = .ok r →
      ∃ r', runLayers step' (xs.map fun x => (g x.1, x.2)) (s', []) = .ok r' ∧ P r.1 r'.1 := by
  induction xs with
  | nil =>
    intro s s' r he hr
    simp only [runLayers, Except.ok.injEq] at hr
    subst hr
    exact ⟨_, rfl, he⟩
  | cons x xs ih =>
    intro s s' r he hr
    obtain ⟨a, ha, b, hb, rfl⟩ := runLayers_cons.mp hr
    obtain ⟨a', ha', hea⟩ := ih he ha
    obtain ⟨b', hb', heb⟩ := h _ _ _ _ _ hb hea
    exact ⟨_, runLayers_cons.mpr ⟨a', ha', b', hb', rfl⟩, heb⟩

theorem run_up {S S' C C' L L' : Type} {step : C → ℝ → S → Res (S × L)} {st0 st1 : C' → ℝ → S' → Res (S' × L')} (g : C → C')
    (P : S → S' → S' → Prop)
    (h : ∀ c d s t t' r r', st0 (g c) d t = .ok r → st1 (g c) d t' = .ok r' → P s t t' → ∃ q, step c d s = .ok q ∧ P q.1 r.1 r'.1)
    (xs : List (C × ℝ)) :
    ∀ {s : S} {t t' : S'} {r r' : S' × List L'}, P s t t' → runLayers st0 (xs.map fun x => (g x.1, x.2)) (t, []) = .ok r →
      runLayers st1 (xs.map fun x => (g x.1, x.2)) (t', []) = .ok r' →
      ∃ q, runLayers step xs (s, []) = .ok q ∧ P q.1 r.1 r'.1 := by
  induction xs with
  | nil =>
    intro s t t' r r' he hr hr'
    simp only [List.map_nil, runLayers, Except.ok.injEq] at hr hr'
    subst hr hr'
    exact ⟨_, rfl, he⟩
  | cons x xs ih =>
    intro s t t' r r' he hr hr'
    rw [List.map_cons] at hr hr'
    obtain ⟨a, ha, b, hb, rfl⟩ := runLayers_cons.mp hr
    obtain ⟨a', ha', b', hb', rfl⟩ := runLayers_cons.mp hr'
    obtain ⟨q, hq, hP⟩ := ih he ha ha'
    obtain ⟨q', hq', hP'⟩ := h _ _ _ _ _ _ _ hb hb' hP
    exact ⟨_, runLayers_cons.mpr ⟨q, hq, q', hq', rfl⟩, hP'⟩

/-- The states behind the last layer. -/
theorem phi_init {p : Params} (hf : p.fto.2 = 0) (wl : ℝ) {v : FlatIdx p.fto.1 p.fto.2 → ℂ} {kx : Fin (2 * p.fto.1 + 1) → ℂ} {nt nb : ℂ} {init}
    (h : transfer_2d_1 (tileX kx : FlatIdx p.fto.1 p.fto.2 → ℂ) (fun _ => 0) nt nb = .ok init) :
    init.2.2.1 = (fun _ => 0) ∧ (∀ i, init.1 (rowIdx i) = kz1d nt kx i) ∧ (∀ i, init.2.1 (rowIdx i) = kz1d nb kx i) ∧
    ∃ a b, init.2.2.2 = blockS a b ∧
      a.sub (rowEquiv hf) = ⟨1, Complex.I • diagonal (kz1d nb kx), 1⟩ ∧
      b.swap.sub (rowEquiv hf) = ⟨1, Complex.I • diagonal (fun i => kz1d nb kx i / nb ^ 2), 1⟩ := by
  unfold transfer_2d_1 at h
  simp only [Except.bind_ok, Except.ok.injEq] at h
  obtain ⟨v, hv, rfl⟩ := h
  obtain rfl := varphi_zero hv
  have hkz : ∀ nn i, kz2d nn (tileX kx : FlatIdx p.fto.1 p.fto.2 → ℂ) (fun _ => 0) (rowIdx i) = kz1d nn kx i := by
    intro nn i
    simp only [kz2d, kz1d, tileX_row]
    congr 2
    ring
  have hd : (diagonal (kz2d nb (tileX kx : FlatIdx p.fto.1 p.fto.2 → ℂ) (fun _ => 0))).submatrix
      (rowEquiv hf) (rowEquiv hf) = diagonal (kz1d nb kx) := by
    rw [diagonal_sub]
    congr 1
    funext i
    exact hkz _ i
  refine ⟨rfl, fun i => hkz _ i, fun i => hkz _ i, ⟨1, Complex.I • diagonal (kz2d nb (tileX kx) (fun _ => 0)), 1⟩,
    ⟨((1 : ℂ) / nb ^ 2) • (Complex.I • diagonal (kz2d nb (tileX kx) (fun _ => 0))), 1, 1⟩,
    by simp only [blockS, fromBlocks_one], ?_, ?_⟩
  · simp only [TState.sub, submatrix_one_equiv, ← hd]
    rfl
  · simp only [TState.sub, TState.swap, submatrix_one_equiv]
    congr 1
    have e1 : ((((1 : ℂ) / nb ^ 2) • (Complex.I • diagonal (kz2d nb (tileX kx
        : FlatIdx p.fto.1 p.fto.2 → ℂ) (fun _ => 0)))).submatrix (rowEquiv hf) (rowEquiv hf))
        = ((1 : ℂ) / nb ^ 2) • (Complex.I • diagonal (kz1d nb kx)) := by
      rw [← hd]; rfl
    refine e1.trans ?_
    ext i j
    simp only [Matrix.smul_apply, diagonal_apply, smul_eq_mul]
    split
    · ring
    · ring

/-- Same illumination, the other polarization. -/
abbrev Params.withPol (p : Params) (pol : ℝ) : Params := { p with pol := pol }

theorem phi_zero_down {la la' : LinAlg} {p : Params} {wl : ℝ} (hf : p.fto.2 = 0) (hp : p.use_pinv = false)
    (hphi : p.phi = none) {pol : ℝ} (hpol : pol = 0 ∨ pol = 1) (hb : Spec.ReturnsBasis la')
    {convs : List (Conv (FlatIdx p.fto.1 p.fto.2))} {o : OutCon p.fto.1 p.fto.2}
    (h : solve_1d_conical la (p.withPhi (some 0)) wl convs = .ok o) :
    (∀ i, kxVec p wl i ≠ 0) ∧ ∃ o', solve_1d la' (p.withPol pol) wl (convs.map Conv.row) = .ok o' := by
  obtain ⟨hl, -, init, r, x, h1, h2, h3, -⟩ := (solve_con_iff (p := p.withPhi (some 0)) hp).mp h
  have hkx : kxF (p.withPhi (some 0)) wl = (tileX (kxVec p wl) : FlatIdx p.fto.1 p.fto.2 → ℂ) := by
    show tileX (kxVec (p.withPhi (some 0)) wl) = _
    rw [kxVec_zero hphi]
  rw [hkx, kyF_zero hf wl] at h1 h2
  constructor
  · intro i hi
    have := (transfer_2d_1_nan (tileX (kxVec p wl) : FlatIdx p.fto.1 p.fto.2 → ℂ) (fun _ => 0) p.n_top p.n_bot).mpr
      ⟨rowIdx i, by rw [tileX_row]; exact hi, rfl⟩
    rw [h1] at this
    cases this
  obtain ⟨ev, ek, ekb, a, b, es, ea, eb⟩ := phi_init (p := p) hf wl (v := fun _ => 0) h1
  rw [ev, es] at h2
  have hk : kxVec (p.withPol pol) wl = kxVec p wl := rfl
  have hmap : (convs.map Conv.row).zip p.thickness = (convs.zip p.thickness).map fun x => (Conv.row x.1, x.2) := by
    rw [List.zip_map_left]
    rfl
  have hlen : p.thickness.length ≤ (convs.map Conv.row).length := by rw [List.length_map]; exact hl
  have hinit : ∃ t, transfer_1d_1 pol (kxVec p wl) p.n_top p.n_bot = .ok (kz1d p.n_top (kxVec p wl), kz1d p.n_bot (kxVec p wl), t) ∧
      PhiRel hf pol (blockS a b) t := by
    unfold transfer_1d_1
    rcases hpol with rfl | rfl
    · rw [if_pos rfl]
      refine ⟨_, rfl, a, b, rfl, ?_⟩
      rw [if_pos rfl, ea]
      exact SEquiv.refl _
    · rw [if_neg one_ne_zero, if_pos rfl]
      refine ⟨_, rfl, a, b, rfl, ?_⟩
      rw [if_neg one_ne_zero, eb]
      exact SEquiv.refl _
  obtain ⟨t, ht, hP⟩ := hinit
  obtain ⟨r', hr', a', b', e', he'⟩ := run_down (step' := step1d la' (p.withPol pol) (2 * Real.pi / wl) (kxVec p wl)) Conv.row
    (PhiRel hf pol) (fun c d s s' r e1 hst => phi_step_down (p := p.withPol pol) hf hp hpol (fun A => hb A) hst e1) _ hP h2
  rw [e'] at h3
  have hfin := (final_succeeds (la' := la') (kzb' := kz1d p.n_bot (kxVec p wl)) hf ek).mp ⟨x, h3⟩
  have hfin' : ∃ y, transfer_1d_4 la' pol r'.1 (kz1d p.n_top (kxVec p wl)) (kz1d p.n_bot (kxVec p wl)) p.theta p.n_top p.n_bot false = .ok y := by
    rcases hpol with rfl | rfl
    · rw [if_pos rfl] at he'
      obtain ⟨y, hy⟩ := hfin.1
      obtain ⟨y', hy', -⟩ := transfer_1d_4_equiv he'.symm hy
      exact ⟨y', hy'⟩
    · rw [if_neg one_ne_zero] at he'
      obtain ⟨y, hy⟩ := hfin.2
      obtain ⟨y', hy', -⟩ := transfer_1d_4_equiv he'.symm hy
      exact ⟨y', hy'⟩
  obtain ⟨y, hy⟩ := hfin'
  exact ⟨_, (solve_1d_iff (p := p.withPol pol) hp).mpr ⟨hlen, _, r', y, ht, by rw [hk]; exact (congrArg (fun z =>
    runLayers (step1d la' (p.withPol pol) (2 * Real.pi / wl) (kxVec p wl)) z (t, [])) hmap).trans hr', hy, rfl⟩⟩

theorem phi_zero_up {la la' : LinAlg} {p : Params} {wl : ℝ} (hf : p.fto.2 = 0) (hp : p.use_pinv = false)
    (hphi : p.phi = none) (hb : Spec.ReturnsBasis la)
    {convs : List (Conv (FlatIdx p.fto.1 p.fto.2))} {o o' : Out1D (2 * p.fto.1 + 1)} (hk0 : ∀ i, kxVec p wl i ≠ 0)
    (h : solve_1d la' (p.withPol 0) wl (convs.map Conv.row) = .ok o)
    (h' : solve_1d la' (p.withPol 1) wl (convs.map Conv.row) = .ok o') :
    ∃ o, solve_1d_conical la (p.withPhi (some 0)) wl convs = .ok o := by
  obtain ⟨hl, init, r, x, h1, h2, h3, -⟩ := (solve_1d_iff (p := p.withPol 0) hp).mp h
  obtain ⟨-, init', r', x', h1', h2', h3', -⟩ := (solve_1d_iff (p := p.withPol 1) hp).mp h'
  rw [List.length_map] at hl
  have hkx : kxF (p.withPhi (some 0)) wl = (tileX (kxVec p wl) : FlatIdx p.fto.1 p.fto.2 → ℂ) := by
    show tileX (kxVec (p.withPhi (some 0)) wl) = _
    rw [kxVec_zero hphi]
  have hmap : (convs.map Conv.row).zip p.thickness = (convs.zip p.thickness).map fun x => (Conv.row x.1, x.2) := by
    rw [List.zip_map_left]
    rfl
  have hsucc : ∃ q, transfer_2d_1 (tileX (kxVec p wl) : FlatIdx p.fto.1 p.fto.2 → ℂ) (fun _ => 0) p.n_top p.n_bot = .ok q := by
    obtain ⟨v, hv⟩ := varphiAll_exists (kx := (tileX (kxVec p wl) : FlatIdx p.fto.1 p.fto.2 → ℂ)) (ky := fun _ => 0) (by
      rintro ⟨i, hi, -⟩
      obtain ⟨k, rfl⟩ := (rowEquiv hf).surjective i
      rw [rowEquiv_apply, tileX_row] at hi
      exact hk0 k hi)
    unfold transfer_2d_1
    simp only [Except.bind_ok, Except.ok.injEq]
    exact ⟨_, v, hv, rfl⟩
  obtain ⟨q, hq⟩ := hsucc
  obtain ⟨ev, ek, ekb, a, b, es, ea, eb⟩ := phi_init (p := p) hf wl (v := fun _ => 0) hq
  have i0 : init = (kz1d p.n_top (kxVec p wl), kz1d p.n_bot (kxVec p wl), ⟨1, Complex.I • diagonal (kz1d p.n_bot (kxVec p wl)), 1⟩) := by
    unfold transfer_1d_1 at h1
    rw [if_pos rfl] at h1
    exact (Except.ok.inj h1).symm
  have i1 : init' = (kz1d p.n_top (kxVec p wl), kz1d p.n_bot (kxVec p wl),
      ⟨1, Complex.I • diagonal (fun i => kz1d p.n_bot (kxVec p wl) i / p.n_bot ^ 2), 1⟩) := by
    unfold transfer_1d_1 at h1'
    rw [if_neg one_ne_zero, if_pos rfl] at h1'
    exact (Except.ok.inj h1').symm
  subst i0 i1
  obtain ⟨w, hw, a', b', e', he, he'⟩ := run_up (step := stepCon la false (2 * Real.pi / wl) (tileX (kxVec p wl)) (fun _ => 0) (fun _ => 0))
    Conv.row (fun s t t' => ∃ a b, s = blockS a b ∧ SEquiv t (a.sub (rowEquiv hf)) ∧ SEquiv t' (b.swap.sub (rowEquiv hf)))
    (fun c d s t t' r r' e1 e2 hP => phi_step_up (p := p.withPol 0) (p' := p.withPol 1) hf hp hp rfl rfl (fun A => hb A) hP e1 e2)
    (convs.zip p.thickness) ⟨a, b, rfl, by rw [ea]; exact SEquiv.refl _, by rw [eb]; exact SEquiv.refl _⟩
    ((congrArg (fun z => runLayers (step1d la' (p.withPol 0) (2 * Real.pi / wl) (kxVec p wl)) z _) hmap).symm.trans h2)
    ((congrArg (fun z => runLayers (step1d la' (p.withPol 1) (2 * Real.pi / wl) (kxVec p wl)) z _) hmap).symm.trans h2')
  obtain ⟨y, hy, -⟩ := transfer_1d_4_equiv he.symm h3
  obtain ⟨y', hy', -⟩ := transfer_1d_4_equiv he'.symm h3'
  obtain ⟨z, hz⟩ := (final_succeeds (la := la) (kzb := q.2.1) (psi := p.psi) hf ek).mpr ⟨⟨y, hy⟩, ⟨y', hy'⟩⟩
  rw [← e'] at hz
  refine ⟨_, (solve_con_iff (p := p.withPhi (some 0)) hp).mpr ⟨hl, hf, q, w, z, ?_, ?_, hz, rfl⟩⟩
  · rw [hkx, kyF_zero hf wl]
    exact hq
  · rw [hkx, kyF_zero hf wl, ev, es]
    exact hw

end Meent
