import Verif.Lemmas.CrystalSolve
import Verif.Props.C69

/-!
# C80: birefringent films obey the textbook formula (PyTorch)

The PyTorch backend takes a third axis of the unit cell for the principal indices `(nx, ny, nz)` of every pixel.  For stacks of
homogeneous birefringent films, TE light is refracted as ordinary light of index `ny`, TM light as extraordinary light with
`kz² / nx² + κ² / nz² = 1`; the efficiencies are those of the two-by-two characteristic matrices.
-/

open Matrix

set_option linter.unusedVariables false

namespace Meent

private theorem crystal_same {p p' : Params} {films : List Spec.Crystal} {c₂ : ℂ} {a b : ℝ} {fx fy : ℕ}
    {x y : SubRes (2 * fy + 1) (2 * fx + 1)} (h : Spec.CrystalEfficiencies p' films c₂ a b x) (e1 : p'.n_top = p.n_top)
    (e2 : p'.theta = p.theta) (e3 : p'.n_bot = p.n_bot) (e4 : p'.wavelength = p.wavelength) (he : Spec.SameEff x y) : Spec.CrystalEfficiencies p films c₂ a b y := by
  have e5 : Spec.k0Of p' = Spec.k0Of p := by unfold Spec.k0Of; rw [e4]
  obtain ⟨h1, h2, h3, h4, h5, h6⟩ := h
  rw [e1, e2, e3, e5] at h1 h2 h3 h4
  obtain ⟨s1, s2, s3, s4, s5, s6⟩ := he
  exact ⟨by rw [s1]; exact h1, by rw [s2]; exact h2, by rw [s4]; exact h3, by rw [s5]; exact h4, by rw [s1, s2, s3]; exact h5,
    by rw [s4, s5, s6]; exact h6⟩

private theorem crystal_row1 {p : Params} {films : List Spec.Crystal} {c₂ : ℂ} {a b : ℝ} {fx fy : ℕ} (hf : fy = 0) {x : SubRes 1 (2 * fx + 1)}
    (h : Spec.CrystalEfficiencies (fy := 0) p films c₂ a b x) : Spec.CrystalEfficiencies p films c₂ a b (x.row1 fy) := by
  subst hf
  have hj : ∀ j : Fin (2 * 0 + 1), j = 0 := fun j => Fin.ext (by have := j.isLt; simp only [Fin.val_zero]; omega)
  obtain ⟨h1, h2, h3, h4, h5, h6⟩ := h
  refine ⟨fun j i => ?_, fun j i => ?_, fun j i => ?_, fun j i => ?_, fun j i => ?_, fun j i => ?_⟩ <;> rw [hj j]
  · exact h1 0 i
  · exact h2 0 i
  · exact h3 0 i
  · exact h4 0 i
  · exact h5 0 i
  · exact h6 0 i

/-- **C80.**  The efficiencies of a stack of birefringent films on PyTorch are those of the textbook formula: for films that are uniaxial
about the normal in every direction of incidence, for biaxial films along the axes in the x–z plane of incidence; transparent or
absorbing, of any thickness and number, any truncation, either Fourier type; unless a singular matrix makes PyTorch fall back on a
pseudo-inverse. -/
theorem C80_birefringent (la : LinAlg) (s : TSettings) (films : List Spec.Crystal) (c₂ : ℂ) (h : Spec.CrystalProblem s films c₂)
    (hp : s.p.use_pinv = false) (ha : s.algo = .tmm) (hg : tGratingType s ≠ 1)
    (hn : ∀ cs, tConvMats la s = .ok cs → Spec.NoFallback la s cs) :
    ∃ sol, tConv_solve la s = .ok sol ∧ Spec.BirefringentEfficiencies s.p films c₂ sol.result := by
  have hcs := tConvMats_crystals la h
  rcases torch_follows h.toLosslessCladdings ha hg hcs (hn _ hcs) with ⟨h0, o, o', ho, hs, e⟩ | ⟨-, o, o', ho, hs, e1, e2, e3⟩
  · obtain ⟨-, hphi, hf⟩ := tGratingType_zero h0
    refine ⟨_, hs, Or.inl ⟨_, rfl, ?_⟩⟩
    rw [← solve_1d_phi hphi, List.map_map, show (Conv.row ∘ crystalConv (FlatIdx s.p.fto.1 s.p.fto.2)) = crystalConv _ from
      funext fun f => crystalConv_row f] at ho
    have hc' : Spec.LosslessCladdings { s.p with phi := none } :=
      { h.toLosslessCladdings with phi_real := fun φ hφ => by cases hφ }
    rcases crystal_solve_1d (p := { s.p with phi := none }) hp hc' h.cosine rfl h.thickness h.refracts ho with ⟨hpol, hx⟩ | ⟨hpol, hx⟩
    · exact Or.inl ⟨hpol, crystal_row1 hf (crystal_same (fx := s.p.fto.1) (fy := 0) hx rfl rfl rfl rfl e)⟩
    · exact Or.inr ⟨hpol, crystal_row1 hf (crystal_same (fx := s.p.fto.1) (fy := 0) hx rfl rfl rfl rfl e)⟩
  · refine ⟨_, hs, Or.inr ⟨_, _, _, rfl, ?_⟩⟩
    have hc' : Spec.LosslessCladdings { s.p with psi := Real.pi - s.p.psi } :=
      { h.toLosslessCladdings with psi_real := by have := h.psi_real; simpa [Spec.IsReal] using this }
    obtain ⟨a, b, c⟩ := crystal_solve_2d (p := { s.p with psi := Real.pi - s.p.psi }) hp hc' h.cosine h.thickness h.refracts h.aligned ho
    have p1 : Real.sin ((Real.pi : ℂ) - s.p.psi).re ^ 2 = Real.sin s.p.psi.re ^ 2 := by
      rw [Complex.sub_re, Complex.ofReal_re, Real.sin_pi_sub]
    have p2 : Real.cos ((Real.pi : ℂ) - s.p.psi).re ^ 2 = Real.cos s.p.psi.re ^ 2 := by
      rw [Complex.sub_re, Complex.ofReal_re, Real.cos_pi_sub, neg_sq]
    dsimp only at a
    rw [p1, p2] at a
    exact ⟨crystal_same (fx := s.p.fto.1) (fy := s.p.fto.2) a rfl rfl rfl rfl e1,
      crystal_same (fx := s.p.fto.1) (fy := s.p.fto.2) b rfl rfl rfl rfl e2,
      crystal_same (fx := s.p.fto.1) (fy := s.p.fto.2) c rfl rfl rfl rfl e3⟩

/-! ### Absorbing films are always solved -/

private theorem side_smul {n : Type} [Fintype n] [DecidableEq n] {u a : ℂ} (h : 0 < (u * a).re) : Side u (a • (1 : Matrix n n ℂ)) := by
  intro v hv
  have e : beta (a • (1 : Matrix n n ℂ)) v v = a * (star v ⬝ᵥ v) := by
    unfold beta
    rw [smul_mulVec, one_mulVec, dotProduct_smul, smul_eq_mul]
  have h1 : star v ⬝ᵥ v = ((∑ i, Complex.normSq (v i) : ℝ) : ℂ) := by
    unfold dotProduct
    push_cast
    refine Finset.sum_congr rfl fun i _ => ?_
    rw [Pi.star_apply, Complex.star_def, mul_comm, Complex.mul_conj]
  have h2 : 0 < ∑ i, Complex.normSq (v i) := by
    obtain ⟨i, hi⟩ := Function.ne_iff.mp hv
    exact Finset.sum_pos' (fun _ _ => Complex.normSq_nonneg _) ⟨i, Finset.mem_univ _, Complex.normSq_pos.mpr hi⟩
  rw [e, h1, ← mul_assoc, Complex.re_mul_ofReal]
  exact mul_pos h h2

private theorem absorbing_sq {n : ℂ} (h : Spec.AbsorbingMedium n) : (n ^ 2).im < 0 := by
  rw [sq, Complex.mul_im]
  nlinarith [h.1, h.2, mul_pos h.1 (neg_pos.mpr h.2)]

private theorem crystal_side {m : Type} [Fintype m] [DecidableEq m] {f : Spec.Crystal} (h0 : Spec.AbsorbingMedium f.nx)
    (h1 : Spec.AbsorbingMedium f.ny) (h2 : Spec.AbsorbingMedium f.nz) : SideConv Complex.I (crystalConv m f) := by
  have key : ∀ {a : ℂ}, a.im < 0 → 0 < (Complex.I * a).re := fun {a} h => by rw [Complex.I_mul_re]; linarith
  refine ⟨side_smul (key (absorbing_sq h0)), side_smul (key (absorbing_sq h1)), side_smul ?_⟩
  have hz := absorbing_sq h2
  have hne : f.nz ^ 2 ≠ 0 := fun h => by rw [h] at hz; simp at hz
  rw [Complex.star_def, Complex.conj_I, neg_mul, Complex.neg_re, Complex.I_mul_re, neg_neg, Complex.inv_im]
  exact div_pos (by linarith) (Complex.normSq_pos.mpr hne)

private theorem diag_diagonalisable {n : Type} [Fintype n] [DecidableEq n] (d : n → ℂ) : Spec.Diagonalisable (diagonal d) :=
  ⟨1, d, by simp, by simp⟩

private theorem te_modes {n : Type} [Fintype n] [DecidableEq n] (kx : n → ℂ) (b : ℂ) :
    Spec.Diagonalisable (diagonal kx * diagonal kx - b • (1 : Matrix n n ℂ)) := by
  rw [smul_one_eq_diagonal, diagonal_mul_diagonal, Matrix.diagonal_sub]
  exact diag_diagonalisable _

private theorem tm_modes {n : Type} [Fintype n] [DecidableEq n] (kx : n → ℂ) (a e : ℂ) :
    Spec.Diagonalisable (a • (1 : Matrix n n ℂ) * (diagonal kx * (e • (1 : Matrix n n ℂ)) * diagonal kx - 1)) := by
  simp only [smul_one_eq_diagonal]
  simp only [← diagonal_one, diagonal_mul_diagonal, Matrix.diagonal_sub]
  exact diag_diagonalisable _

/-- In a film uniaxial about the normal the block matrix of the 2D solver has the ordinary and extraordinary waves of every order as
its modes. -/
private theorem uniaxial_modes {n : Type} [Fintype n] [DecidableEq n] {kx ky : n → ℂ} {a e : ℂ} (hk : ∀ i, kx i ^ 2 + ky i ^ 2 ≠ 0)
    (h1 : ∀ i, 1 / 10 ^ 20 ≤ ‖a - (kx i ^ 2 + ky i ^ 2)‖) (h2 : ∀ i, 1 / 10 ^ 20 ≤ ‖a * (1 - (kx i ^ 2 + ky i ^ 2) * e)‖) :
    Spec.DiagonalisableAway (fromBlocks
      (diagonal ky * diagonal ky + (diagonal kx * (e • (1 : Matrix n n ℂ)) * diagonal kx - 1) * (a • (1 : Matrix n n ℂ)))
      (diagonal kx * ((e • (1 : Matrix n n ℂ)) * diagonal ky * (a • (1 : Matrix n n ℂ)) - diagonal ky))
      (diagonal ky * ((e • (1 : Matrix n n ℂ)) * diagonal kx * (a • (1 : Matrix n n ℂ)) - diagonal kx))
      (diagonal kx * diagonal kx + (diagonal ky * (e • (1 : Matrix n n ℂ)) * diagonal ky - 1) * (a • (1 : Matrix n n ℂ)))) := by
  have hA : fromBlocks
      (diagonal ky * diagonal ky + (diagonal kx * (e • (1 : Matrix n n ℂ)) * diagonal kx - 1) * (a • (1 : Matrix n n ℂ)))
      (diagonal kx * ((e • (1 : Matrix n n ℂ)) * diagonal ky * (a • (1 : Matrix n n ℂ)) - diagonal ky))
      (diagonal ky * ((e • (1 : Matrix n n ℂ)) * diagonal kx * (a • (1 : Matrix n n ℂ)) - diagonal kx))
      (diagonal kx * diagonal kx + (diagonal ky * (e • (1 : Matrix n n ℂ)) * diagonal ky - 1) * (a • (1 : Matrix n n ℂ)))
      = fromBlocks (diagonal fun i => ky i * ky i + (kx i * e * kx i - 1) * a) (diagonal fun i => kx i * (e * ky i * a - ky i))
        (diagonal fun i => ky i * (e * kx i * a - kx i)) (diagonal fun i => kx i * kx i + (ky i * e * ky i - 1) * a) := by
    simp only [smul_one_eq_diagonal]
    simp only [← diagonal_one, diagonal_mul_diagonal, Matrix.diagonal_sub, diagonal_add]
  rw [hA]
  set A := fromBlocks (diagonal fun i => ky i * ky i + (kx i * e * kx i - 1) * a) (diagonal fun i => kx i * (e * ky i * a - ky i))
        (diagonal fun i => ky i * (e * kx i * a - kx i)) (diagonal fun i => kx i * kx i + (ky i * e * ky i - 1) * a) with hAd
  set P := fromBlocks (diagonal kx) (diagonal fun i => -ky i) (diagonal ky) (diagonal kx) with hP
  set Q := fromBlocks (diagonal fun i => kx i / (kx i ^ 2 + ky i ^ 2)) (diagonal fun i => ky i / (kx i ^ 2 + ky i ^ 2))
    (diagonal fun i => -ky i / (kx i ^ 2 + ky i ^ 2)) (diagonal fun i => kx i / (kx i ^ 2 + ky i ^ 2)) with hQ
  set d : n ⊕ n → ℂ := Sum.elim (fun i => -(a * (1 - (kx i ^ 2 + ky i ^ 2) * e))) (fun i => -(a - (kx i ^ 2 + ky i ^ 2))) with hd
  have hQP : Q * P = 1 := by
    rw [hQ, hP, fromBlocks_multiply]
    simp only [diagonal_mul_diagonal, diagonal_add]
    rw [← fromBlocks_one, ← diagonal_one, ← diagonal_zero]
    congr 1 <;> congr 1 <;> funext i <;> have := hk i <;> field_simp <;> ring
  have hPQ : P * Q = 1 := mul_eq_one_comm.mp hQP
  have hAP : A * P = P * diagonal d := by
    rw [hAd, hP, hd, ← fromBlocks_diagonal, fromBlocks_multiply, fromBlocks_multiply]
    simp only [diagonal_mul_diagonal, diagonal_add, Matrix.mul_zero, add_zero, zero_add]
    congr 1 <;> congr 1 <;> funext i <;> ring
  refine ⟨⟨P, d, isUnit_det_of_left_inverse hQP, hAP⟩, fun l v hv hl => ?_⟩
  have hw : Q *ᵥ v ≠ 0 := by
    intro h0
    apply hv
    rw [← one_mulVec v, ← hPQ, ← mulVec_mulVec, h0, mulVec_zero]
  have hDw : diagonal d *ᵥ (Q *ᵥ v) = l • (Q *ᵥ v) := by
    have : Q * A = diagonal d * Q := by
      calc Q * A = Q * A * (P * Q) := by rw [hPQ, Matrix.mul_one]
        _ = Q * (A * P) * Q := by simp only [Matrix.mul_assoc]
        _ = diagonal d * Q := by rw [hAP, ← Matrix.mul_assoc Q P, hQP, Matrix.one_mul]
    rw [mulVec_mulVec, ← this, ← mulVec_mulVec, hl, mulVec_smul]
  obtain ⟨i, hi⟩ := Function.ne_iff.mp hw
  have := congrFun hDw i
  rw [mulVec_diagonal, Pi.smul_apply, smul_eq_mul] at this
  rw [← mul_right_cancel₀ hi this, hd]
  rcases i with i | i
  · rw [Sum.elim_inl, norm_neg]; exact h2 i
  · rw [Sum.elim_inr, norm_neg]; exact h1 i

/-- No retained order runs along a film: to within `10⁻²⁰`, the size below which PyTorch replaces eigenvalues, its ordinary and
extraordinary normal wavenumbers are not zero. -/
def Spec.NoneAlong (p : Params) (films : List Spec.Crystal) : Prop :=
  ∀ f ∈ films, ∀ i, 1 / 10 ^ 20 ≤ ‖f.ny ^ 2 - (Spec.kxOf p i ^ 2 + Spec.kyOf p i ^ 2)‖ ∧
    1 / 10 ^ 20 ≤ ‖f.nx ^ 2 * (1 - (Spec.kxOf p i ^ 2 + Spec.kyOf p i ^ 2) / f.nz ^ 2)‖

/-- **C80, absorbing films.**  A stack of absorbing birefringent films is always solved by PyTorch, with the efficiencies of the textbook
formula: in TE and TM for any diagonal permittivity, otherwise for films uniaxial about the normal unless a retained order runs along
the normal or along a film. -/
theorem C80_absorbing (la : LinAlg) (hb : Spec.ReturnsBasis la) (s : TSettings) (films : List Spec.Crystal) (c₂ : ℂ)
    (h : Spec.CrystalProblem s films c₂) (hp : s.p.use_pinv = false) (ha : s.algo = .tmm) (hne : films ≠ [])
    (hm : ∀ f ∈ films, Spec.AbsorbingMedium f.nx ∧ Spec.AbsorbingMedium f.ny ∧ Spec.AbsorbingMedium f.nz ∧ 0 < f.d)
    (hg : tGratingType s = 0 ∨ tGratingType s = 2 ∧ ¬ Spec.SomeAlongNormal s.p ∧ (∀ f ∈ films, f.nx = f.ny) ∧ Spec.NoneAlong s.p films) :
    ∃ sol, tConv_solve la s = .ok sol ∧ Spec.BirefringentEfficiencies s.p films c₂ sol.result := by
  refine C80_birefringent la s films c₂ h hp ha (by omega) fun cs hcs => ?_
  obtain rfl := Except.ok.inj (hcs.symm.trans (tConvMats_crystals la h))
  refine aniso_absorbing_core hb ?_ ?_ ?_ h.toLosslessCladdings hp (hg.imp_right fun hh => ⟨hh.1, hh.2.1⟩) ?_ ?_
  · intro d hd
    rw [h.thickness] at hd
    obtain ⟨f, hf, rfl⟩ := List.mem_map.mp hd
    exact (hm f hf).2.2.2
  · rw [h.thickness]
    exact fun h0 => hne (List.map_eq_nil_iff.mp h0)
  · rw [h.thickness, List.length_map, List.length_map]
  · intro c hc
    obtain ⟨f, hf, rfl⟩ := List.mem_map.mp hc
    exact crystal_side (hm f hf).1 (hm f hf).2.1 (hm f hf).2.2.1
  · intro c hc
    obtain ⟨f, hf, rfl⟩ := List.mem_map.mp (List.mem_of_mem_take hc)
    refine ⟨fun _ _ => ?_, fun _ _ => ?_, fun h2 => ?_⟩
    · exact te_modes _ _
    · exact tm_modes _ _ _
    · obtain ⟨-, hno, hu, haw⟩ := hg.resolve_left (by omega)
      show Spec.DiagonalisableAway (fromBlocks _ _ _ _)
      simp only [crystalConv, ← hu f hf]
      refine uniaxial_modes (fun i h0 => hno ?_) (fun i => ?_) (fun i => ?_)
      · rw [← normal_iff h.theta_hi]
        rw [← kxF_eq_kxOf h.toRealIllumination, ← kyF_eq_kyOf h.toRealIllumination] at h0
        have e1 : kxF s.p s.p.wavelength i = (Spec.orderKx s.p (Spec.colOrder i.modNat) : ℂ) := kxVec_order h.toRealIllumination _
        have e2 : kyF s.p s.p.wavelength i = (Spec.orderKy s.p (Spec.rowOrder i.divNat) : ℂ) := kyVec_order h.toRealIllumination _
        refine ⟨i, ?_⟩
        rw [e1, e2] at h0 ⊢
        have h0' : (Spec.orderKx s.p (Spec.colOrder i.modNat)) ^ 2 + (Spec.orderKy s.p (Spec.rowOrder i.divNat)) ^ 2 = 0 := by
          exact_mod_cast h0
        constructor
        · have : Spec.orderKx s.p (Spec.colOrder i.modNat) = 0 := by
            nlinarith [sq_nonneg (Spec.orderKx s.p (Spec.colOrder i.modNat)), sq_nonneg (Spec.orderKy s.p (Spec.rowOrder i.divNat))]
          rw [this, Complex.ofReal_zero]
        · have : Spec.orderKy s.p (Spec.rowOrder i.divNat) = 0 := by
            nlinarith [sq_nonneg (Spec.orderKx s.p (Spec.colOrder i.modNat)), sq_nonneg (Spec.orderKy s.p (Spec.rowOrder i.divNat))]
          rw [this, Complex.ofReal_zero]
      · have := (haw f hf i).1
        rw [← hu f hf] at this
        exact this
      · have := (haw f hf i).2
        rw [div_eq_mul_inv] at this
        exact this

/-! ### Examples -/

namespace C80

/-- A film with given principal indices, a third of a wavelength thick, under light of transverse wavenumber 1/2. -/
noncomputable def crystal (nx ny nz : ℂ) : Spec.Crystal :=
  ⟨nx, ny, nz, (ny ^ 2 - (1 / 2) ^ 2) ^ ((2 : ℕ) : ℂ)⁻¹, (nx ^ 2 * (1 - (1 / 2) ^ 2 / nz ^ 2)) ^ ((2 : ℕ) : ℂ)⁻¹, 1 / 3⟩

theorem refracts {nx ny nz : ℂ} (h1 : nx ≠ 0) (h2 : ny ≠ 0) (h3 : nz ≠ 0) (h4 : ny ^ 2 - (1 / 2) ^ 2 ≠ 0) (h5 : 1 - (1 / 2) ^ 2 / nz ^ 2 ≠ 0) :
    (crystal nx ny nz).Refracts (1 / 2) := by
  have e1 : (crystal nx ny nz).ks ^ 2 = ny ^ 2 - (1 / 2) ^ 2 := Complex.cpow_nat_inv_pow _ two_ne_zero
  have e2 : (crystal nx ny nz).kp ^ 2 = nx ^ 2 * (1 - (1 / 2) ^ 2 / nz ^ 2) := Complex.cpow_nat_inv_pow _ two_ne_zero
  refine ⟨h1, h2, h3, fun h => h4 ?_, fun h => mul_ne_zero (pow_ne_zero 2 h1) h5 ?_, e1, ?_⟩
  · rw [← e1, h]; simp
  · rw [← e2, h]; simp
  · rw [e2]
    show nx ^ 2 * (1 - (1 / 2) ^ 2 / nz ^ 2) / nx ^ 2 + (1 / 2) ^ 2 / nz ^ 2 = 1
    rw [mul_div_cancel_left₀ _ (pow_ne_zero 2 h1)]
    ring

/-- The raster with `rows` rows of one film. -/
noncomputable def cell (rows : ℕ) (nx ny nz : ℂ) : Ucell3 :=
  ⟨rows, 1, [fun k _ _ => if k = 0 then nx else if k = 1 then ny else nz]⟩

noncomputable def settings (pol : ℝ) (rows : ℕ) (nx ny nz : ℂ) : TSettings :=
  { p := exParams pol none, ucell := .aniso (cell rows nx ny nz), fourier_type := 1, enhanced_dfs := true, algo := .tmm }

theorem sin_eq : Complex.sin ((Real.pi / 6 : ℝ) : ℂ) = 1 / 2 := by rw [← Complex.ofReal_sin, Real.sin_pi_div_six]; norm_num

theorem problem (pol : ℝ) {rows : ℕ} (hr : 0 < rows) {nx ny nz : ℂ} (h : (crystal nx ny nz).Refracts (1 / 2)) :
    Spec.CrystalProblem (settings pol rows nx ny nz) [crystal nx ny nz] ((√3 / 2 : ℝ) : ℂ) :=
  { C69.claddings pol none (by simp) with
    cell := ⟨_, rfl, hr, one_pos, List.Forall₂.cons (fun i j => ⟨rfl, rfl, rfl⟩) List.Forall₂.nil⟩
    coefficients := Or.inr rfl
    thickness := rfl
    refracts := by
      intro f hf
      rw [List.mem_singleton.mp hf]
      have : (settings pol rows nx ny nz).p.n_top * Complex.sin (settings pol rows nx ny nz).p.theta = 1 / 2 := by
        show (1 : ℂ) * Complex.sin ((Real.pi / 6 : ℝ) : ℂ) = 1 / 2
        rw [sin_eq, one_mul]
      rw [this]
      exact h
    aligned := Or.inr (Or.inl rfl)
    cosine := by
      show ((√3 / 2 : ℝ) : ℂ) ^ 2 = ((1 - ((1 : ℂ).re * Real.sin (((Real.pi / 6 : ℝ) : ℂ).re) / (1 : ℂ).re) ^ 2 : ℝ) : ℂ) ∧ _
      rw [Complex.ofReal_re, Real.sin_pi_div_six, Complex.one_re, ← Complex.ofReal_pow, div_pow, Real.sq_sqrt (by norm_num)]
      refine ⟨by norm_num, ?_, ?_⟩
      · rw [Complex.ofReal_re]; positivity
      · rw [Complex.ofReal_im] }

theorem sub_I_ne (a : ℝ) : (a : ℂ) - Complex.I ≠ 0 := fun h => by have := congrArg Complex.im h; simp at this

theorem sub_I_sq (a : ℝ) : ((a : ℂ) - Complex.I) ^ 2 = ((a ^ 2 - 1 : ℝ) : ℂ) - ((2 * a : ℝ) : ℂ) * Complex.I := by
  push_cast
  linear_combination Complex.I_sq

theorem ordinary_ne {a : ℝ} (ha : 0 < a) : ((a : ℂ) - Complex.I) ^ 2 - (1 / 2) ^ 2 ≠ 0 := fun h => by
  have := congrArg Complex.im h
  rw [sub_I_sq] at this
  norm_num [← Complex.ofReal_pow] at this
  exact ha.ne' this

theorem extra_ne {a : ℝ} (ha : 0 < a) : 1 - (1 / 2) ^ 2 / ((a : ℂ) - Complex.I) ^ 2 ≠ 0 := fun h =>
  ordinary_ne ha (by
    have h0 := pow_ne_zero 2 (sub_I_ne a)
    rw [sub_eq_zero, eq_div_iff h0, one_mul] at h
    rw [h, sub_self])

theorem refracts_sub {a b c : ℝ} (hb : 0 < b) (hc : 0 < c) :
    (crystal (a - Complex.I) (b - Complex.I) (c - Complex.I)).Refracts (1 / 2) :=
  refracts (sub_I_ne a) (sub_I_ne b) (sub_I_ne c) (ordinary_ne hb) (extra_ne hc)

theorem absorbing {a : ℝ} (ha : 0 < a) : Spec.AbsorbingMedium ((a : ℂ) - Complex.I) := by
  constructor <;> simp [ha]

/-- TE and TM light on an absorbing film with three different indices. -/
example (pol : ℝ) (hpol : pol = 0 ∨ pol = 1) :
    ∃ sol, tConv_solve exLA (settings pol 1 ((1 : ℝ) - Complex.I) ((2 : ℝ) - Complex.I) ((3 : ℝ) - Complex.I)) = .ok sol ∧
      Spec.BirefringentEfficiencies (exParams pol none)
        [crystal ((1 : ℝ) - Complex.I) ((2 : ℝ) - Complex.I) ((3 : ℝ) - Complex.I)] ((√3 / 2 : ℝ) : ℂ) sol.result := by
  refine C80_absorbing exLA exLA_basis _ _ _ (problem pol one_pos (refracts_sub two_pos three_pos)) rfl rfl (by simp) ?_ (Or.inl ?_)
  · intro f hf
    rw [List.mem_singleton.mp hf]
    exact ⟨absorbing one_pos, absorbing two_pos, absorbing three_pos, by norm_num [crystal]⟩
  · rcases hpol with rfl | rfl <;> simp [tGratingType, settings, TStructure.rows, cell, exParams]

theorem kx_eq : Spec.kxOf (exParams 0 none) = fun _ => (1 / 2 : ℂ) := by
  funext i
  have hi : (i.val % (2 * (exParams 0 none).fto.1 + 1) : ℕ) = 0 := Nat.mod_one _
  unfold Spec.kxOf
  rw [hi]
  simp only [exParams, sin_eq, Option.getD_none, Complex.cos_zero]
  norm_num

theorem ky_eq : Spec.kyOf (exParams 0 none) = fun _ => (0 : ℂ) := by
  funext i
  have hi : (i.val / (2 * (exParams 0 none).fto.1 + 1) : ℕ) = 0 := by
    have : i.val < 1 := i.isLt
    exact Nat.div_eq_of_lt (lt_of_lt_of_le this (by omega))
  unfold Spec.kyOf
  rw [hi]
  simp only [exParams, Option.getD_none, Complex.sin_zero]
  norm_num

/-- An absorbing film uniaxial about the normal, through the 2D solver. -/
example : ∃ sol, tConv_solve exLA (settings 0 2 ((1 : ℝ) - Complex.I) ((1 : ℝ) - Complex.I) ((2 : ℝ) - Complex.I)) = .ok sol ∧
      Spec.BirefringentEfficiencies (exParams 0 none)
        [crystal ((1 : ℝ) - Complex.I) ((1 : ℝ) - Complex.I) ((2 : ℝ) - Complex.I)] ((√3 / 2 : ℝ) : ℂ) sol.result := by
  refine C80_absorbing exLA exLA_basis _ _ _ (problem 0 two_pos (refracts_sub one_pos two_pos)) rfl rfl (by simp) ?_
    (Or.inr ⟨?_, C69.film_normal, ?_, ?_⟩)
  · intro f hf
    rw [List.mem_singleton.mp hf]
    exact ⟨absorbing one_pos, absorbing one_pos, absorbing two_pos, by norm_num [crystal]⟩
  · simp [tGratingType, settings, TStructure.rows, cell]
  · intro f hf
    rw [List.mem_singleton.mp hf]
    rfl
  · intro f hf i
    rw [List.mem_singleton.mp hf]
    show 1 / 10 ^ 20 ≤ ‖((1 : ℝ) - Complex.I) ^ 2 - (Spec.kxOf (exParams 0 none) i ^ 2 + Spec.kyOf (exParams 0 none) i ^ 2)‖ ∧
      1 / 10 ^ 20 ≤ ‖((1 : ℝ) - Complex.I) ^ 2 * (1 - (Spec.kxOf (exParams 0 none) i ^ 2 + Spec.kyOf (exParams 0 none) i ^ 2) / ((2 : ℝ) - Complex.I) ^ 2)‖
    rw [kx_eq, ky_eq]
    have e1 : (((1 : ℝ) : ℂ) - Complex.I) ^ 2 - ((1 / 2 : ℂ) ^ 2 + 0 ^ 2) = ((-1 / 4 : ℝ) : ℂ) + ((-2 : ℝ) : ℂ) * Complex.I := by
      push_cast
      linear_combination Complex.I_sq
    have e2 : (((1 : ℝ) : ℂ) - Complex.I) ^ 2 * (1 - ((1 / 2 : ℂ) ^ 2 + 0 ^ 2) / (((2 : ℝ) : ℂ) - Complex.I) ^ 2) =
        ((-2 / 25 : ℝ) : ℂ) + ((-97 / 50 : ℝ) : ℂ) * Complex.I := by
      have h0 : ((((2 : ℝ) : ℂ) - Complex.I) ^ 2)⁻¹ = (3 + 4 * Complex.I) / 25 := by
        refine inv_eq_of_mul_eq_one_right ?_
        rw [sub_I_sq]
        push_cast
        linear_combination (-16 / 25 : ℂ) * Complex.I_sq
      rw [div_eq_mul_inv, h0, sub_I_sq]
      push_cast
      linear_combination (2 / 25 : ℂ) * Complex.I_sq
    rw [e1, e2]
    constructor
    · refine le_trans ?_ (Complex.abs_im_le_norm _)
      norm_num
    · refine le_trans ?_ (Complex.abs_im_le_norm _)
      norm_num

/-- The biaxial film of C69 through the 2D solver. -/
example : ∃ sol, tConv_solve exLA C69.filmSettings = .ok sol ∧
      Spec.BirefringentEfficiencies (exParams 0 none)
        [crystal ((1 : ℝ) - Complex.I) ((2 : ℝ) - Complex.I) ((1 : ℝ) - Complex.I)] ((√3 / 2 : ℝ) : ℂ) sol.result := by
  have hcell : C69.film = cell 2 ((1 : ℝ) - Complex.I) ((2 : ℝ) - Complex.I) ((1 : ℝ) - Complex.I) := by
    unfold C69.film cell
    congr 2
    funext k i j
    fin_cases k <;> simp
  have hs : C69.filmSettings = settings 0 2 ((1 : ℝ) - Complex.I) ((2 : ℝ) - Complex.I) ((1 : ℝ) - Complex.I) := by
    unfold C69.filmSettings settings
    rw [hcell]
  have hprob : Spec.CrystalProblem C69.filmSettings _ _ := hs ▸ problem 0 two_pos (refracts_sub (a := 1) two_pos one_pos)
  refine C80_birefringent exLA C69.filmSettings _ _ hprob rfl rfl (by rw [C69.film_type]; omega) fun cs hcs => ?_
  have hc := C69.film_conv hcs
  refine aniso_absorbing_core exLA_basis (by simp [C69.filmSettings, exParams]) (by simp [C69.filmSettings, exParams]) ?_
    (C69.claddings 0 none (by simp)) rfl (Or.inr ⟨C69.film_type, C69.film_normal⟩) ?_ ?_
  · rw [hc]; simp [C69.filmSettings, exParams]
  · obtain rfl := Except.ok.inj (hcs.symm.trans (tConvMats_crystals exLA hprob))
    intro c hc
    obtain ⟨f, hf, rfl⟩ := List.mem_map.mp hc
    rw [List.mem_singleton.mp hf]
    exact crystal_side (absorbing one_pos) (absorbing two_pos) (absorbing one_pos)
  · intro c hc'
    rw [hc] at hc'
    rw [List.mem_singleton.mp (List.mem_of_mem_take hc')]
    exact C69.film_modes (.aniso C69.film) C69.film_type

end C80

#print axioms C80_birefringent
#print axioms C80_absorbing

end Meent
