import Verif.Lemmas.AbsorbSolve
import Verif.Lemmas.Nan
import Verif.Lemmas.LayerCount

/-!
# Absorbing problems have solutions (helper lemmas): from the settings to the matrices
-/

open Matrix

set_option linter.unusedSectionVars false
set_option linter.unusedVariables false
set_option linter.unusedSimpArgs false

namespace Meent

theorem eig_unit_iff {la : LinAlg} (hb : Spec.ReturnsBasis la) {n : Type} [Fintype n] [DecidableEq n] {A : Matrix n n ℂ} :
    IsUnit (la.eig A).2.det ↔ Spec.Diagonalisable A :=
  ⟨fun h => ⟨_, _, h, la.eig_law A⟩, fun h => hb A h⟩

theorem Diagonalisable.reindex {n m : Type} [Fintype n] [DecidableEq n] [Fintype m] [DecidableEq m] (e : m ≃ n) {A : Matrix n n ℂ}
    (h : Spec.Diagonalisable A) : Spec.Diagonalisable (A.submatrix e e) := by
  obtain ⟨W, l, hW, hA⟩ := h
  refine ⟨W.submatrix e e, l ∘ e, by rwa [det_submatrix_equiv_self], ?_⟩
  rw [submatrix_mul_equiv, hA, ← submatrix_mul_equiv W (diagonal l) e e e]
  congr 1
  ext i j
  simp [diagonal_apply]

theorem diagonalisable_reindex_iff {n m : Type} [Fintype n] [DecidableEq n] [Fintype m] [DecidableEq m] (e : m ≃ n) {A : Matrix n n ℂ} :
    Spec.Diagonalisable (A.submatrix e e) ↔ Spec.Diagonalisable A := by
  refine ⟨fun h => ?_, Diagonalisable.reindex e⟩
  have := Diagonalisable.reindex e.symm h
  simpa using this

theorem kxF_eq_kxOf {p : Params} (h : Spec.RealIllumination p) : kxF p p.wavelength = Spec.kxOf p := by
  funext i
  obtain ⟨ph, hph⟩ : ∃ ph : ℝ, p.phi.getD 0 = (ph : ℂ) := by
    rcases hp : p.phi with _ | φ
    · exact ⟨0, by simp⟩
    · exact ⟨φ.re, Complex.ext rfl (h.phi_real φ hp)⟩
  have hi := RealIncidence.of_spec h
  have := hi.kx_eq' hph p.wavelength i.modNat
  unfold Spec.kxOf kxF tileX
  rw [this, hph, hi.hn, hi.hth]
  simp only [Fin.modNat]
  push_cast
  rfl

theorem kyF_eq_kyOf {p : Params} (h : Spec.RealIllumination p) : kyF p p.wavelength = Spec.kyOf p := by
  funext i
  obtain ⟨ph, hph⟩ : ∃ ph : ℝ, p.phi.getD 0 = (ph : ℂ) := by
    rcases hp : p.phi with _ | φ
    · exact ⟨0, by simp⟩
    · exact ⟨φ.re, Complex.ext rfl (h.phi_real φ hp)⟩
  have hi := RealIncidence.of_spec h
  have := hi.ky_eq' hph p.wavelength i.divNat
  unfold Spec.kyOf kyF tileY
  rw [this, hph, hi.hn, hi.hth]
  simp only [Fin.divNat]
  push_cast
  rfl

theorem varphiAll_exists {m : Type} {kx ky : m → ℂ} (h : ¬ ∃ i, kx i = 0 ∧ ky i = 0) : ∃ v, varphiAll kx ky = .ok v := by
  have h1 : ∀ i, (varphi1 (kx i) (ky i)).isSome := by
    intro i
    unfold varphi1
    by_cases hx : kx i = 0
    · by_cases hy : ky i = 0
      · exact absurd ⟨i, hx, hy⟩ h
      · simp [hx, hy]
    · simp [hx]
  unfold varphiAll
  rw [dif_pos h1]
  exact ⟨_, rfl⟩

/-- Every layer of a successful run was passed by a successful step. -/
theorem runLayers_steps {S C L : Type} {step : C → ℝ → S → Res (S × L)} {xs : List (C × ℝ)} {s r : S × List L}
    (h : runLayers step xs s = .ok r) : ∀ x ∈ xs, ∃ a b, step x.1 x.2 a = .ok b := by
  induction xs generalizing r with
  | nil => intro x hx; cases hx
  | cons y ys ih =>
    obtain ⟨a, ha, b, hb, -⟩ := runLayers_cons.mp h
    intro x hx
    rcases List.mem_cons.mp hx with rfl | hx
    · exact ⟨_, _, hb⟩
    · exact ih ha x hx

theorem mem_zip_take {α β : Type} {a : List α} {b : List β} {x : α × β} (h : x ∈ a.zip b) : x.1 ∈ a.take b.length := by
  rw [List.zip_eq_zip_take_min] at h
  have := (List.of_mem_zip (a := x.1) (b := x.2) h).1
  exact List.take_subset_take_left _ (min_le_right _ _) this

theorem mem_take_zip {α β : Type} {a : List α} {b : List β} (hl : b.length ≤ a.length) {x : α} (h : x ∈ a.take b.length) :
    ∃ y, (x, y) ∈ a.zip b := by
  obtain ⟨i, hi, rfl⟩ := List.mem_iff_getElem.mp h
  have hi' : i < b.length := by simpa [hl] using hi
  refine ⟨b[i], ?_⟩
  rw [List.mem_iff_getElem]
  refine ⟨i, by simp [List.length_zip]; omega, by simp⟩

/-- The values of a drawn layer are those of its base and its rectangles. -/
theorem drawn_media {period : ℝ × ℝ} {ls : List VLayer} {cells : List VCell} (h : modeling_vector_instruction period ls = .ok cells)
    {vc : VCell} (hvc : vc ∈ cells) : ∃ l ∈ ls, ∀ i j, Spec.Media l (vc.val i j) := by
  unfold modeling_vector_instruction at h
  simp only [Except.bind_ok] at h
  obtain ⟨os, hos, h⟩ := h
  obtain ⟨bo, hbo, hd⟩ := mapM_mem h hvc
  obtain ⟨l, hl, hlo⟩ := mapM_mem hos hbo
  simp only [Except.bind_ok] at hlo
  obtain ⟨o, ho, e2⟩ := hlo
  simp only [Except.ok.injEq] at e2
  subst e2
  refine ⟨l, hl, fun j i => ?_⟩
  rcases drawLayer_val hd j i with e3 | ⟨ob, hob, e3⟩
  · exact Or.inl e3
  · rw [e3]
    unfold VLayer.objs at ho
    simp only [Except.bind_ok] at ho
    obtain ⟨oss, hoss, e4⟩ := ho
    simp only [Except.ok.injEq] at e4
    subst e4
    obtain ⟨ol, hol, hob⟩ := List.mem_flatten.mp hob
    obtain ⟨v, hv, hrun⟩ := mapM_mem hoss hol
    cases v with
    | rectangle cx cy lx ly n angle nt np =>
      simp only [VInstr.run] at hrun
      rw [rectangle_n hrun ob hob]
      exact Or.inr ⟨cx, cy, lx, ly, angle, nt, np, .inl hv⟩
    | ellipse cx cy lx ly n angle nt np =>
      simp only [VInstr.run] at hrun
      rw [ellipse_n hrun ob hob]
      exact Or.inr ⟨cx, cy, lx, ly, angle, nt, np, .inr hv⟩
    | unknown => cases hrun

/-- Orders of a 1D calculation among the flat indices. -/
def flatRowEquiv {fx fy : ℕ} (hf : fy = 0) : Fin (2 * fx + 1) ≃ FlatIdx fx fy where
  toFun := rowIdx
  invFun i := i.modNat
  left_inv i := by
    apply Fin.ext
    simp [rowIdx, Fin.modNat, finProdFinEquiv]
    omega
  right_inv i := by
    subst hf
    apply Fin.ext
    have := i.isLt
    simp [rowIdx, Fin.modNat, finProdFinEquiv]
    omega

theorem SideConv.row {u : ℂ} {fx fy : ℕ} (hf : fy = 0) {c : Conv (FlatIdx fx fy)} (h : SideConv u c) : SideConv u c.row :=
  ⟨h.x.submatrix (flatRowEquiv hf), h.y.submatrix (flatRowEquiv hf), h.z.submatrix (flatRowEquiv hf)⟩

theorem kxVec_row {p : Params} (hf : p.fto.2 = 0) (wl : ℝ) : kxVec p wl = kxF p wl ∘ flatRowEquiv hf := by
  funext i
  show kxVec p wl i = kxVec p wl ((flatRowEquiv hf).symm (flatRowEquiv hf i))
  rw [Equiv.symm_apply_apply]

theorem eigMat_te {p : Params} (hf : p.fto.2 = 0) (wl : ℝ) (c : Conv (FlatIdx p.fto.1 p.fto.2)) :
    eigMat1d 0 (kxVec p wl) c.row
      = (diagonal (kxF p wl) * diagonal (kxF p wl) - c.epy).submatrix (flatRowEquiv hf) (flatRowEquiv hf) := by
  unfold eigMat1d
  rw [if_pos rfl, diag_sq, kxVec_row hf, ← submatrix_diagonal_equiv, submatrix_mul_equiv]
  rfl

theorem eigMat_tm {p : Params} (hf : p.fto.2 = 0) (wl : ℝ) (c : Conv (FlatIdx p.fto.1 p.fto.2)) :
    eigMat1d 1 (kxVec p wl) c.row
      = (c.epx * (diagonal (kxF p wl) * c.epzi * diagonal (kxF p wl) - 1)).submatrix (flatRowEquiv hf) (flatRowEquiv hf) := by
  unfold eigMat1d
  rw [if_neg one_ne_zero, kxVec_row hf, ← submatrix_diagonal_equiv]
  show c.epx.submatrix (flatRowEquiv hf) (flatRowEquiv hf) * ((diagonal (kxF p wl)).submatrix (flatRowEquiv hf) (flatRowEquiv hf)
    * c.epzi.submatrix (flatRowEquiv hf) (flatRowEquiv hf) * (diagonal (kxF p wl)).submatrix (flatRowEquiv hf) (flatRowEquiv hf) - 1) = _
  rw [submatrix_mul_equiv, submatrix_mul_equiv, ← submatrix_one_equiv (flatRowEquiv hf)]
  exact submatrix_mul_equiv c.epx (diagonal (kxF p wl) * c.epzi * diagonal (kxF p wl) - 1) _ (flatRowEquiv hf) _

theorem eig_step1d {la : LinAlg} {n : Type} [Fintype n] [DecidableEq n] {p : Params} (hp : p.use_pinv = false) {k0 : ℝ} {kx : n → ℂ}
    {c : Conv n} {d : ℝ} {s : TState n} {r : TState n × LayerInfo n n} (h : step1d la p k0 kx c d s = .ok r) :
    IsUnit (la.eig (eigMat1d p.pol kx c)).2.det := by
  unfold step1d transfer_1d_3 at h
  simp only [Except.bind_ok, hp, Except.ok.injEq] at h
  obtain ⟨m, hm, t, ht, rfl⟩ := h
  have hW := (tmmStep_ok.mp ht).hW
  unfold eigMat1d
  by_cases h0 : p.pol = 0
  · simp only [transfer_1d_2, h0, if_true, Except.ok.injEq] at hm ⊢
    subst hm; exact hW
  · by_cases hp1 : p.pol = 1
    · simp only [transfer_1d_2, h0, hp1, if_true, if_false, one_ne_zero, Except.bind_ok, Except.ok.injEq] at hm ⊢
      obtain ⟨_, _, rfl⟩ := hm
      exact hW
    · simp only [transfer_1d_2, h0, hp1, if_false, reduceCtorEq] at hm

theorem eig_step2d {la : LinAlg} {m : Type} [Fintype m] [DecidableEq m] {k0 : ℝ} {kx ky varphi : m → ℂ}
    {c : Conv m} {d : ℝ} {s : TState (m ⊕ m)} {r : TState (m ⊕ m) × LayerInfo m (m ⊕ m)}
    (h : step2d la false k0 kx ky varphi c d s = .ok r) : IsUnit (la.eig (omega2LR kx ky c)).2.det := by
  unfold step2d at h
  simp only [transfer_2d_3_eq, Except.bind_ok, Except.ok.injEq] at h
  obtain ⟨M, hM, t, ht, rfl⟩ := h
  have hd := (tmmStep_ok.mp ht).hW
  simp only [transfer_2d_2, Except.bind_ok, meeinv_false_ok, Except.ok.injEq] at hM
  obtain ⟨Qi, ⟨hq, rfl⟩, rfl⟩ := hM
  rw [bigW2d_eq] at hd
  exact isUnit_det_of_mul_right hd

theorem eig_stepCon {la : LinAlg} {m : Type} [Fintype m] [DecidableEq m] {k0 : ℝ} {kx ky varphi : m → ℂ}
    {c : Conv m} {d : ℝ} {s : TState (m ⊕ m)} {r : TState (m ⊕ m) × LayerInfoCon m}
    (h : stepCon la false k0 kx ky varphi c d s = .ok r) :
    IsUnit (la.eig (diagonal (fun i => ky i ^ 2) + (diagonal (fun i => kx i ^ 2) - c.epy))).2.det ∧
    IsUnit (la.eig (diagonal (fun i => ky i ^ 2) + (diagonal kx * c.epzi * diagonal kx - 1) * c.epx)).2.det := by
  unfold stepCon at h
  simp only [transfer_1d_conical_3_eq, Except.bind_ok, Except.ok.injEq] at h
  obtain ⟨M, hM, t, ht, rfl⟩ := h
  have hd := (tmmStep_ok.mp ht).hV
  simp only [transfer_1d_conical_2, Except.bind_ok, meeinv_false_ok, Except.ok.injEq] at hM
  obtain ⟨A_i, ⟨hAi, rfl⟩, B_i, ⟨hBi, rfl⟩, rfl⟩ := hM
  rw [conV_eq] at hd
  have hd := isUnit_det_of_mul_right hd
  simp only [conV0, det_fromBlocks_zero₁₂] at hd
  exact ⟨isUnit_of_mul_isUnit_left hd, isUnit_det_of_mul_right (isUnit_det_of_mul_left (isUnit_of_mul_isUnit_right hd))⟩

/-! ### The settings -/

theorem phi_real {p : Params} (h : Spec.RealIllumination p) : ∃ ph : ℝ, p.phi.getD 0 = (ph : ℂ) := by
  rcases hp : p.phi with _ | φ
  · exact ⟨0, by simp⟩
  · exact ⟨φ.re, Complex.ext rfl (h.phi_real φ hp)⟩

theorem AbsorbingProblem.side {s : Settings} (h : Spec.AbsorbingProblem s) {la : LinAlg} (hp : s.p.use_pinv = false)
    {cs : List (Conv (FlatIdx s.p.fto.1 s.p.fto.2))} (hcs : convMats la s = .ok cs) : ∀ c ∈ cs, SideConv Complex.I c := by
  have hl := h.layers
  unfold Spec.AbsorbingLayers at hl
  rcases hu : s.ucell with u | ls
  · rw [hu] at hl
    exact convMats_absorbing hp hl.1 hu hl.2 hcs
  · rw [hu] at hl
    obtain ⟨h1, h2, cells, h3, h4⟩ := hl
    refine convMats_absorbing_vector hp hu h3 h.period_x_pos h.period_y_pos h1 (fun vc hvc => ⟨?_, h4 vc hvc⟩) hcs
    obtain ⟨l, hl, hm⟩ := drawn_media h3 hvc
    exact fun i j => h2 l hl _ (hm i j)

theorem diag_add_sub {m : Type} [Fintype m] [DecidableEq m] (kx ky : m → ℂ) (E : Matrix m m ℂ) :
    diagonal (fun i => ky i ^ 2) + (diagonal (fun i => kx i ^ 2) - E)
      = diagonal ky * diagonal ky + diagonal kx * diagonal kx - E := by
  rw [diag_sq, diag_sq]; abel

theorem omega_spec {m : Type} [Fintype m] [DecidableEq m] (kx ky : m → ℂ) (c : Conv m) :
    omega2LR kx ky c = fromBlocks (diagonal ky * diagonal ky + (diagonal kx * c.epzi * diagonal kx - 1) * c.epx)
      (diagonal kx * (c.epzi * diagonal ky * c.epy - diagonal ky)) (diagonal ky * (c.epzi * diagonal kx * c.epx - diagonal kx))
      (diagonal kx * diagonal kx + (diagonal ky * c.epzi * diagonal ky - 1) * c.epy) := by
  unfold omega2LR
  simp only [diag_sq]

theorem absorbing_solves {la : LinAlg} (hb : Spec.ReturnsBasis la) {s : Settings} (hp : s.p.use_pinv = false) (ha : s.algo = .tmm)
    (h : Spec.AbsorbingProblem s) {cs : List (Conv (FlatIdx s.p.fto.1 s.p.fto.2))} (hcs : convMats la s = .ok cs)
    (hm : ∀ c ∈ cs.take s.p.thickness.length, Spec.LayerHasModes s c) : ∃ sol, conv_solve la s = .ok sol := by
  have hlen : s.p.thickness.length ≤ cs.length := by rw [convMats_length hcs]; exact h.layers_enough
  have hside := AbsorbingProblem.side h hp hcs
  obtain ⟨ph, hph⟩ := phi_real h.toRealIllumination
  have hi := RealIncidence.of_spec h.toRealIllumination
  have hnb : s.p.n_bot = ((s.p.n_bot.re : ℝ) : ℂ) := Complex.ext rfl h.n_bot_real
  have hx := kxF_eq_kxOf h.toRealIllumination
  have hy := kyF_eq_kyOf h.toRealIllumination
  rcases gratingType_le s with hg | hg | hg
  · obtain ⟨u, hu, -, hpol, hphi, hf⟩ := gratingType_zero hg
    have : ∃ o, solve_1d la s.p s.p.wavelength (cs.map Conv.row) = .ok o := by
      refine solve_1d_absorbing hp hphi hi hnb hpol h.wavelength_pos h.thickness_pos h.thickness_some (by simpa using hlen) ?_ ?_
      · intro c hc
        obtain ⟨c', hc', rfl⟩ := List.mem_map.mp hc
        exact (hside c' hc').row hf
      · intro x hx'
        have := mem_zip_take hx'
        rw [← List.map_take] at this
        obtain ⟨c, hc, e⟩ := List.mem_map.mp this
        obtain ⟨m0, m1, -, -⟩ := hm c hc
        rw [← e, eig_unit_iff hb]
        rcases hpol with hpol | hpol
        · rw [hpol, eigMat_te hf, diagonalisable_reindex_iff, hx]
          exact m0 hg hpol
        · rw [hpol, eigMat_tm hf, diagonalisable_reindex_iff, hx]
          exact m1 hg hpol
    obtain ⟨o, ho⟩ := this
    exact ⟨_, conv_solve_tetm.mpr ⟨cs, hcs, hg, ha, ho⟩⟩
  · obtain ⟨u, hu, hny, -⟩ := gratingType_one hg
    have hf := h.orders hg
    have hv : ∃ v, varphiAll (kxF s.p s.p.wavelength) (kyF s.p s.p.wavelength) = .ok v := by
      refine varphiAll_exists ?_
      rw [normal_iff h.theta_hi]
      exact h.not_normal.resolve_left (by omega)
    have hz := convMats_epzi_epy hp hu (fun l hl i i' j => by
      have : i = i' := by apply Fin.ext; have := i.isLt; have := i'.isLt; omega
      rw [this]) hcs hf
    obtain ⟨o, ho⟩ := solve_con_absorbing (la := la) hp hph hi hnb h.wavelength_pos h.thickness_pos h.thickness_some hlen hv hf hside hz
      (fun x hx' => by
        obtain ⟨-, -, m2, -⟩ := hm x.1 (mem_zip_take hx')
        rw [eig_unit_iff hb, diag_add_sub, hx, hy]
        exact (m2 hg).1)
      (fun x hx' => by
        obtain ⟨-, -, m2, -⟩ := hm x.1 (mem_zip_take hx')
        rw [eig_unit_iff hb, diag_sq, hx, hy]
        exact (m2 hg).2)
    exact ⟨_, conv_solve_conical.mpr ⟨cs, hcs, hg, ha, ho⟩⟩
  · have hv : ∃ v, varphiAll (kxF s.p s.p.wavelength) (kyF s.p s.p.wavelength) = .ok v := by
      refine varphiAll_exists ?_
      rw [normal_iff h.theta_hi]
      exact h.not_normal.resolve_left (by omega)
    obtain ⟨o, ho⟩ := solve_2d_absorbing (la := la) hp hph hi hnb h.wavelength_pos h.thickness_pos h.thickness_some hlen hv hside
      (fun x hx' => by
        obtain ⟨-, -, -, m3⟩ := hm x.1 (mem_zip_take hx')
        rw [eig_unit_iff hb, omega_spec, hx, hy]
        exact m3 hg)
    exact ⟨_, conv_solve_twoD.mpr ⟨cs, hcs, hg, ha, ho⟩⟩

theorem solves_modes {la : LinAlg} {s : Settings} (hp : s.p.use_pinv = false) (ha : s.algo = .tmm)
    (h : Spec.RealIllumination s.p) {cs : List (Conv (FlatIdx s.p.fto.1 s.p.fto.2))} (hcs : convMats la s = .ok cs)
    {sol : Solved s.p.fto.1 s.p.fto.2} (hs : conv_solve la s = .ok sol) :
    ∀ c ∈ cs.take s.p.thickness.length, Spec.LayerHasModes s c := by
  have hx := kxF_eq_kxOf h
  have hy := kyF_eq_kyOf h
  have hd : ∀ {n : Type} [Fintype n] [DecidableEq n] {A : Matrix n n ℂ}, IsUnit (la.eig A).2.det → Spec.Diagonalisable A :=
    fun h => ⟨_, _, h, la.eig_law _⟩
  intro c hc
  cases sol with
  | tetm o =>
    obtain ⟨cs', h1, hg, -, h4⟩ := conv_solve_tetm.mp hs
    rw [hcs] at h1; cases h1
    obtain ⟨u, hu, -, hpol, hphi, hf⟩ := gratingType_zero hg
    obtain ⟨hl, init, r, x, hi, hr, hx4, rfl⟩ := (solve_1d_iff hp).mp h4
    have hc' : c.row ∈ (cs.map Conv.row).take s.p.thickness.length := by
      rw [← List.map_take]; exact List.mem_map.mpr ⟨c, hc, rfl⟩
    obtain ⟨d, hz⟩ := mem_take_zip hl hc'
    obtain ⟨a, b, hab⟩ := runLayers_steps hr _ hz
    have := hd (eig_step1d hp hab)
    refine ⟨fun _ h0 => ?_, fun _ h0 => ?_, fun h0 => by omega, fun h0 => by omega⟩
    · rw [h0] at this
      simp only [eigMat_te hf, diagonalisable_reindex_iff, hx] at this
      exact this
    · rw [h0] at this
      simp only [eigMat_tm hf, diagonalisable_reindex_iff, hx] at this
      exact this
  | conical o =>
    obtain ⟨cs', h1, hg, -, h4⟩ := conv_solve_conical.mp hs
    rw [hcs] at h1; cases h1
    obtain ⟨hl, hf, init, r, x, hi, hr, hx4, rfl⟩ := (solve_con_iff hp).mp h4
    obtain ⟨d, hz⟩ := mem_take_zip hl hc
    obtain ⟨a, b, hab⟩ := runLayers_steps hr _ hz
    obtain ⟨e1, e2⟩ := eig_stepCon hab
    have e1 := hd e1
    have e2 := hd e2
    simp only [diag_add_sub, hx, hy] at e1
    simp only [diag_sq, hx, hy] at e2
    exact ⟨fun h0 => by omega, fun h0 => by omega, fun _ => ⟨e1, e2⟩, fun h0 => by omega⟩
  | twoD o =>
    obtain ⟨cs', h1, hg, -, h4⟩ := conv_solve_twoD.mp hs
    rw [hcs] at h1; cases h1
    obtain ⟨hl, init, r, x, hi, hr, hx4, rfl⟩ := (solve_2d_iff hp).mp h4
    obtain ⟨d, hz⟩ := mem_take_zip hl hc
    obtain ⟨a, b, hab⟩ := runLayers_steps hr _ hz
    have e1 := hd (eig_step2d hab)
    simp only [omega_spec, hx, hy] at e1
    exact ⟨fun h0 => by omega, fun h0 => by omega, fun h0 => by omega, fun _ => e1⟩
  | conicalSmm =>
    exfalso
    obtain ⟨cs', h1, h2⟩ := conv_solve_ok.mp hs
    unfold solve_for_conv at h2
    rw [ha] at h2
    rcases gratingType_le s with hg | hg | hg <;> simp [hg, Except.bind_ok] at h2

end Meent
