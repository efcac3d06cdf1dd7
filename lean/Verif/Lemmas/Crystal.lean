import Verif.Lemmas.ThinFilm
import Verif.Lemmas.TorchAniso
import Verif.Spec.Crystal

/-!
# Birefringent films (helper lemmas)
-/

open Matrix

namespace Meent

set_option linter.unusedSimpArgs false
set_option linter.unusedVariables false

theorem crystal_maxwell {m : Type} [Fintype m] [DecidableEq m] {k0 : ℝ} {kx ky : m → ℂ} {ex ey ez c s κ : ℂ} {D : Set ℝ} {f : Spec.OrderFields m}
    (h : Spec.Maxwell k0 kx ky ⟨ex • 1, ey • 1, ez • 1⟩ D f) {i : m} (hx : kx i = κ * c) (hy : ky i = κ * s)
    (hcs : c ^ 2 + s ^ 2 = 1) (ha : s * ex = s * ey) :
    (∀ t ∈ D, HasDerivWithinAt (fun t => (f.tan t i).sE c s) (-(Complex.I * k0 * 1 * (f.tan t i).sH c s)) D t) ∧
    (∀ t ∈ D, HasDerivWithinAt (fun t => (f.tan t i).sH c s) (-(Complex.I * k0 * (ey - κ ^ 2) * (f.tan t i).sE c s)) D t) ∧
    (∀ t ∈ D, HasDerivWithinAt (fun t => (f.tan t i).pH c s) (-(Complex.I * k0 * ex * (f.tan t i).pE c s)) D t) ∧
    (∀ t ∈ D, HasDerivWithinAt (fun t => (f.tan t i).pE c s) (-(Complex.I * k0 * (1 - κ ^ 2 * ez) * (f.tan t i).pH c s)) D t) := by
  obtain ⟨zEx, zEy, zHx, zHy, h1, h2, h3, h4, h5⟩ := h
  have key : ∀ t ∈ D, _ := fun t ht => h5 t ht
  simp only [Spec.Tangential.sE, Spec.Tangential.sH, Spec.Tangential.pH, Spec.Tangential.pE, Spec.OrderFields.tan]
  refine ⟨fun t ht => ?_, fun t ht => ?_, fun t ht => ?_, fun t ht => ?_⟩ <;>
    obtain ⟨e1, e2, e3, e4, e5, e6⟩ := key t ht <;>
    have e1 := congrFun e1 i <;> have e2 := congrFun e2 i <;> have e3 := congrFun e3 i <;> have e4 := congrFun e4 i <;>
    have e5 := congrFun e5 i <;> have e6 := congrFun e6 i <;>
    simp only [Pi.sub_apply, Pi.smul_apply, smul_eq_mul, smul_mulVec, one_mulVec, hx, hy] at e1 e2 e3 e4 e5 e6
  · refine (((h1 t ht i).const_mul (-s)).add ((h2 t ht i).const_mul c)).congr_deriv ?_
    linear_combination s * e2 + c * e1
  · refine (((h3 t ht i).const_mul c).add ((h4 t ht i).const_mul s)).congr_deriv ?_
    linear_combination (-c) * e5 + s * e4 + κ * (c ^ 2 + s ^ 2) * e3 + (Complex.I * k0 * κ ^ 2 * (c * f.Ey t i - s * f.Ex t i)) * hcs
      + Complex.I * k0 * f.Ex t i * ha
  · refine (((h3 t ht i).const_mul (-s)).add ((h4 t ht i).const_mul c)).congr_deriv ?_
    linear_combination s * e5 + c * e4 - Complex.I * k0 * f.Ey t i * ha
  · refine ((((h1 t ht i).const_mul c).add ((h2 t ht i).const_mul s)).neg).congr_deriv ?_
    linear_combination c * e2 - s * e1 + κ * (c ^ 2 + s ^ 2) * e6 + (Complex.I * k0 * κ ^ 2 * ez * (c * f.Hy t i - s * f.Hx t i)) * hcs

/-- The convolution matrices of a birefringent film. -/
noncomputable def crystalConv (m : Type) [DecidableEq m] (f : Spec.Crystal) : Conv m := ⟨f.nx ^ 2 • 1, f.ny ^ 2 • 1, (f.nz ^ 2)⁻¹ • 1⟩

theorem crystalConv_row {fx fy : ℕ} (f : Spec.Crystal) : (crystalConv (FlatIdx fx fy) f).row = crystalConv (Fin (2 * fx + 1)) f := by
  have hs : ∀ a : ℂ, (a • (1 : Matrix (FlatIdx fx fy) (FlatIdx fx fy) ℂ)).submatrix rowIdx rowIdx = a • 1 := by
    intro a
    rw [Matrix.submatrix_smul]
    simp only [Pi.smul_apply, submatrix_one _ rowIdx_inj]
  simp only [crystalConv, Conv.row, hs]

theorem zip_crystals {m : Type} [DecidableEq m] (films : List Spec.Crystal) :
    (films.map (crystalConv m)).zip (films.map Spec.Crystal.d) = films.map fun f => (crystalConv m f, f.d) := by
  induction films with
  | nil => rfl
  | cons f films ih => rw [List.map_cons, List.map_cons, List.map_cons, List.zip_cons_cons, ih]

theorem crystals_stack {m : Type} [Fintype m] [DecidableEq m] {k0 : ℝ} {kx ky : m → ℂ} {i : m} {c s κ : ℂ} (hx : kx i = κ * c)
    (hy : ky i = κ * s) (hcs : c ^ 2 + s ^ 2 = 1) {films : List Spec.Crystal} (hf : ∀ f ∈ films, f.Refracts κ)
    (ha : (∀ f ∈ films, f.nx = f.ny) ∨ s = 0) {fs : List (Spec.OrderFields m)}
    {top bottom : m → Spec.Tangential} (h : Spec.SolvesStack k0 kx ky (films.map fun f => (crystalConv m f, f.d)) fs top bottom) :
    ![(top i).sE c s, (top i).sH c s] = Spec.sMatrix k0 films *ᵥ ![(bottom i).sE c s, (bottom i).sH c s] ∧
    ![(top i).pH c s, (top i).pE c s] = Spec.pMatrix k0 films *ᵥ ![(bottom i).pH c s, (bottom i).pE c s] := by
  induction films generalizing fs top with
  | nil =>
    cases fs with
    | nil =>
      obtain rfl : top = bottom := h
      simp [Spec.sMatrix, Spec.pMatrix, Spec.stackMatrix]
    | cons f fs => exact h.elim
  | cons f films ih =>
    cases fs with
    | nil => exact h.elim
    | cons g fs =>
      obtain ⟨hM, rfl, h⟩ := h
      obtain ⟨i1, i2⟩ := ih (fun f hf' => hf f (List.mem_cons_of_mem _ hf')) (ha.imp_left fun ha f hf' => ha f (List.mem_cons_of_mem _ hf')) h
      obtain ⟨n1, n2, n3, k1, k2, hs, hp⟩ := hf f List.mem_cons_self
      have hp' : f.kp / f.nx ^ 2 * f.kp = 1 - κ ^ 2 * (f.nz ^ 2)⁻¹ := by rw [← hp]; field_simp; ring
      obtain ⟨m1, m2, m3, m4⟩ := crystal_maxwell hM hx hy hcs (by
        rcases ha with ha | ha
        · rw [ha f List.mem_cons_self]
        · rw [ha, zero_mul, zero_mul])
      obtain ⟨a1, a2⟩ := film_ode (β := f.ks) (Y := f.s.teY) k1 (by simp [Spec.Film.teY, Spec.Crystal.s])
        (by rw [← hs, Spec.Film.teY, Spec.Crystal.s]; ring) m1 m2
      obtain ⟨b1, b2⟩ := film_ode (β := f.kp) (Y := f.p.tmY) (div_ne_zero k2 (pow_ne_zero 2 n1))
        (by rw [Spec.Film.tmY, Spec.Crystal.p]; field_simp) (by rw [← hp', Spec.Film.tmY, Spec.Crystal.p]; ring) m3 m4
      have hst : Spec.sMatrix k0 (f :: films) = Spec.filmMatrix k0 Spec.Film.teY f.s * Spec.sMatrix k0 films := by
        simp [Spec.sMatrix, Spec.stackMatrix]
      have hpt : Spec.pMatrix k0 (f :: films) = Spec.filmMatrix k0 Spec.Film.tmY f.p * Spec.pMatrix k0 films := by
        simp [Spec.pMatrix, Spec.stackMatrix]
      rw [hst, hpt, ← mulVec_mulVec, ← mulVec_mulVec, ← i1, ← i2]
      have q1 : f.s.kz = f.ks := rfl
      have q2 : f.s.d = f.d := rfl
      have q3 : f.p.kz = f.kp := rfl
      have q4 : f.p.d = f.d := rfl
      constructor
      · ext k
        fin_cases k <;> simp [Spec.filmMatrix, mulVec, dotProduct, Fin.sum_univ_two, a1, a2, q1, q2]
      · ext k
        fin_cases k <;> simp [Spec.filmMatrix, mulVec, dotProduct, Fin.sum_univ_two, b1, b2, q3, q4]

/-! ### The convolution matrices -/

theorem mapM_of_forall {α β γ : Type} {g : α → Res γ} {k : β → γ} {R : α → β → Prop} (h : ∀ a b, R a b → g a = .ok (k b)) {l : List α}
    {l' : List β} (hl : List.Forall₂ R l l') : l.mapM g = .ok (l'.map k) := by
  induction hl with
  | nil => rfl
  | cons hab _ ih => rw [List.mapM_cons, h _ _ hab, ih]; rfl

theorem convRaster_const (la : LinAlg) {ny nx : ℕ} (hy : 0 < ny) (hx : 0 < nx) (fx fy : ℕ) (pinv : Bool) {n : ℂ} (hn : n ≠ 0) :
    convRasterContinuous la ⟨ny, nx, fun _ _ => n⟩ fx fy pinv = .ok (Spec.scalarConv fx fy n) := by
  have := C18_homogeneous_continuous la ny nx hy hx [n] (by simpa using hn) fx fy pinv
  unfold to_conv_mat_raster_continuous at this
  rw [mapM_ok] at this
  simp only [Ucell.rasters, Spec.homogeneousRaster, List.map_cons, List.map_nil] at this
  cases this with
  | cons h _ => exact h

theorem tConvMats_crystals (la : LinAlg) {s : TSettings} {films : List Spec.Crystal} {c₂ : ℂ} (h : Spec.CrystalProblem s films c₂) :
    tConvMats la s = .ok (films.map (crystalConv _)) := by
  obtain ⟨u, hu, hy, hx, hl⟩ := h.cell
  have hn : ∀ f ∈ films, f.nx ≠ 0 ∧ f.ny ≠ 0 ∧ f.nz ≠ 0 := fun f hf =>
    ⟨(h.refracts f hf).nx_ne, (h.refracts f hf).ny_ne, (h.refracts f hf).nz_ne⟩
  have hl' : List.Forall₂ (fun (l : Fin 3 → Fin u.ny → Fin u.nx → ℂ) f => (l 0 = fun _ _ => f.nx) ∧ (l 1 = fun _ _ => f.ny) ∧
      (l 2 = fun _ _ => f.nz) ∧ f.nx ≠ 0 ∧ f.ny ≠ 0 ∧ f.nz ≠ 0) u.layers films := by
    generalize u.layers = ls at hl
    clear h hu
    induction hl with
    | nil => exact .nil
    | cons hab _ ih =>
      refine .cons ?_ (ih fun f hf => hn f (List.mem_cons_of_mem _ hf))
      exact ⟨funext fun i => funext fun j => (hab i j).1, funext fun i => funext fun j => (hab i j).2.1,
        funext fun i => funext fun j => (hab i j).2.2, hn _ List.mem_cons_self⟩
  unfold tConvMats
  simp only [hu, TStructure.components]
  rcases h.coefficients with hf | hf
  · simp only [hf, if_true, mapM_map']
    refine mapM_of_forall (fun l f hlf => ?_) hl'
    obtain ⟨e0, e1, e2, n0, n1, n2⟩ := hlf
    simp only [e0, e1, e2]
    rw [tConvDiscrete_of (convDiscrete_const la hy hx _ _ _ _ n0) (convDiscrete_const la hy hx _ _ _ _ n1) (convDiscrete_const la hy hx _ _ _ _ n2)]
    rfl
  · simp only [hf, one_ne_zero, if_true, if_false, mapM_map']
    refine mapM_of_forall (fun l f hlf => ?_) hl'
    obtain ⟨e0, e1, e2, n0, n1, n2⟩ := hlf
    simp only [e0, e1, e2]
    rw [tConvRaster_of (convRaster_const la hy hx _ _ _ n0) (convRaster_const la hy hx _ _ _ n1) (convRaster_const la hy hx _ _ _ n2)]
    rfl

/-! ### Only the zeroth order carries light -/

theorem solve_1d_zero {la : LinAlg} {p : Params} {cs : List (Conv (Fin (2 * p.fto.1 + 1)))} {o : Out1D (2 * p.fto.1 + 1)}
    (hp : p.use_pinv = false) (hn : p.n_top ≠ 0) (hc : ∀ c ∈ cs, ScalarConv c) (h : solve_1d la p p.wavelength cs = .ok o)
    {i : Fin (2 * p.fto.1 + 1)} (hi : i ≠ ctr p.fto.1) :
    (p.pol = 0 → o.res.R_s 0 i = 0 ∧ o.res.T_s 0 i = 0) ∧ (p.pol ≠ 0 → o.res.R_p 0 i = 0 ∧ o.res.T_p 0 i = 0) := by
  have hD : ∀ k : Fin (2 * p.fto.1 + 1), (2 - deltaI0 k : ℂ) ≠ 0 := by
    intro k; unfold deltaI0; split <;> norm_num
  have h0 : ∀ k : Fin (2 * p.fto.1 + 1), (2 - deltaI0 k : ℂ) * deltaI0 k = deltaI0 k := by
    intro k; unfold deltaI0; split <;> norm_num
  obtain ⟨o', ho', hS⟩ := solve_1d_gauge hp hD h0 h
  have hcs : cs.map (Conv.gauge fun k => 2 - deltaI0 k) = cs := by
    conv_rhs => rw [← List.map_id cs]
    exact List.map_congr_left fun c hcm => (hc c hcm).gauge hD
  rw [hcs] at ho'
  have hu := ((solve_1d_bvp hp hn ho').2 o.res).mp (((solve_1d_bvp hp hn h).2 o.res).mpr (by split_ifs <;> exact ⟨rfl, rfl⟩))
  have hd : (deltaI0 i : ℂ) = 0 := by
    unfold deltaI0
    rw [if_neg]
    intro e
    apply hi
    apply Fin.ext
    rw [e]
    simp [ctr]
    omega
  have hz : ∀ z : ℂ, z = (2 - 0) * z → z = 0 := fun z hz => by linear_combination -hz
  have k1 := hS.R_s 0 i; have k2 := hS.R_p 0 i; have k3 := hS.T_s 0 i; have k4 := hS.T_p 0 i
  simp only [hd] at k1 k2 k3 k4
  constructor
  · intro hpol
    rw [if_pos hpol] at hu
    rw [← hu.1] at k1; rw [← hu.2] at k3
    exact ⟨hz _ k1, hz _ k3⟩
  · intro hpol
    rw [if_neg hpol] at hu
    rw [← hu.1] at k2; rw [← hu.2] at k4
    exact ⟨hz _ k2, hz _ k4⟩

theorem solve_2d_zero {la : LinAlg} {p : Params} {cs : List (Conv (FlatIdx p.fto.1 p.fto.2))} {o : Out2D p.fto.1 p.fto.2}
    (hp : p.use_pinv = false) (hn : p.n_top ≠ 0) (hc : ∀ c ∈ cs, ScalarConv c) (h : solve_2d la p p.wavelength cs = .ok o)
    {x} (hx : x = o.out.res ∨ x = o.out.res_te ∨ x = o.out.res_tm) {j i}
    (hji : deltaI0 (finProdFinEquiv (j, i) : FlatIdx p.fto.1 p.fto.2) = 0) :
    x.R_s j i = 0 ∧ x.R_p j i = 0 ∧ x.T_s j i = 0 ∧ x.T_p j i = 0 := by
  have hD : ∀ k : FlatIdx p.fto.1 p.fto.2, (2 - deltaI0 k : ℂ) ≠ 0 := by
    intro k; unfold deltaI0; split <;> norm_num
  have h0 : ∀ k : FlatIdx p.fto.1 p.fto.2, (2 - deltaI0 k : ℂ) * deltaI0 k = deltaI0 k := by
    intro k; unfold deltaI0; split <;> norm_num
  obtain ⟨o', ho', hS1, hS2, hS3⟩ := solve_2d_gauge hp hD h0 h
  have hcs : cs.map (Conv.gauge fun k => 2 - deltaI0 k) = cs := by
    conv_rhs => rw [← List.map_id cs]
    exact List.map_congr_left fun c hcm => (hc c hcm).gauge hD
  rw [hcs] at ho'
  have a := (solve_2d_bvp hp hn h).2
  have b := (solve_2d_bvp hp hn ho').2
  simp only [Spec.selectedInputs, if_true, List.cons_append, List.nil_append, List.mem_cons, List.not_mem_nil, or_false,
    forall_eq_or_imp, forall_eq] at a b
  have same : ∀ {r r' : SubRes (2 * p.fto.2 + 1) (2 * p.fto.1 + 1)} {ψ : ℂ},
      (∀ r₁, (∃ fs, Spec.Diffraction p cs ψ r₁ fs) ↔ Spec.SameAmplitudes r₁ r) →
      (∀ r₁, (∃ fs, Spec.Diffraction p cs ψ r₁ fs) ↔ Spec.SameAmplitudes r₁ r') → Spec.SameAmplitudes r r' :=
    fun ha hb => (hb _).mp ((ha _).mpr ⟨rfl, rfl, rfl, rfl⟩)
  have key : x.Scaled (fun j i => (2 - deltaI0 (finProdFinEquiv (j, i) : FlatIdx p.fto.1 p.fto.2) : ℂ)) x := by
    have fin : ∀ {r r' : SubRes (2 * p.fto.2 + 1) (2 * p.fto.1 + 1)},
        r.Scaled (fun j i => (2 - deltaI0 (finProdFinEquiv (j, i) : FlatIdx p.fto.1 p.fto.2) : ℂ)) r' → Spec.SameAmplitudes r r' →
        r.Scaled (fun j i => (2 - deltaI0 (finProdFinEquiv (j, i) : FlatIdx p.fto.1 p.fto.2) : ℂ)) r := by
      rintro r r' ⟨s1, s2, s3, s4⟩ ⟨e1, e2, e3, e4⟩
      rw [← e1] at s1; rw [← e2] at s2; rw [← e3] at s3; rw [← e4] at s4
      exact ⟨s1, s2, s3, s4⟩
    rcases hx with rfl | rfl | rfl
    · exact fin hS1 (same a.1 b.1)
    · exact fin hS2 (same a.2.1 b.2.1)
    · exact fin hS3 (same a.2.2 b.2.2)
  have hz : ∀ z : ℂ, z = (2 - 0) * z → z = 0 := fun z hz => by linear_combination -hz
  have k1 := key.R_s j i; have k2 := key.R_p j i; have k3 := key.T_s j i; have k4 := key.T_p j i
  simp only [hji] at k1 k2 k3 k4
  exact ⟨hz _ k1, hz _ k2, hz _ k3, hz _ k4⟩

end Meent
