import Verif.Lemmas.FieldMoved
import Verif.Lemmas.Tile
import Verif.Lemmas.Image

/-!
# Fields of cells with several periods (helper lemmas)
-/

open Matrix

namespace Meent

set_option linter.unusedSectionVars false
set_option linter.unusedSimpArgs false
set_option linter.unusedVariables false

theorem diffraction_same {p : Params} {cs : List (Conv (FlatIdx p.fto.1 p.fto.2))} {ψ : ℂ} {r r' : SubRes (2 * p.fto.2 + 1) (2 * p.fto.1 + 1)} {fs}
    (e : Spec.SameAmplitudes r r') (h : Spec.Diffraction p cs ψ r fs) : Spec.Diffraction p cs ψ r' fs := by
  obtain ⟨e1, e2, e3, e4⟩ := e
  unfold Spec.Diffraction Spec.above Spec.below at h ⊢
  rw [← e1, ← e2, ← e3, ← e4]
  exact h

theorem diffraction1d_same {p : Params} {cs : List (Conv (Fin (2 * p.fto.1 + 1)))} {r r' : SubRes 1 (2 * p.fto.1 + 1)} {fs}
    (e : if p.pol = 0 then r.R_s = r'.R_s ∧ r.T_s = r'.T_s else r.R_p = r'.R_p ∧ r.T_p = r'.T_p) (h : Spec.Diffraction1d p cs r fs) :
    Spec.Diffraction1d p cs r' fs := by
  unfold Spec.Diffraction1d Spec.above1d Spec.below1d at h ⊢
  split_ifs at e h ⊢ <;> rw [← e.1, ← e.2] <;> exact h

theorem problem_vector {p : Params} {cs : List (Conv (FlatIdx p.fto.1 p.fto.2))} {sol : Solved p.fto.1 p.fto.2} {y te tm} {F G H : Spec.FieldFn Field6}
    (er : sol.result = ⟨some y, some te, some tm⟩) (h1 : WaveField p cs p.psi y F) (h2 : WaveField p cs ((Real.pi / 2 : ℝ) : ℂ) te G)
    (h3 : WaveField p cs 0 tm H) : ProblemFields p cs sol (.vector F G H) := by
  cases sol with
  | tetm o => cases congrArg Result.res_te_inc er
  | conicalSmm => cases congrArg Result.res er
  | conical o =>
    have e1 : o.out.res = y := Option.some.inj (congrArg Result.res er)
    have e2 : o.out.res_te = te := Option.some.inj (congrArg Result.res_te_inc er)
    have e3 : o.out.res_tm = tm := Option.some.inj (congrArg Result.res_tm_inc er)
    subst e1 e2 e3
    exact ⟨h1, h2, h3⟩
  | twoD o =>
    have e1 : o.out.res = y := Option.some.inj (congrArg Result.res er)
    have e2 : o.out.res_te = te := Option.some.inj (congrArg Result.res_te_inc er)
    have e3 : o.out.res_tm = tm := Option.some.inj (congrArg Result.res_tm_inc er)
    subst e1 e2 e3
    exact ⟨h1, h2, h3⟩

theorem stackFn_place {m m' : Type} [Fintype m] [Fintype m'] [DecidableEq m] [DecidableEq m'] {J : m → m'} (hJ : Function.Injective J) {k0 : ℝ}
    {kx ky : m → ℂ} {kx' ky' : m' → ℂ} (hx : ∀ i, kx' (J i) = kx i) (hy : ∀ i, ky' (J i) = ky i) (ds : List ℝ) (fs : List (Spec.OrderFields m)) :
    stackFn k0 kx' ky' ds (fs.map (placeF J)) = stackFn k0 kx ky ds fs := by
  funext k z y x
  unfold stackFn
  rw [List.getElem?_map]
  cases fs[k]? with
  | none => rfl
  | some f =>
    cases ds[k]? with
    | none => rfl
    | some d =>
      simp only [Option.map_some]
      unfold Spec.OrderFields.at placeF
      simp only [sum_place hJ, hx, hy]

section
variable {p : Params} {tx ty : ℕ} {fto' : ℕ × ℕ} {hx : Spec.SameOrders tx p.fto.1 fto'.1} {hy : Spec.SameOrders ty p.fto.2 fto'.2}

theorem wave_tile (htx : 0 < tx) (hty : 0 < ty) {cs : List (Conv (FlatIdx p.fto.1 p.fto.2))} {cs' : List (Conv (FlatIdx fto'.1 fto'.2))}
    (hc : List.Forall₂ (ConvEmb (tileFlat hx hy)) cs' cs) {ψ : ℂ} {r : SubRes (2 * p.fto.2 + 1) (2 * p.fto.1 + 1)}
    {r1 : SubRes (2 * fto'.2 + 1) (2 * fto'.1 + 1)} {fs} (h : Spec.Diffraction p cs ψ r fs)
    (hq : ∀ r, (∃ fs, Spec.Diffraction (tileP p tx ty fto') cs' ψ r fs) → Spec.SameAmplitudes r r1) :
    WaveField (tileP p tx ty fto') cs' ψ r1
      (stackFn (Spec.k0Of p) (fun i => kxVec p p.wavelength i.modNat) (fun i => kyVec p p.wavelength i.divNat) p.thickness fs) := by
  obtain ⟨r', hd', -⟩ := tile_core htx hty hc h
  refine ⟨_, diffraction_same (hq r' ⟨_, hd'⟩) hd', ?_⟩
  symm
  refine stackFn_place (tileFlat_inj htx hty) (fun i => ?_) (fun i => ?_) _ _
  · unfold tileFlat
    rw [modNat_prod]
    exact kx_tile htx (tileIdx_order _)
  · unfold tileFlat
    rw [divNat_prod]
    exact ky_tile hty (tileIdx_order _)

theorem tetm_tile_fields (htx : 0 < tx) {cs : List (Conv (Fin (2 * p.fto.1 + 1)))} {cs' : List (Conv (Fin (2 * fto'.1 + 1)))}
    (hc : List.Forall₂ (ConvEmb (tileIdx tx _ _ hx)) cs' cs) {r : SubRes 1 (2 * p.fto.1 + 1)} {r1 : SubRes 1 (2 * fto'.1 + 1)} {fs}
    (h : Spec.Diffraction1d p cs r fs) (hq : ∀ r, (∃ fs, Spec.Diffraction1d (tileP p tx ty fto') cs' r fs) →
      if p.pol = 0 then r.R_s = r1.R_s ∧ r.T_s = r1.T_s else r.R_p = r1.R_p ∧ r.T_p = r1.T_p) :
    ∃ fs', Spec.Diffraction1d (tileP p tx ty fto') cs' r1 fs' ∧
      stackFn (Spec.k0Of p) (kxVec p p.wavelength) 0 p.thickness fs
        = stackFn (Spec.k0Of (tileP p tx ty fto')) (kxVec (tileP p tx ty fto') p.wavelength) 0 p.thickness fs' := by
  obtain ⟨r', hd', -⟩ := tile_core1 (ty := ty) htx hc h
  refine ⟨_, diffraction1d_same (hq r' ⟨_, hd'⟩) hd', ?_⟩
  symm
  exact stackFn_place (tileIdx_inj htx) (fun i => kx_tile htx (tileIdx_order _)) (fun _ => rfl) _ _
end

end Meent
