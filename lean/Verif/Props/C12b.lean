import Verif.Lemmas.PhiRuns
import Verif.Props.C04
import Verif.Props.C12
import Verif.Spec.Normal

/-!
# C12: when `phi=None` and `phi=0` can both be solved
-/

open Matrix

namespace Meent

/-- The same settings with another `pol`. -/
abbrev Spec.withPol (s : Settings) (pol : ℝ) : Settings := { s with p := { s.p with pol := pol } }

theorem kx_ne_iff {p : Params} (hf : p.fto.2 = 0) (hphi : p.phi = none) (ht : p.theta.re < Real.pi / 2) :
    (∀ i, kxVec p p.wavelength i ≠ 0) ↔ ¬ Spec.SomeAlongNormal (p.withPhi (some 0)) := by
  rw [← normal_iff (p := p.withPhi (some 0)) ht]
  have hkx : kxF (p.withPhi (some 0)) p.wavelength = (tileX (kxVec p p.wavelength) : FlatIdx p.fto.1 p.fto.2 → ℂ) := by
    show tileX (kxVec (p.withPhi (some 0)) p.wavelength) = _
    rw [kxVec_zero hphi]
  have hky := kyF_zero (p := p) hf p.wavelength
  constructor
  · rintro h ⟨i, hi, -⟩
    obtain ⟨k, rfl⟩ := (rowEquiv hf).surjective i
    have h2 := (congrFun hkx _).symm.trans hi
    rw [rowEquiv_apply, tileX_row] at h2
    exact h k h2
  · intro h i hi
    refine h ⟨rowIdx i, ?_, congrFun hky _⟩
    refine (congrFun hkx _).trans ?_
    rw [tileX_row]
    exact hi

/-- A result at `phi=0` needs no order along the normal, and brings a result for `phi=None`. -/
theorem zero_to_none {la la' : LinAlg} (hb' : Spec.ReturnsBasis la') {s : Settings}
    (hp : s.p.use_pinv = false) {u : Ucell} (hu : s.ucell = .raster u) (hny : u.ny = 1) (hf : s.p.fto.2 = 0)
    (ha : s.algo = .tmm) {sol : Solved s.p.fto.1 s.p.fto.2} (h : conv_solve la (Spec.withPhi s (some 0)) = .ok sol)
    {pol : ℝ} (hpol : pol = 0 ∨ pol = 1) :
    (∀ i, kxVec (s.p.withPhi none) s.p.wavelength i ≠ 0) ∧
    ∃ sol' : Solved s.p.fto.1 s.p.fto.2, conv_solve la' (Spec.withPol (Spec.withPhi s none) pol) = .ok sol' := by
  have hg : gratingType (Spec.withPol (Spec.withPhi s none) pol) = 0 := by
    simp [gratingType, hu, hny, hpol, hf]
  have hg' : gratingType (Spec.withPhi s (some 0)) = 1 := by simp [gratingType, hu, hny]
  have hc : convMats la' (Spec.withPol (Spec.withPhi s none) pol) = convMats la (Spec.withPhi s (some 0)) :=
    (convMats_la la' la (s := Spec.withPol (Spec.withPhi s none) pol) hp).trans rfl
  rcases conv_solve_cases h with ⟨h1, -⟩ | ⟨-, ⟨o, rfl⟩ | rfl⟩ | ⟨h1, -⟩
  · rw [hg'] at h1; cases h1
  · obtain ⟨cs, h1, -, -, h4⟩ := conv_solve_conical.mp h
    obtain ⟨hk, o', ho'⟩ := phi_zero_down (la' := la') (p := s.p.withPhi none) hf hp rfl hpol hb' h4
    exact ⟨hk, _, conv_solve_tetm.mpr ⟨cs, hc.trans h1, hg, ha, ho'⟩⟩
  · have := (solve_for_conv_smm.mp (conv_solve_ok.mp h).choose_spec.2).2
    simp only [ha] at this
    cases this
  · rw [hg'] at h1; cases h1

/-- **C12, when both can be solved.** A one-row raster with `fto[1] = 0`: `phi=0` can be solved exactly if `phi=None`
can be solved for TE and for TM and none of the orders kept in the calculation leaves along the surface normal.  The
two calculations may use different eigensolvers, as long as these return independent eigenvectors where there are any. -/
theorem C12_success (la la' : LinAlg) (hb : Spec.ReturnsBasis la) (hb' : Spec.ReturnsBasis la') (s : Settings)
    (hp : s.p.use_pinv = false) (u : Ucell) (hu : s.ucell = .raster u) (hny : u.ny = 1) (hf : s.p.fto.2 = 0)
    (ha : s.algo = .tmm) (ht : s.p.theta.re < Real.pi / 2) :
    (∃ sol, conv_solve la (Spec.withPhi s (some 0)) = .ok sol) ↔
      ¬ Spec.SomeAlongNormal (Spec.withPhi s (some 0)).p ∧
      (∃ sol, conv_solve la' (Spec.withPol (Spec.withPhi s none) 0) = .ok sol) ∧
      (∃ sol, conv_solve la' (Spec.withPol (Spec.withPhi s none) 1) = .ok sol) := by
  have hg : ∀ pol, pol = 0 ∨ pol = 1 → gratingType (Spec.withPol (Spec.withPhi s none) pol) = 0 := by
    intro pol hpol
    simp [gratingType, hu, hny, hpol, hf]
  have hg' : gratingType (Spec.withPhi s (some 0)) = 1 := by simp [gratingType, hu, hny]
  have hc : ∀ pol, convMats la' (Spec.withPol (Spec.withPhi s none) pol) = convMats la (Spec.withPhi s (some 0)) := fun pol =>
    (convMats_la la' la (s := Spec.withPol (Spec.withPhi s none) pol) hp).trans rfl
  have hk := kx_ne_iff (p := s.p.withPhi none) hf rfl ht
  constructor
  · rintro ⟨sol, h⟩
    have hd := fun pol (hpol : pol = 0 ∨ pol = 1) => zero_to_none hb' hp hu hny hf ha h hpol
    exact ⟨hk.mp (hd 0 (Or.inl rfl)).1, (hd 0 (Or.inl rfl)).2, (hd 1 (Or.inr rfl)).2⟩
  · rintro ⟨hn, ⟨sol, h⟩, ⟨sol', h'⟩⟩
    have ht : ∀ pol (hpol : pol = 0 ∨ pol = 1) sol, conv_solve la' (Spec.withPol (Spec.withPhi s none) pol) = .ok sol →
        ∃ o cs, convMats la (Spec.withPhi s (some 0)) = .ok cs ∧
          solve_1d la' ((s.p.withPhi none).withPol pol) s.p.wavelength (cs.map Conv.row) = .ok o := by
      intro pol hpol sol h
      rcases conv_solve_cases h with ⟨-, o, rfl⟩ | ⟨h1, -⟩ | ⟨h1, -⟩
      · obtain ⟨cs, h1, -, -, h4⟩ := conv_solve_tetm.mp h
        exact ⟨o, cs, (hc pol).symm.trans h1, h4⟩
      · rw [hg pol hpol] at h1; cases h1
      · rw [hg pol hpol] at h1; cases h1
    obtain ⟨o, cs, e1, e2⟩ := ht 0 (Or.inl rfl) sol h
    obtain ⟨o', cs', e1', e2'⟩ := ht 1 (Or.inr rfl) sol' h'
    obtain rfl := Except.ok.inj (e1.symm.trans e1')
    obtain ⟨q, hq⟩ := phi_zero_up (la := la) (p := s.p.withPhi none) hf hp rfl hb (hk.mpr hn) e2 e2'
    exact ⟨_, conv_solve_conical.mpr ⟨cs, e1, hg', ha, hq⟩⟩

/-- **C12, from the explicit azimuth to none.** If the conical solver gives a result at `phi=0`, then the TE/TM solver
gives a result for `phi=None`, and the six efficiency arrays are the same. -/
theorem C12_from_zero (la la' : LinAlg) (hb' : Spec.ReturnsBasis la') (s : Settings)
    (hp : s.p.use_pinv = false) (u : Ucell) (hu : s.ucell = .raster u) (hny : u.ny = 1) (hf : s.p.fto.2 = 0)
    (hpol : s.p.pol = 0 ∨ s.p.pol = 1) (hpsi : Spec.PsiFollowsPol s) (ha : s.algo = .tmm)
    (hnt : s.p.n_top ≠ 0) (hre : Spec.IsReal s.p.n_top)
    (sol : Solved s.p.fto.1 s.p.fto.2) (h : conv_solve la (Spec.withPhi s (some 0)) = .ok sol) :
    ∃ sol' r r', conv_solve la' (Spec.withPhi s none) = .ok sol' ∧
      sol.result.res = some r ∧ sol'.result.res = some r' ∧ Spec.SameEff r' r := by
  have hs : ∃ sol' : Solved s.p.fto.1 s.p.fto.2, conv_solve la' (Spec.withPhi s none) = .ok sol' :=
    (zero_to_none hb' hp hu hny hf ha h hpol).2
  obtain ⟨sol', h'⟩ := hs
  obtain ⟨r, r', e1, e2, e3⟩ := C12_phi_zero la' la s hp u hu hny hf hpol hpsi ha hnt hre sol' sol h' h
  exact ⟨sol', r', r, h', e2, e1, e3⟩

/-- Non-vacuity: the two-pixel grating at 30°, with both sides of the equivalence true. -/
example : ∃ s : Settings, Spec.ReturnsBasis exLA ∧ s.p.use_pinv = false ∧
    (∃ u, s.ucell = .raster u ∧ u.ny = 1) ∧ s.p.fto.2 = 0 ∧ s.algo = .tmm ∧ s.p.theta.re < Real.pi / 2 ∧
    ∃ sol, conv_solve exLA (Spec.withPhi s (some 0)) = .ok sol := by
  refine ⟨exSettings 0 none, exLA_basis, rfl, ⟨_, rfl, rfl⟩, rfl, rfl, ?_, ?_⟩
  · simp only [exSettings, exParams, Complex.ofReal_re]
    have := Real.pi_pos
    linarith
  · obtain ⟨o, ho⟩ := exCon_ok 0; exact ⟨_, ho⟩

end Meent

#print axioms Meent.C12_success
#print axioms Meent.C12_from_zero
