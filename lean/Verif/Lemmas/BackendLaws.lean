import Verif.Spec.BackendLaws
import Verif.Props.C38
import Verif.Props.C39
import Verif.Props.C51
import Verif.Props.C53
import Verif.Props.C54
import Verif.Props.C69

/-!
# Symmetry laws as relations between results (helper lemmas)
-/

namespace Meent

set_option linter.unusedSimpArgs false
set_option linter.unusedVariables false

/-! ### Only efficiencies matter -/

theorem Spec.SameEff.symm {a b : ℕ} {r r' : SubRes a b} (h : Spec.SameEff r r') : Spec.SameEff r' r :=
  ⟨h.1.symm, h.2.symm, h.3.symm, h.4.symm, h.5.symm, h.6.symm⟩

theorem Spec.SameEff.trans {a b : ℕ} {r r' r'' : SubRes a b} (h : Spec.SameEff r r') (h' : Spec.SameEff r' r'') : Spec.SameEff r r'' :=
  ⟨h'.1.trans h.1, h'.2.trans h.2, h'.3.trans h.3, h'.4.trans h.4, h'.5.trans h.5, h'.6.trans h.6⟩

theorem rel_symm {α : Type} {R : α → α → Prop} (hR : ∀ {a b}, R a b → R b a) {x y : Option α} (h : Option.Rel R x y) : Option.Rel R y x := by
  cases h with
  | some e => exact .some (hR e)
  | none => exact .none

theorem rel_trans {α : Type} {R : α → α → Prop} (hR : ∀ {a b c}, R a b → R b c → R a c) {x y z : Option α} (h : Option.Rel R x y)
    (h' : Option.Rel R y z) : Option.Rel R x z := by
  cases h with
  | some e => cases h' with
    | some e' => exact .some (hR e e')
  | none => exact h'

theorem Spec.SameEfficiencies.symm {fx fy : ℕ} {r r' : Result fx fy} (h : Spec.SameEfficiencies r r') : Spec.SameEfficiencies r' r :=
  ⟨rel_symm (fun a => Spec.SameEff.symm a) h.1, rel_symm (fun a => Spec.SameEff.symm a) h.2.1, rel_symm (fun a => Spec.SameEff.symm a) h.2.2⟩

theorem Spec.SameEfficiencies.trans {fx fy : ℕ} {r r' r'' : Result fx fy} (h : Spec.SameEfficiencies r r') (h' : Spec.SameEfficiencies r' r'') :
    Spec.SameEfficiencies r r'' :=
  ⟨rel_trans (R := Spec.SameEff) (fun a b => Spec.SameEff.trans a b) h.1 h'.1, rel_trans (R := Spec.SameEff) (fun a b => Spec.SameEff.trans a b) h.2.1 h'.2.1, rel_trans (R := Spec.SameEff) (fun a b => Spec.SameEff.trans a b) h.2.2 h'.2.2⟩

theorem Spec.SameEfficiencies.one {fx fy : ℕ} {x : SubRes (2 * fy + 1) (2 * fx + 1)} {r' : Result fx fy}
    (h : Spec.SameEfficiencies ⟨some x, none, none⟩ r') : ∃ x', r' = ⟨some x', none, none⟩ ∧ Spec.SameEff x x' := by
  obtain ⟨a, b, c⟩ := r'
  obtain ⟨h1, h2, h3⟩ := h
  simp only at h1 h2 h3
  cases h1 with
  | some e => cases h2; cases h3; exact ⟨_, rfl, e⟩

theorem Spec.SameEfficiencies.three {fx fy : ℕ} {x y z : SubRes (2 * fy + 1) (2 * fx + 1)} {r' : Result fx fy}
    (h : Spec.SameEfficiencies ⟨some x, some y, some z⟩ r') :
    ∃ x' y' z', r' = ⟨some x', some y', some z'⟩ ∧ Spec.SameEff x x' ∧ Spec.SameEff y y' ∧ Spec.SameEff z z' := by
  obtain ⟨a, b, c⟩ := r'
  obtain ⟨h1, h2, h3⟩ := h
  simp only at h1 h2 h3
  cases h1 with
  | some e1 => cases h2 with
    | some e2 => cases h3 with
      | some e3 => exact ⟨_, _, _, rfl, e1, e2, e3⟩

theorem Spec.ReflectionReciprocity.of_same {fx fy : ℕ} {r₁ r₂ t₁ t₂ : Result fx fy} (h : Spec.ReflectionReciprocity r₁ r₂)
    (h1 : Spec.SameEfficiencies r₁ t₁) (h2 : Spec.SameEfficiencies r₂ t₂) : Spec.ReflectionReciprocity t₁ t₂ := by
  rcases h with ⟨x, x', rfl, rfl, h⟩ | ⟨y, te, tm, y', te', tm', rfl, rfl, h⟩
  · obtain ⟨a, rfl, e⟩ := (Spec.SameEfficiencies.one h1)
    obtain ⟨b, rfl, e'⟩ := (Spec.SameEfficiencies.one h2)
    refine Or.inl ⟨a, b, rfl, rfl, fun j i hj hi => ?_⟩
    rw [e.de_ri_s, e.de_ri_p, e.de_ri, e'.de_ri_s, e'.de_ri_p, e'.de_ri]
    exact h j i hj hi
  · obtain ⟨a1, a2, a3, rfl, -, e2, e3⟩ := (Spec.SameEfficiencies.three h1)
    obtain ⟨b1, b2, b3, rfl, -, e2', e3'⟩ := (Spec.SameEfficiencies.three h2)
    refine Or.inr ⟨_, a2, a3, _, b2, b3, rfl, rfl, fun j i hj hi => ?_⟩
    obtain ⟨g1, g2, g3, g4⟩ := h j i hj hi
    constructor
    · rw [e2.de_ri_s, e2'.de_ri_s]; exact g1
    · rw [e3.de_ri_p, e3'.de_ri_p]; exact g2
    · rw [e2.de_ri_p, e3'.de_ri_s]; exact g3
    · rw [e3.de_ri_s, e2'.de_ri_p]; exact g4

theorem Spec.TransmissionReciprocity.of_same {fx fy : ℕ} {r₁ r₂ t₁ t₂ : Result fx fy} (h : Spec.TransmissionReciprocity r₁ r₂)
    (h1 : Spec.SameEfficiencies r₁ t₁) (h2 : Spec.SameEfficiencies r₂ t₂) : Spec.TransmissionReciprocity t₁ t₂ := by
  rcases h with ⟨x, x', rfl, rfl, h⟩ | ⟨y, te, tm, y', te', tm', rfl, rfl, h⟩
  · obtain ⟨a, rfl, e⟩ := (Spec.SameEfficiencies.one h1)
    obtain ⟨b, rfl, e'⟩ := (Spec.SameEfficiencies.one h2)
    refine Or.inl ⟨a, b, rfl, rfl, fun j i hj hi => ?_⟩
    rw [e.de_ti_s, e.de_ti_p, e.de_ti, e'.de_ti_s, e'.de_ti_p, e'.de_ti]
    exact h j i hj hi
  · obtain ⟨a1, a2, a3, rfl, -, e2, e3⟩ := (Spec.SameEfficiencies.three h1)
    obtain ⟨b1, b2, b3, rfl, -, e2', e3'⟩ := (Spec.SameEfficiencies.three h2)
    refine Or.inr ⟨_, a2, a3, _, b2, b3, rfl, rfl, fun j i hj hi => ?_⟩
    obtain ⟨g1, g2, g3, g4⟩ := h j i hj hi
    constructor
    · rw [e2.de_ti_s, e2'.de_ti_s]; exact g1
    · rw [e3.de_ti_p, e3'.de_ti_p]; exact g2
    · rw [e2.de_ti_p, e3'.de_ti_s]; exact g3
    · rw [e3.de_ti_s, e2'.de_ti_p]; exact g4

theorem Spec.MirrorEff.of_same {a b : ℕ} {mx my : Bool} {x x' y y' : SubRes a b} (h : Spec.MirrorEff mx my x x') (e : Spec.SameEff x y)
    (e' : Spec.SameEff x' y') : Spec.MirrorEff mx my y y' := by
  constructor
  · rw [e.de_ri_s, e'.de_ri_s]; exact h.de_ri_s
  · rw [e.de_ri_p, e'.de_ri_p]; exact h.de_ri_p
  · rw [e.de_ri, e'.de_ri]; exact h.de_ri
  · rw [e.de_ti_s, e'.de_ti_s]; exact h.de_ti_s
  · rw [e.de_ti_p, e'.de_ti_p]; exact h.de_ti_p
  · rw [e.de_ti, e'.de_ti]; exact h.de_ti

theorem Spec.MirrorResults.of_same {fx fy : ℕ} {mx my : Bool} {same : Prop} {r₁ r₂ t₁ t₂ : Result fx fy} (h : Spec.MirrorResults mx my same r₁ r₂)
    (h1 : Spec.SameEfficiencies r₁ t₁) (h2 : Spec.SameEfficiencies r₂ t₂) : Spec.MirrorResults mx my same t₁ t₂ := by
  rcases h with ⟨x, x', rfl, rfl, h⟩ | ⟨y, te, tm, y', te', tm', rfl, rfl, ha, hb, hc⟩
  · obtain ⟨a, rfl, e⟩ := (Spec.SameEfficiencies.one h1)
    obtain ⟨b, rfl, e'⟩ := (Spec.SameEfficiencies.one h2)
    exact Or.inl ⟨a, b, rfl, rfl, h.of_same e e'⟩
  · obtain ⟨a1, a2, a3, rfl, e1, e2, e3⟩ := (Spec.SameEfficiencies.three h1)
    obtain ⟨b1, b2, b3, rfl, e1', e2', e3'⟩ := (Spec.SameEfficiencies.three h2)
    exact Or.inr ⟨_, _, _, _, _, _, rfl, rfl, ha.of_same e2 e2', hb.of_same e3 e3', fun hs => (hc hs).of_same e1 e1'⟩

/-! ### The laws on NumPy -/

theorem gratingType_flipped (s : Settings) (θ' : ℂ) : gratingType (Spec.flipped s θ') = gratingType s := by
  unfold gratingType Spec.flipped
  rcases h : s.ucell with u | ls <;> simp [Spec.reversed]

private theorem tetm_of {la : LinAlg} {s : Settings} {sol : Solved s.p.fto.1 s.p.fto.2} (h : conv_solve la s = .ok sol)
    (hg : gratingType s = 0) : ∃ o, sol = .tetm o := by
  rcases conv_solve_cases h with ⟨-, h1⟩ | ⟨h1, -⟩ | ⟨h1, -⟩
  · exact h1
  · omega
  · omega

private theorem three_of {la : LinAlg} {s : Settings} {sol : Solved s.p.fto.1 s.p.fto.2} (ha : s.algo = .tmm)
    (h : conv_solve la s = .ok sol) (hg : gratingType s ≠ 0) : ∃ y te tm, sol.result = ⟨some y, some te, some tm⟩ := by
  rcases conv_solve_cases h with ⟨h1, -⟩ | ⟨h1, ⟨o, rfl⟩ | rfl⟩ | ⟨h1, o, rfl⟩
  · omega
  · exact ⟨_, _, _, rfl⟩
  · have := (solve_for_conv_smm.mp (conv_solve_ok.mp h).choose_spec.2).2
    rw [ha] at this; cases this
  · exact ⟨_, _, _, rfl⟩

theorem numpy_reflection {la la' : LinAlg} {s : Settings} (hi : Spec.RealIllumination s.p) (hp : s.p.use_pinv = false)
    (ha : s.algo = .tmm) {sol sol' : Solved s.p.fto.1 s.p.fto.2} (h : conv_solve la s = .ok sol)
    (h' : conv_solve la' (Spec.opposite s) = .ok sol') : Spec.ReflectionReciprocity sol.result sol'.result := by
  by_cases hg : gratingType s = 0
  · obtain ⟨o, rfl⟩ := tetm_of h hg
    obtain ⟨o', rfl⟩ := tetm_of (s := Spec.opposite s) h' hg
    have key := C51_reflection_tetm la la' s hi hp o o' h h'
    refine Or.inl ⟨_, _, rfl, rfl, fun j i _ h0 => ?_⟩
    have k := key i h0
    exact ⟨k.de_ri_s, k.de_ri_p, k.de_ri⟩
  · obtain ⟨y, te, tm, e⟩ := three_of ha h hg
    obtain ⟨y', te', tm', e'⟩ := three_of (s := Spec.opposite s) ha h' hg
    obtain ⟨a, b, a', b', e1, e2, e3, e4, key⟩ := C51_reflection la la' s hi hp ha hg sol sol' h h'
    rw [e] at e1 e2
    rw [e'] at e3 e4
    cases e1; cases e2; cases e3; cases e4
    refine Or.inr ⟨_, _, _, _, _, _, e, e', fun j i hj h0 => ?_⟩
    have k := key j i hj h0
    exact ⟨k.de_ss, k.de_pp, k.de_sp, k.de_ps⟩

theorem numpy_transmission {la la' : LinAlg} {s : Settings} {θ' : ℂ} (hi : Spec.RealIllumination s.p)
    (hi' : Spec.RealIllumination (Spec.flipped s θ').p) (hb : Spec.Backwards s θ') (hlen : Spec.layerCount s.ucell = s.p.thickness.length)
    (hp : s.p.use_pinv = false) (ha : s.algo = .tmm) {sol sol' : Solved s.p.fto.1 s.p.fto.2} (h : conv_solve la s = .ok sol)
    (h' : conv_solve la' (Spec.flipped s θ') = .ok sol') : Spec.TransmissionReciprocity sol.result sol'.result := by
  have hgf := gratingType_flipped s θ'
  by_cases hg : gratingType s = 0
  · obtain ⟨o, rfl⟩ := tetm_of h hg
    obtain ⟨o', rfl⟩ := tetm_of (s := Spec.flipped s θ') h' (hgf.trans hg)
    have key := C53_transmission_tetm la la' s θ' hi hi' hb hlen hp o o' h h'
    refine Or.inl ⟨_, _, rfl, rfl, fun j i _ h0 => ?_⟩
    have k := key i h0
    exact ⟨k.de_ti_s, k.de_ti_p, k.de_ti⟩
  · obtain ⟨y, te, tm, e⟩ := three_of ha h hg
    obtain ⟨y', te', tm', e'⟩ := three_of (s := Spec.flipped s θ') ha h' (by rw [hgf]; exact hg)
    obtain ⟨a, b, a', b', e1, e2, e3, e4, key⟩ := C53_transmission la la' s θ' hi hi' hb hlen hp ha hg sol sol' h h'
    rw [e] at e1 e2
    rw [e'] at e3 e4
    cases e1; cases e2; cases e3; cases e4
    refine Or.inr ⟨_, _, _, _, _, _, e, e', fun j i hj h0 => ?_⟩
    have k := key j i hj h0
    exact ⟨k.de_ss, k.de_pp, k.de_sp, k.de_ps⟩

theorem numpy_mirror {la la' : LinAlg} {s : Settings} {mx my : Bool} {θ' ψ' : ℂ} {φ' : Option ℂ} {pol' : ℝ} {u : Ucell}
    (hu : s.ucell = .raster u) (hny : 0 < u.ny) (hnx : 0 < u.nx) (hi : Spec.RealIllumination s.p)
    (hi' : Spec.RealIllumination (Spec.image mx my s u θ' φ' pol' ψ').p) (hd : Spec.MirrorDirection mx my s.p.theta s.p.phi θ' φ')
    (hp : s.p.use_pinv = false) (ha : s.algo = .tmm)
    (hg : gratingType s = 0 ∧ gratingType (Spec.image mx my s u θ' φ' pol' ψ') = 0 ∧ pol' = s.p.pol ∨
      gratingType s ≠ 0 ∧ gratingType (Spec.image mx my s u θ' φ' pol' ψ') ≠ 0)
    {sol sol' : Solved s.p.fto.1 s.p.fto.2} (h : conv_solve la s = .ok sol)
    (h' : conv_solve la' (Spec.image mx my s u θ' φ' pol' ψ') = .ok sol') :
    Spec.MirrorResults mx my (Spec.MirrorPsi mx my s.p.psi ψ') sol.result sol'.result := by
  rcases hg with ⟨hg, hg', rfl⟩ | ⟨hg, hg'⟩
  · obtain ⟨o, rfl⟩ := tetm_of h hg
    obtain ⟨o', rfl⟩ := tetm_of (s := Spec.image mx my s u θ' φ' s.p.pol ψ') h' hg'
    have E := C54_mirror_tetm la la' s mx my θ' ψ' φ' u hu hnx hi hi' hd hp o o' h h'
    have h0 : ∀ j : Fin 1, j = 0 := fun j => Subsingleton.elim _ _
    refine Or.inl ⟨_, _, rfl, rfl, ?_⟩
    constructor <;> intro j i
    · exact (E.de_ri_s 0 i).trans (by rw [h0 (Spec.revIdx my 0)]; rfl)
    · exact (E.de_ri_p 0 i).trans (by rw [h0 (Spec.revIdx my 0)]; rfl)
    · exact (E.de_ri 0 i).trans (by rw [h0 (Spec.revIdx my 0)]; rfl)
    · exact (E.de_ti_s 0 i).trans (by rw [h0 (Spec.revIdx my 0)]; rfl)
    · exact (E.de_ti_p 0 i).trans (by rw [h0 (Spec.revIdx my 0)]; rfl)
    · exact (E.de_ti 0 i).trans (by rw [h0 (Spec.revIdx my 0)]; rfl)
  · obtain ⟨y, te, tm, y', te', tm', e, e', a, b, c⟩ :=
      C54_mirror la la' s mx my θ' ψ' φ' pol' u hu hny hnx hi hi' hd hp ha hg hg' sol sol' h h'
    exact Or.inr ⟨y, te, tm, y', te', tm', e, e', a, b, c⟩

/-! ### PyTorch follows NumPy at another polarization angle -/

/-- The polarization angle at which NumPy reports the efficiencies that PyTorch reports. -/
noncomputable def torchPsi (s : Settings) (psi : ℂ) : ℂ := if gratingType s = 0 then psi else Real.pi - psi

theorem torch_runs {la : LinAlg} {s : Settings} (h : Spec.LosslessCladdings s.p) (ha : s.algo = .tmm)
    (hphi : gratingType s = 1 → s.p.phi ≠ some 0 ∨ ¬ (s.p.pol = 0 ∨ s.p.pol = 1)) {sol : Solved s.p.fto.1 s.p.fto.2} (hs : conv_solve la s = .ok sol)
    (hq : Spec.ModesAway sol) :
    ∃ sol₁ sol' : Solved s.p.fto.1 s.p.fto.2, conv_solve la (Spec.withPsi s (torchPsi s s.p.psi)) = .ok sol₁ ∧
      tConv_solve la s.torch = .ok sol' ∧ Spec.SameEfficiencies sol₁.result sol'.result := by
  unfold torchPsi
  rcases gratingType_le s with hg | hg | hg
  · obtain ⟨sol', h1, h2, -⟩ := C40_tetm_partial h hg hs
    rw [if_pos hg]
    exact ⟨sol, sol', hs, h1, h2⟩
  · rw [if_neg (by omega)]
    obtain ⟨sol1, h1, hm⟩ := conv_solve_psi ha hs (Or.inl hg) (Real.pi - s.p.psi)
    obtain ⟨sol', h2, h3⟩ := C40_psi h (Or.inr ⟨hg, hphi hg⟩) ha h1 (hm hq)
    exact ⟨sol1, sol', h1, h2, h3.eff⟩
  · rw [if_neg (by omega)]
    obtain ⟨sol1, h1, hm⟩ := conv_solve_psi ha hs (Or.inr hg) (Real.pi - s.p.psi)
    obtain ⟨sol', h2, h3⟩ := C40_psi h (Or.inl hg) ha h1 (hm hq)
    exact ⟨sol1, sol', h1, h2, h3.eff⟩

theorem torchPsi_real {s : Settings} {psi : ℂ} (h : Spec.IsReal psi) : Spec.IsReal (torchPsi s psi) := by
  unfold torchPsi
  unfold Spec.IsReal at *
  split_ifs
  · exact h
  · simp [h]

end Meent
