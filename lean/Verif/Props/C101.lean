import Verif.Lemmas.ScatteringReciprocity2D
import Verif.Props.C100

/-!
# C101: scattering matrices of 2D stacks are reciprocal
-/

open Matrix

namespace Meent

/-- **C101 (partial).**  A 2D stack and the same with opposite in-plane wave numbers.  The layers may absorb, come in any order and have any thicknesses; the half spaces may absorb; no
order is at grazing.  For all waves in the one problem and all waves in the other, the outgoing waves of the one react with the incoming waves of the other as the incoming waves of
the one with the outgoing waves of the other.  Missing: orders without a wave number along x or along y (`C101_negation`). -/
theorem C101_reciprocal_partial (la la' : LinAlg) (s : Settings) (hinv : s.p.use_pinv = false)
    (convs : List (Conv (FlatIdx s.p.fto.1 s.p.fto.2))) (hc : convMats la s = .ok convs)
    (kx ky kx' ky' : FlatIdx s.p.fto.1 s.p.fto.2 → ℂ) (hx : ∀ i, kx' i.rev = -kx i) (hy : ∀ i, ky' i.rev = -ky i) (hxy : ∀ i, kx i * ky i ≠ 0)
    (Ls Ls' : List (Spec.SLayer (FlatIdx s.p.fto.1 s.p.fto.2 ⊕ FlatIdx s.p.fto.1 s.p.fto.2)))
    (hL : List.Forall₂ (fun L L' => L'.d = L.d ∧ ∃ c ∈ convs, Spec.Layer2D la kx ky c L ∧ Spec.Layer2D la' kx' ky' c L') Ls Ls')
    (er et : ℂ) (her0 : er ≠ 0) (het0 : et ≠ 0) (hgr : ∀ i, er ≠ kx i ^ 2 + ky i ^ 2) (hgt : ∀ i, et ≠ kx i ^ 2 + ky i ^ 2)
    (k0 : ℝ) (Vg Vg' Vr Vr' Vt Vt' : Matrix (FlatIdx s.p.fto.1 s.p.fto.2 ⊕ FlatIdx s.p.fto.1 s.p.fto.2) (FlatIdx s.p.fto.1 s.p.fto.2 ⊕ FlatIdx s.p.fto.1 s.p.fto.2) ℂ)
    (Kr Kr' Kt Kt' : FlatIdx s.p.fto.1 s.p.fto.2 → ℂ) (hr : homogeneous_module kx ky er = .ok (Vr, Kr)) (hr' : homogeneous_module kx' ky' er = .ok (Vr', Kr'))
    (ht : homogeneous_module kx ky et = .ok (Vt, Kt)) (ht' : homogeneous_module kx' ky' et = .ok (Vt', Kt'))
    (S S' : SDict (FlatIdx s.p.fto.1 s.p.fto.2 ⊕ FlatIdx s.p.fto.1 s.p.fto.2)) (hS : Spec.scatteringMatrix k0 Vg Vr Vt Ls = .ok S)
    (hS' : Spec.scatteringMatrix k0 Vg' Vr' Vt' Ls' = .ok S')
    (a1 a2 b1 b2 a1' a2' b1' b2' : FlatIdx s.p.fto.1 s.p.fto.2 ⊕ FlatIdx s.p.fto.1 s.p.fto.2 → ℂ)
    (hb : Spec.Scatters S a1 a2 b1 b2) (hb' : Spec.Scatters S' a1' a2' b1' b2') :
    Spec.reaction Vr b1 (Spec.reverseOrders a1') + Spec.reaction Vt b2 (Spec.reverseOrders a2') =
      Spec.reaction Vr a1 (Spec.reverseOrders b1') + Spec.reaction Vt a2 (Spec.reverseOrders b2') := by
  have hx' : ∀ i, kx' (revF i) = -kx i := fun i => by rw [revF_eq, hx]
  have hy' : ∀ i, ky' (revF i) = -ky i := fun i => by rw [revF_eq, hy]
  have hJ := convMats_persym hinv hc
  have hro : ∀ a : FlatIdx s.p.fto.1 s.p.fto.2 ⊕ FlatIdx s.p.fto.1 s.p.fto.2 → ℂ, Spec.reverseOrders a = a ∘ (revF.sumCongr revF) := fun a => by
    funext j
    rcases j with i | i
    · exact congrArg (fun k => a (.inl k)) (revF_eq i).symm
    · exact congrArg (fun k => a (.inr k)) (revF_eq i).symm
  have hw : ∀ {e : ℂ} (_ : ∀ i, e ≠ kx i ^ 2 + ky i ^ 2) (i), Spec.depthWave e kx ky i ≠ 0 := by
    intro e h i h0
    have h1 := csqrt_sq (e - kx i ^ 2 - ky i ^ 2)
    rw [star_eq_zero.mp h0] at h1
    exact h i (by linear_combination -h1)
  have hl : List.Forall₂ (fun L L' : Spec.SLayer (FlatIdx s.p.fto.1 s.p.fto.2 ⊕ FlatIdx s.p.fto.1 s.p.fto.2) => L'.d = L.d ∧ ∃ P R, Pencil P R L.W L.V L.q ∧
      Pencil Pᵀ Rᵀ (L'.W.submatrix (revF.sumCongr revF) id) (L'.V.submatrix (revF.sumCongr revF) id) L'.q) (Ls.map turnL) (Ls'.map turnL) := by
    rw [List.forall₂_map_left_iff, List.forall₂_map_right_iff]
    refine hL.imp ?_
    rintro L L' ⟨hd, c, hcm, ⟨M, hM, e1, e2, e3⟩, M', hM', e4, e5, e6⟩
    have p1 := modes2d_pencil hM
    have p2 := modes2d_pencil_rev hx' hy' (hJ c hcm) hM'
    rw [← e1, ← e2, ← e3] at p1
    rw [← e4, ← e5, ← e6] at p2
    exact ⟨hd, _, _, p1, p2⟩
  obtain ⟨r1, r2⟩ := half_sym_rev hx' hy' her0 hxy (hw hgr) hr hr'
  obtain ⟨t1, t2⟩ := half_sym_rev hx' hy' het0 hxy (hw hgt) ht ht'
  have h1 := through_turn ((scatteringMatrix_scatters hS _ _ _ _).mp hb)
  have h2 := through_turn ((scatteringMatrix_scatters hS' _ _ _ _).mp hb')
  have h3 := through_bil hl h1 h2
  simp only [mulVec_mulVec] at h3
  rw [half_bil_2d r1 r2, half_bil_2d t1 t2] at h3
  have h4 := mul_left_cancel₀ two_ne_zero h3
  simp only [reaction_eq, hro]
  linear_combination -h4

/-- **C101 is violated at normal incidence.**  Air above glass of index 2, no layers, orders without transverse wave numbers: two circularly polarized waves do not react
reciprocally, because `homogeneous_module` replaces the zeros on the diagonal of `Q`.  The problem is its own opposite. -/
theorem C101_negation (fx fy : ℕ) (k0 : ℝ) :
    ∃ (Vg Vr Vt : Matrix (FlatIdx fx fy ⊕ FlatIdx fx fy) (FlatIdx fx fy ⊕ FlatIdx fx fy) ℂ) (Kr Kt : FlatIdx fx fy → ℂ) (S : SDict (FlatIdx fx fy ⊕ FlatIdx fx fy))
      (a b1 b2 a' b1' b2' : FlatIdx fx fy ⊕ FlatIdx fx fy → ℂ),
      homogeneous_module (fun _ => 0) (fun _ => 0) 1 = .ok (Vr, Kr) ∧ homogeneous_module (fun _ => 0) (fun _ => 0) 4 = .ok (Vt, Kt) ∧
      Spec.scatteringMatrix k0 Vg Vr Vt [] = .ok S ∧ Spec.Scatters S a 0 b1 b2 ∧ Spec.Scatters S a' 0 b1' b2' ∧
      Spec.reaction Vr b1 (Spec.reverseOrders a') ≠ Spec.reaction Vr a (Spec.reverseOrders b1') := by
  have hr := homogeneous_module_normal (m := FlatIdx fx fy) one_pos
  have ht := homogeneous_module_normal (m := FlatIdx fx fy) two_pos
  have e1 : ((1 : ℝ) : ℂ) ^ 2 = 1 := by norm_num
  have e2 : ((2 : ℝ) : ℂ) ^ 2 = 4 := by norm_num
  rw [e1] at hr
  rw [e2] at ht
  obtain ⟨S, hS⟩ := normal_matrix (m := FlatIdx fx fy) k0
  have hrev : ∀ z, Spec.reverseOrders (anticircular (FlatIdx fx fy) z) = anticircular (FlatIdx fx fy) z := by
    intro z
    funext j
    rcases j with i | i <;> rfl
  refine ⟨_, _, _, _, _, S, circular _ (3 - 3 / 2 * (1 / 10 ^ 10) * Complex.I), circular _ (-1 - 1 / 2 * (1 / 10 ^ 10) * Complex.I),
    circular _ (2 - 2 * (1 / 10 ^ 10) * Complex.I), anticircular _ (-3 - 3 / 2 * (1 / 10 ^ 10) * Complex.I), anticircular _ (1 - 1 / 2 * (1 / 10 ^ 10) * Complex.I),
    anticircular _ (-2 - 2 * (1 / 10 ^ 10) * Complex.I), hr, ht, hS, ?_, ?_, ?_⟩
  · refine (scatteringMatrix_scatters hS _ _ _ _).mpr ⟨?_, ?_⟩
    · rw [add_zero, circular_add]
      congr 1
      ring
    · rw [sub_zero, circular_sub, circ_mulVec, circ_mulVec]
      congr 1
      push_cast
      linear_combination (-3 / 10 ^ 10 : ℂ) * Complex.I * Complex.I_sq
  · refine (scatteringMatrix_scatters hS _ _ _ _).mpr ⟨?_, ?_⟩
    · rw [add_zero, anti_add]
      congr 1
      ring
    · rw [sub_zero, anti_sub, circ_anti, circ_anti]
      congr 1
      push_cast
      linear_combination (3 / 10 ^ 10 : ℂ) * Complex.I * Complex.I_sq
  · rw [hrev, hrev, reaction_circ, reaction_circ]
    intro h
    have hc : ((Fintype.card (FlatIdx fx fy) : ℕ) : ℂ) ≠ 0 := by
      rw [Fintype.card_fin]
      exact_mod_cast (by positivity : (2 * fy + 1) * (2 * fx + 1) ≠ 0)
    have h1 := mul_left_cancel₀ hc h
    have h2 := congrArg Complex.re h1
    simp at h2
    norm_num at h2

/-- Non-vacuity: a glass layer of three orders in glass, obliquely to both axes, any incoming waves. -/
example (a1 a2 a1' a2' : FlatIdx guidedSettings.p.fto.1 guidedSettings.p.fto.2 ⊕ FlatIdx guidedSettings.p.fto.1 guidedSettings.p.fto.2 → ℂ) :
    guidedSettings.p.use_pinv = false ∧ ∃ convs, convMats exLA guidedSettings = .ok convs ∧
    ∃ kx ky kx' ky' : FlatIdx guidedSettings.p.fto.1 guidedSettings.p.fto.2 → ℂ, (∀ i, kx' i.rev = -kx i) ∧ (∀ i, ky' i.rev = -ky i) ∧ (∀ i, kx i * ky i ≠ 0) ∧
      (∀ i, 4 ≠ kx i ^ 2 + ky i ^ 2) ∧
      ∃ Ls Ls', Ls ≠ [] ∧ List.Forall₂ (fun L L' => L'.d = L.d ∧ ∃ c ∈ convs, Spec.Layer2D exLA kx ky c L ∧ Spec.Layer2D exLA kx' ky' c L') Ls Ls' ∧
      ∃ V V' K K', homogeneous_module kx ky 4 = .ok (V, K) ∧ homogeneous_module kx' ky' 4 = .ok (V', K') ∧ ∃ Vg Vg' S S',
        Spec.scatteringMatrix (2 * Real.pi) Vg V V Ls = .ok S ∧ Spec.scatteringMatrix (2 * Real.pi) Vg' V' V' Ls' = .ok S' ∧
        ∃ b1 b2 b1' b2', Spec.Scatters S a1 a2 b1 b2 ∧ Spec.Scatters S' a1' a2' b1' b2' := by
  obtain ⟨V, K, hV, hm, hw⟩ := C100_glass (m := FlatIdx guidedSettings.p.fto.1 guidedSettings.p.fto.2)
  obtain ⟨S, hS⟩ := matched_film (k0 := 2 * Real.pi) (d := 1 / 3) hV fun _ => Complex.I * (Real.sqrt (7 / 2) : ℝ)
  have hm' := (homogeneous_module_neg _ _ _).trans hm
  have hw' := (scattering_2d_wv_neg _ _ _ _).trans hw
  exact ⟨rfl, _, C100_convMats, fun _ => 1 / 2, fun _ => 1 / 2, fun _ => -(1 / 2), fun _ => -(1 / 2), fun _ => rfl, fun _ => rfl, fun _ => by norm_num, fun _ => by norm_num,
    _, _, by simp, .cons ⟨rfl, _, List.mem_singleton.mpr rfl, ⟨_, hw, rfl, rfl, rfl⟩, ⟨_, hw', rfl, rfl, rfl⟩⟩ .nil, V, V, K, K, hm, hm', V, V, S, S, hS, hS,
    _, _, _, _, ⟨rfl, rfl⟩, ⟨rfl, rfl⟩⟩

end Meent

#print axioms Meent.C101_reciprocal_partial
#print axioms Meent.C101_negation
