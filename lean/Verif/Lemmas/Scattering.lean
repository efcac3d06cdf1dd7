import Verif.Spec.Scattering
import Verif.Lemmas.Engine

/-!
# Scattering matrices (helper lemmas)
-/

open Matrix

namespace Meent

set_option linter.unusedSectionVars false

variable {n : Type} [Fintype n] [DecidableEq n]

theorem mulVec_eq_iff {A : Matrix n n ℂ} (h : IsUnit A.det) (x y : n → ℂ) : A *ᵥ x = y ↔ x = A⁻¹ *ᵥ y := by
  constructor
  · rintro rfl
    rw [mulVec_mulVec, nonsing_inv_mul _ h, one_mulVec]
  · rintro rfl
    rw [mulVec_mulVec, mul_nonsing_inv _ h, one_mulVec]

theorem star_scatters {SA SB S : SDict n} (h : RedhefferStar SA SB = .ok S) (a1 a2 b1 b2 : n → ℂ) :
    Spec.Scatters S a1 a2 b1 b2 ↔ ∃ f g, Spec.Scatters SA a1 g b1 f ∧ Spec.Scatters SB f a2 g b2 := by
  obtain ⟨D, hD0, h⟩ := Except.bind_ok.mp h
  obtain ⟨F, hF0, h⟩ := Except.bind_ok.mp h
  obtain rfl := Except.ok.inj h
  obtain ⟨hD, rfl⟩ := npInv_ok.mp hD0
  obtain ⟨hF, rfl⟩ := npInv_ok.mp hF0
  have key : ∀ f g : n → ℂ, (f = SA.S21 *ᵥ a1 + SA.S22 *ᵥ g ∧ g = SB.S11 *ᵥ f + SB.S12 *ᵥ a2) ↔
      (f = (1 - SA.S22 * SB.S11)⁻¹ *ᵥ (SA.S21 *ᵥ a1 + SA.S22 *ᵥ SB.S12 *ᵥ a2) ∧
        g = (1 - SB.S11 * SA.S22)⁻¹ *ᵥ (SB.S11 *ᵥ SA.S21 *ᵥ a1 + SB.S12 *ᵥ a2)) := by
    have fwd : ∀ f g : n → ℂ, f = SA.S21 *ᵥ a1 + SA.S22 *ᵥ g → g = SB.S11 *ᵥ f + SB.S12 *ᵥ a2 →
        (f = (1 - SA.S22 * SB.S11)⁻¹ *ᵥ (SA.S21 *ᵥ a1 + SA.S22 *ᵥ SB.S12 *ᵥ a2) ∧
        g = (1 - SB.S11 * SA.S22)⁻¹ *ᵥ (SB.S11 *ᵥ SA.S21 *ᵥ a1 + SB.S12 *ᵥ a2)) := by
      intro f g h1 h2
      rw [← mulVec_eq_iff hF, ← mulVec_eq_iff hD, sub_mulVec, sub_mulVec, one_mulVec, one_mulVec, ← mulVec_mulVec, ← mulVec_mulVec]
      constructor
      · have := congrArg (SA.S22 *ᵥ ·) h2
        simp only [mulVec_add] at this
        linear_combination (norm := module) h1 + this
      · have := congrArg (SB.S11 *ᵥ ·) h1
        simp only [mulVec_add] at this
        linear_combination (norm := module) h2 + this
    intro f g
    refine ⟨fun h => fwd f g h.1 h.2, ?_⟩
    rintro ⟨h1, h2⟩
    -- the candidate built from `g` alone satisfies both equations, hence is the given pair
    set f' := SA.S21 *ᵥ a1 + SA.S22 *ᵥ g with hf'
    have e : g = SB.S11 *ᵥ f' + SB.S12 *ᵥ a2 := by
      rw [← mulVec_eq_iff hD, sub_mulVec, one_mulVec, ← mulVec_mulVec] at h2
      rw [hf', mulVec_add]
      linear_combination (norm := module) h2
    have := (fwd f' g hf' e).1
    exact ⟨h1.trans this.symm, by rw [h1.trans this.symm]; exact e⟩
  constructor
  · rintro ⟨h1, h2⟩
    obtain ⟨k1, k2⟩ := (key ((1 - SA.S22 * SB.S11)⁻¹ *ᵥ (SA.S21 *ᵥ a1 + SA.S22 *ᵥ SB.S12 *ᵥ a2))
      ((1 - SB.S11 * SA.S22)⁻¹ *ᵥ (SB.S11 *ᵥ SA.S21 *ᵥ a1 + SB.S12 *ᵥ a2))).mpr ⟨rfl, rfl⟩
    refine ⟨_, _, ⟨?_, k1⟩, k2, ?_⟩
    · rw [h1]
      simp only [add_mulVec, ← mulVec_mulVec, mulVec_add]
      abel
    · rw [h2]
      simp only [add_mulVec, ← mulVec_mulVec, mulVec_add]
      abel
  · rintro ⟨f, g, ⟨h1, h2⟩, h3, h4⟩
    obtain ⟨k1, k2⟩ := (key f g).mp ⟨h2, h3⟩
    refine ⟨?_, ?_⟩
    · rw [h1, k2]
      simp only [add_mulVec, ← mulVec_mulVec, mulVec_add]
      abel
    · rw [h4, k1]
      simp only [add_mulVec, ← mulVec_mulVec, mulVec_add]
      abel

/-- Two dictionaries that describe the same waves are the same. -/
theorem scatters_ext {S S' : SDict n} (h : ∀ a1 a2 b1 b2, Spec.Scatters S a1 a2 b1 b2 → Spec.Scatters S' a1 a2 b1 b2) : S = S' := by
  have k : ∀ a1 a2, S.S11 *ᵥ a1 + S.S12 *ᵥ a2 = S'.S11 *ᵥ a1 + S'.S12 *ᵥ a2 ∧
      S.S21 *ᵥ a1 + S.S22 *ᵥ a2 = S'.S21 *ᵥ a1 + S'.S22 *ᵥ a2 := fun a1 a2 => h a1 a2 _ _ ⟨rfl, rfl⟩
  have e1 : S.S11 = S'.S11 := mulVec_injective (funext fun a => by simpa using (k a 0).1)
  have e2 : S.S12 = S'.S12 := mulVec_injective (funext fun a => by simpa using (k 0 a).1)
  have e3 : S.S21 = S'.S21 := mulVec_injective (funext fun a => by simpa using (k a 0).2)
  have e4 : S.S22 = S'.S22 := mulVec_injective (funext fun a => by simpa using (k 0 a).2)
  cases S
  cases S'
  simp_all

/-- The matrix of the upper half space. -/
theorem half_scatters {V Vg A B : Matrix n n ℂ} {S : SDict n} (hAB : A_B_matrices_half_space V Vg = .ok (A, B)) (h : S_RT A B true = .ok S)
    (a1 a2 b1 b2 : n → ℂ) :
    Spec.Scatters S a1 a2 b1 b2 ↔ a1 + b1 = b2 + a2 ∧ V *ᵥ (a1 - b1) = Vg *ᵥ (b2 - a2) := by
  obtain ⟨Vi, hVi, e⟩ := Except.bind_ok.mp hAB
  obtain ⟨hVg, rfl⟩ := npInv_ok.mp hVi
  obtain ⟨eA, eB⟩ := Prod.mk.inj (Except.ok.inj e)
  obtain ⟨Ai, hAi, h⟩ := Except.bind_ok.mp h
  obtain ⟨hA, rfl⟩ := npInv_ok.mp hAi
  obtain rfl := Except.ok.inj h
  -- in terms of `A` and `B`
  have m1 : (a1 + b1 = b2 + a2 ∧ V *ᵥ (a1 - b1) = Vg *ᵥ (b2 - a2)) ↔
      (A *ᵥ b1 = (2 : ℂ) • a2 - B *ᵥ a1 ∧ (2 : ℂ) • b2 = A *ᵥ a1 + B *ᵥ b1) := by
    rw [eq_comm (a := V *ᵥ _), mulVec_eq_iff hVg, ← eA, ← eB]
    simp only [add_mulVec, sub_mulVec, one_mulVec, ← mulVec_mulVec, mulVec_sub]
    constructor
    · rintro ⟨h1, h2⟩
      constructor
      · linear_combination (norm := module) h1 + h2
      · linear_combination (norm := module) h2 - h1
    · rintro ⟨h1, h2⟩
      constructor
      · linear_combination (norm := module) (1 / 2 : ℂ) • h1 - (1 / 2 : ℂ) • h2
      · linear_combination (norm := module) (1 / 2 : ℂ) • h1 + (1 / 2 : ℂ) • h2
  rw [m1, mulVec_eq_iff hA]
  unfold Spec.Scatters
  simp only [neg_mul, neg_mulVec, smul_mulVec, sub_mulVec, ← mulVec_mulVec, mulVec_sub, mulVec_smul]
  constructor
  · rintro ⟨rfl, rfl⟩
    constructor
    · module
    · simp only [mulVec_add, mulVec_neg, mulVec_smul]
      module
  · rintro ⟨rfl, h2⟩
    constructor
    · module
    · simp only [mulVec_sub, mulVec_smul] at h2
      linear_combination (norm := module) (1 / 2 : ℂ) • h2

theorem S_RT_swap {A B : Matrix n n ℂ} {S : SDict n} (h : S_RT A B false = .ok S) : S_RT A B true = .ok ⟨S.S22, S.S21, S.S12, S.S11⟩ := by
  obtain ⟨Ai, hAi, h⟩ := Except.bind_ok.mp h
  obtain rfl := Except.ok.inj h
  exact Except.bind_ok.mpr ⟨Ai, hAi, rfl⟩

/-- The matrix of the lower half space. -/
theorem lower_scatters {V Vg A B : Matrix n n ℂ} {S : SDict n} (hAB : A_B_matrices_half_space V Vg = .ok (A, B)) (h : S_RT A B false = .ok S)
    (a1 a2 b1 b2 : n → ℂ) :
    Spec.Scatters S a1 a2 b1 b2 ↔ a1 + b1 = b2 + a2 ∧ Vg *ᵥ (a1 - b1) = V *ᵥ (b2 - a2) := by
  have := half_scatters hAB (S_RT_swap h) a2 a1 b2 b1
  have e : Spec.Scatters S a1 a2 b1 b2 ↔ Spec.Scatters ⟨S.S22, S.S21, S.S12, S.S11⟩ a2 a1 b2 b1 := by
    unfold Spec.Scatters
    rw [and_comm, add_comm (S.S21 *ᵥ a1), add_comm (S.S11 *ᵥ a1)]
  rw [e, this]
  simp only [mulVec_sub]
  constructor
  · rintro ⟨h1, h2⟩
    exact ⟨by linear_combination (norm := module) -h1, by linear_combination (norm := module) h2⟩
  · rintro ⟨h1, h2⟩
    exact ⟨by linear_combination (norm := module) -h1, by linear_combination (norm := module) h2⟩

/-- The matrix of a layer between two gaps. -/
theorem layer_scatters {k0 : ℝ} {L : Spec.SLayer n} {Wg Vg A B : Matrix n n ℂ} {S : SDict n} (hAB : A_B_matrices L.W Wg L.V Vg = .ok (A, B))
    (h : S_layer A B L.d k0 L.q = .ok S) (a1 a2 b1 b2 : n → ℂ) :
    Spec.Scatters S a1 a2 b1 b2 ↔
      Spec.Crosses k0 L (Wg *ᵥ (a1 + b1)) (Vg *ᵥ (a1 - b1)) (Wg *ᵥ (b2 + a2)) (Vg *ᵥ (b2 - a2)) := by
  obtain ⟨Wi, hWi, e⟩ := Except.bind_ok.mp hAB
  obtain ⟨hW, rfl⟩ := npInv_ok.mp hWi
  obtain ⟨Vi, hVi, e⟩ := Except.bind_ok.mp e
  obtain ⟨hV, rfl⟩ := npInv_ok.mp hVi
  obtain ⟨eA, eB⟩ := Prod.mk.inj (Except.ok.inj e)
  have eX : (diagonal fun i => Complex.exp (-L.q i * (L.d : ℂ) * (k0 : ℂ))) = L.X k0 := by
    unfold Spec.SLayer.X
    congr 1
    funext i
    congr 1
    ring
  unfold S_layer at h
  rw [eX] at h
  generalize hX : L.X k0 = X at *
  obtain ⟨Ai, hAi, h⟩ := Except.bind_ok.mp h
  obtain ⟨hA, rfl⟩ := npInv_ok.mp hAi
  obtain ⟨Ti, hTi, h⟩ := Except.bind_ok.mp h
  obtain ⟨hT, rfl⟩ := npInv_ok.mp hTi
  obtain rfl := Except.ok.inj h
  -- the conditions at the two faces, in terms of `A` and `B`
  have m1 : Spec.Crosses k0 L (Wg *ᵥ (a1 + b1)) (Vg *ᵥ (a1 - b1)) (Wg *ᵥ (b2 + a2)) (Vg *ᵥ (b2 - a2)) ↔
      (X *ᵥ (A *ᵥ a1 + B *ᵥ b1) = A *ᵥ b2 + B *ᵥ a2 ∧ X *ᵥ (B *ᵥ b2 + A *ᵥ a2) = B *ᵥ a1 + A *ᵥ b1) := by
    unfold Spec.Crosses
    rw [hX]
    simp only [eq_comm (b := L.W *ᵥ _), eq_comm (b := L.V *ᵥ _), mulVec_eq_iff hW, mulVec_eq_iff hV]
    simp only [← eA, ← eB, add_mulVec, sub_mulVec, ← mulVec_mulVec, mulVec_add, mulVec_sub]
    constructor
    · rintro ⟨u, v, h1, h2, h3, h4⟩
      have k1 : u = (1 / 2 : ℂ) • (L.W⁻¹ *ᵥ Wg *ᵥ a1 + L.W⁻¹ *ᵥ Wg *ᵥ b1 + (L.V⁻¹ *ᵥ Vg *ᵥ a1 - L.V⁻¹ *ᵥ Vg *ᵥ b1)) := by
        linear_combination (norm := module) (1 / 2 : ℂ) • h1 + (1 / 2 : ℂ) • h2
      have k2 : v = (1 / 2 : ℂ) • (L.W⁻¹ *ᵥ Wg *ᵥ b2 + L.W⁻¹ *ᵥ Wg *ᵥ a2 - (L.V⁻¹ *ᵥ Vg *ᵥ b2 - L.V⁻¹ *ᵥ Vg *ᵥ a2)) := by
        linear_combination (norm := module) (1 / 2 : ℂ) • h3 - (1 / 2 : ℂ) • h4
      rw [k1] at h3 h4
      rw [k2] at h1 h2
      simp only [mulVec_add, mulVec_sub, mulVec_smul] at h1 h2 h3 h4
      exact ⟨by linear_combination (norm := module) h3 + h4, by linear_combination (norm := module) h1 - h2⟩
    · rintro ⟨h1, h2⟩
      refine ⟨(1 / 2 : ℂ) • (L.W⁻¹ *ᵥ Wg *ᵥ a1 + L.W⁻¹ *ᵥ Wg *ᵥ b1 + (L.V⁻¹ *ᵥ Vg *ᵥ a1 - L.V⁻¹ *ᵥ Vg *ᵥ b1)),
        (1 / 2 : ℂ) • (L.W⁻¹ *ᵥ Wg *ᵥ b2 + L.W⁻¹ *ᵥ Wg *ᵥ a2 - (L.V⁻¹ *ᵥ Vg *ᵥ b2 - L.V⁻¹ *ᵥ Vg *ᵥ a2)), ?_, ?_, ?_, ?_⟩ <;>
        simp only [mulVec_add, mulVec_sub, mulVec_smul]
      · linear_combination (norm := module) (1 / 2 : ℂ) • h2
      · linear_combination (norm := module) (-1 / 2 : ℂ) • h2
      · linear_combination (norm := module) (1 / 2 : ℂ) • h1
      · linear_combination (norm := module) (1 / 2 : ℂ) • h1
  rw [m1]
  have AAi : ∀ x, A *ᵥ A⁻¹ *ᵥ x = x := fun x => by rw [mulVec_mulVec, mul_nonsing_inv _ hA, one_mulVec]
  have AiA : ∀ x, A⁻¹ *ᵥ A *ᵥ x = x := fun x => by rw [mulVec_mulVec, nonsing_inv_mul _ hA, one_mulVec]
  -- the dictionary says that two combinations of the conditions hold
  have m2 : ∀ a1 a2 b1 : n → ℂ, b1 = (A - X * B * A⁻¹ * X * B)⁻¹ *ᵥ ((X * B * A⁻¹ * X * A - B) *ᵥ a1 + (X * (A - B * A⁻¹ * B)) *ᵥ a2) ↔
      A *ᵥ b1 - X *ᵥ B *ᵥ A⁻¹ *ᵥ X *ᵥ B *ᵥ b1
        = X *ᵥ B *ᵥ A⁻¹ *ᵥ X *ᵥ A *ᵥ a1 - B *ᵥ a1 + (X *ᵥ A *ᵥ a2 - X *ᵥ B *ᵥ A⁻¹ *ᵥ B *ᵥ a2) := by
    intro a1 a2 b1
    rw [← mulVec_eq_iff hT]
    simp only [sub_mulVec, ← mulVec_mulVec, mulVec_sub]
  have m3 : Spec.Scatters (⟨(A - X * B * A⁻¹ * X * B)⁻¹ * (X * B * A⁻¹ * X * A - B), (A - X * B * A⁻¹ * X * B)⁻¹ * X * (A - B * A⁻¹ * B),
        (A - X * B * A⁻¹ * X * B)⁻¹ * X * (A - B * A⁻¹ * B), (A - X * B * A⁻¹ * X * B)⁻¹ * (X * B * A⁻¹ * X * A - B)⟩ : SDict n) a1 a2 b1 b2 ↔
      (A *ᵥ b1 - X *ᵥ B *ᵥ A⁻¹ *ᵥ X *ᵥ B *ᵥ b1
        = X *ᵥ B *ᵥ A⁻¹ *ᵥ X *ᵥ A *ᵥ a1 - B *ᵥ a1 + (X *ᵥ A *ᵥ a2 - X *ᵥ B *ᵥ A⁻¹ *ᵥ B *ᵥ a2)) ∧
      (A *ᵥ b2 - X *ᵥ B *ᵥ A⁻¹ *ᵥ X *ᵥ B *ᵥ b2
        = X *ᵥ B *ᵥ A⁻¹ *ᵥ X *ᵥ A *ᵥ a2 - B *ᵥ a2 + (X *ᵥ A *ᵥ a1 - X *ᵥ B *ᵥ A⁻¹ *ᵥ B *ᵥ a1)) := by
    rw [← m2 a1 a2 b1, ← m2 a2 a1 b2]
    unfold Spec.Scatters
    simp only [mulVec_add, mulVec_mulVec, ← Matrix.mul_assoc]
    rw [add_comm (((A - X * B * A⁻¹ * X * B)⁻¹ * X * (A - B * A⁻¹ * B)) *ᵥ a1)]
  refine m3.trans ?_
  simp only [mulVec_add]
  constructor
  · rintro ⟨h1, h2⟩
    set r1 := X *ᵥ A *ᵥ a1 + X *ᵥ B *ᵥ b1 - (A *ᵥ b2 + B *ᵥ a2) with hr1
    set r2 := X *ᵥ B *ᵥ b2 + X *ᵥ A *ᵥ a2 - (B *ᵥ a1 + A *ᵥ b1) with hr2
    have c1 : r2 + X *ᵥ B *ᵥ A⁻¹ *ᵥ r1 = 0 := by
      rw [hr1, hr2]
      simp only [mulVec_add, mulVec_sub, AiA]
      linear_combination (norm := module) -h1
    have c2 : r1 + X *ᵥ B *ᵥ A⁻¹ *ᵥ r2 = 0 := by
      rw [hr1, hr2]
      simp only [mulVec_add, mulVec_sub, AiA]
      linear_combination (norm := module) -h2
    have z : ∀ r r' : n → ℂ, r' + X *ᵥ B *ᵥ A⁻¹ *ᵥ r = 0 → r + X *ᵥ B *ᵥ A⁻¹ *ᵥ r' = 0 → r = 0 := by
      intro r r' e1 e2
      have e3 : r' = -(X *ᵥ B *ᵥ A⁻¹ *ᵥ r) := eq_neg_of_add_eq_zero_left e1
      rw [e3] at e2
      simp only [mulVec_neg] at e2
      have e4 : (A - X * B * A⁻¹ * X * B) *ᵥ (A⁻¹ *ᵥ r) = 0 := by
        simp only [sub_mulVec, ← mulVec_mulVec, AAi]
        linear_combination (norm := module) e2
      have e5 := (mulVec_eq_iff hT _ _).mp e4
      rw [mulVec_zero] at e5
      rw [← AAi r, e5, mulVec_zero]
    exact ⟨sub_eq_zero.mp (z r1 r2 c1 c2), sub_eq_zero.mp (z r2 r1 c2 c1)⟩
  · rintro ⟨h1, h2⟩
    have k1 := congrArg (fun x => X *ᵥ B *ᵥ A⁻¹ *ᵥ x) h1
    have k2 := congrArg (fun x => X *ᵥ B *ᵥ A⁻¹ *ᵥ x) h2
    simp only [mulVec_add, AiA] at k1 k2
    exact ⟨by linear_combination (norm := module) -h2 - k1, by linear_combination (norm := module) -h1 - k2⟩


theorem exists_waves {Vg : Matrix n n ℂ} (h : IsUnit Vg.det) (E H : n → ℂ) : ∃ f g : n → ℂ, f + g = E ∧ Vg *ᵥ (f - g) = H := by
  refine ⟨(1 / 2 : ℂ) • (E + Vg⁻¹ *ᵥ H), (1 / 2 : ℂ) • (E - Vg⁻¹ *ᵥ H), by module, ?_⟩
  rw [mulVec_eq_iff h]
  module

theorem throughLayers_scatters {k0 : ℝ} {Vg : Matrix n n ℂ} (hV : IsUnit Vg.det) : ∀ {Ls : List (Spec.SLayer n)} {Sg S : SDict n}
    {P : (n → ℂ) → (n → ℂ) → (n → ℂ) → (n → ℂ) → Prop}, Spec.throughLayers k0 Vg Ls Sg = .ok S →
    (∀ a1 a2 b1 b2, Spec.Scatters Sg a1 a2 b1 b2 ↔ P a1 b1 (b2 + a2) (Vg *ᵥ (b2 - a2))) →
    ∀ a1 a2 b1 b2, Spec.Scatters S a1 a2 b1 b2 ↔ ∃ E H, P a1 b1 E H ∧ Spec.Through k0 Ls E H (b2 + a2) (Vg *ᵥ (b2 - a2))
  | [], Sg, S, P, h, hP, a1, a2, b1, b2 => by
    obtain rfl := Except.ok.inj h
    rw [hP]
    constructor
    · intro h
      exact ⟨_, _, h, rfl, rfl⟩
    · rintro ⟨E, H, h, rfl, rfl⟩
      exact h
  | L :: Ls, Sg, S, P, h, hP, a1, a2, b1, b2 => by
    obtain ⟨S1, h1, h⟩ := Except.bind_ok.mp h
    obtain ⟨⟨A, B⟩, hAB, h1⟩ := Except.bind_ok.mp h1
    obtain ⟨SL, hL, h1⟩ := Except.bind_ok.mp h1
    have hP' : ∀ a1 a2 b1 b2, Spec.Scatters S1 a1 a2 b1 b2 ↔
        ∃ E H, P a1 b1 E H ∧ Spec.Crosses k0 L E H (b2 + a2) (Vg *ᵥ (b2 - a2)) := by
      intro a1 a2 b1 b2
      rw [star_scatters h1]
      constructor
      · rintro ⟨f, g, k1, k2⟩
        have := (layer_scatters hAB hL f a2 g b2).mp k2
        rw [one_mulVec, one_mulVec] at this
        exact ⟨_, _, (hP _ _ _ _).mp k1, this⟩
      · rintro ⟨E, H, k1, k2⟩
        obtain ⟨f, g, rfl, rfl⟩ := exists_waves hV E H
        exact ⟨f, g, (hP _ _ _ _).mpr k1, (layer_scatters hAB hL f a2 g b2).mpr (by rwa [one_mulVec, one_mulVec])⟩
    rw [throughLayers_scatters hV h (P := fun a1 b1 E' H' => ∃ E H, P a1 b1 E H ∧ Spec.Crosses k0 L E H E' H') hP']
    constructor
    · rintro ⟨E', H', ⟨E, H, k1, k2⟩, k3⟩
      exact ⟨E, H, k1, E', H', k2, k3⟩
    · rintro ⟨E, H, k1, E', H', k2, k3⟩
      exact ⟨E', H', ⟨E, H, k1, k2⟩, k3⟩

theorem scatteringMatrix_scatters {k0 : ℝ} {Vg Vr Vt : Matrix n n ℂ} {Ls : List (Spec.SLayer n)} {S : SDict n}
    (h : Spec.scatteringMatrix k0 Vg Vr Vt Ls = .ok S) (a1 a2 b1 b2 : n → ℂ) :
    Spec.Scatters S a1 a2 b1 b2 ↔ Spec.StackScatters k0 Vr Vt Ls a1 a2 b1 b2 := by
  obtain ⟨⟨A, B⟩, hAB, h⟩ := Except.bind_ok.mp h
  obtain ⟨Sr, hr, h⟩ := Except.bind_ok.mp h
  obtain ⟨Sg, hg, h⟩ := Except.bind_ok.mp h
  obtain ⟨⟨A', B'⟩, hAB', h⟩ := Except.bind_ok.mp h
  obtain ⟨St, ht, h⟩ := Except.bind_ok.mp h
  have hV : IsUnit Vg.det := by
    obtain ⟨Vi, hVi, -⟩ := Except.bind_ok.mp hAB
    exact (npInv_ok.mp hVi).1
  have k := throughLayers_scatters hV hg (P := fun a1 b1 E H => a1 + b1 = E ∧ Vr *ᵥ (a1 - b1) = H) (half_scatters hAB hr)
  rw [star_scatters h]
  unfold Spec.StackScatters
  constructor
  · rintro ⟨f, g, k1, k2⟩
    obtain ⟨E, H, ⟨rfl, rfl⟩, k3⟩ := (k _ _ _ _).mp k1
    obtain ⟨e1, e2⟩ := (lower_scatters hAB' ht _ _ _ _).mp k2
    rwa [← e1, ← e2]
  · intro k3
    obtain ⟨f, g, e1, e2⟩ := exists_waves hV (b2 + a2) (Vt *ᵥ (b2 - a2))
    refine ⟨f, g, (k _ _ _ _).mpr ⟨_, _, ⟨rfl, rfl⟩, ?_⟩, (lower_scatters hAB' ht _ _ _ _).mpr ⟨e1, e2⟩⟩
    rwa [e1, e2]

/-! ### Cutting a layer -/

theorem through_append {k0 : ℝ} : ∀ {Ls Ls' : List (Spec.SLayer n)} {E H E' H' : n → ℂ},
    Spec.Through k0 (Ls ++ Ls') E H E' H' ↔ ∃ E₁ H₁, Spec.Through k0 Ls E H E₁ H₁ ∧ Spec.Through k0 Ls' E₁ H₁ E' H'
  | [], Ls', E, H, E', H' => by
    constructor
    · intro h
      exact ⟨E, H, ⟨rfl, rfl⟩, h⟩
    · rintro ⟨_, _, ⟨rfl, rfl⟩, h⟩
      exact h
  | L :: Ls, Ls', E, H, E', H' => by
    simp only [List.cons_append, Spec.Through, through_append (Ls := Ls)]
    constructor
    · rintro ⟨E₁, H₁, h1, E₂, H₂, h2, h3⟩
      exact ⟨E₂, H₂, ⟨E₁, H₁, h1, h2⟩, h3⟩
    · rintro ⟨E₂, H₂, ⟨E₁, H₁, h1, h2⟩, h3⟩
      exact ⟨E₁, H₁, h1, E₂, H₂, h2, h3⟩

theorem X_add (k0 : ℝ) (L : Spec.SLayer n) (d1 d2 : ℝ) :
    ({ L with d := d1 + d2 } : Spec.SLayer n).X k0 = ({ L with d := d1 } : Spec.SLayer n).X k0 * ({ L with d := d2 } : Spec.SLayer n).X k0 := by
  unfold Spec.SLayer.X
  rw [diagonal_mul_diagonal]
  congr 1
  funext i
  rw [← Complex.exp_add]
  congr 1
  push_cast
  ring

theorem crosses_cut {k0 : ℝ} {L : Spec.SLayer n} (hW : IsUnit L.W.det) (hV : IsUnit L.V.det) {d1 d2 : ℝ} {E H E' H' : n → ℂ} :
    Spec.Crosses k0 { L with d := d1 + d2 } E H E' H' ↔
      ∃ E₁ H₁, Spec.Crosses k0 { L with d := d1 } E H E₁ H₁ ∧ Spec.Crosses k0 { L with d := d2 } E₁ H₁ E' H' := by
  unfold Spec.Crosses
  rw [X_add]
  set X1 := ({ L with d := d1 } : Spec.SLayer n).X k0 with hX1
  set X2 := ({ L with d := d2 } : Spec.SLayer n).X k0 with hX2
  have hcomm : X1 * X2 = X2 * X1 := by
    rw [hX1, hX2]
    unfold Spec.SLayer.X
    rw [diagonal_mul_diagonal, diagonal_mul_diagonal]
    congr 1
    funext i
    ring
  constructor
  · rintro ⟨u, v, h1, h2, h3, h4⟩
    refine ⟨_, _, ⟨u, X2 *ᵥ v, ?_, ?_, rfl, rfl⟩, X1 *ᵥ u, v, ?_, ?_, ?_, ?_⟩
    · rw [h1, mulVec_mulVec]
    · rw [h2, mulVec_mulVec]
    · rfl
    · rfl
    · rw [h3, mulVec_mulVec, hcomm]
    · rw [h4, mulVec_mulVec, hcomm]
  · rintro ⟨E₁, H₁, ⟨u, v, h1, h2, h3, h4⟩, u', v', k1, k2, k3, k4⟩
    have i1 : ∀ x y : n → ℂ, L.W *ᵥ x = L.W *ᵥ y → x = y := fun x y h => by
      rw [mulVec_eq_iff hW] at h
      rw [h, mulVec_mulVec, nonsing_inv_mul _ hW, one_mulVec]
    have i2 : ∀ x y : n → ℂ, L.V *ᵥ x = L.V *ᵥ y → x = y := fun x y h => by
      rw [mulVec_eq_iff hV] at h
      rw [h, mulVec_mulVec, nonsing_inv_mul _ hV, one_mulVec]
    have e1 := i1 _ _ (h3.symm.trans k1)
    have e2 := i2 _ _ (h4.symm.trans k2)
    have eu : u' = X1 *ᵥ u := by linear_combination (norm := module) (-1 / 2 : ℂ) • e1 + (-1 / 2 : ℂ) • e2
    have ev : v = X2 *ᵥ v' := by linear_combination (norm := module) (1 / 2 : ℂ) • e1 + (-1 / 2 : ℂ) • e2
    subst eu ev
    refine ⟨u, v', ?_, ?_, ?_, ?_⟩
    · rw [h1, mulVec_mulVec]
    · rw [h2, mulVec_mulVec]
    · rw [k3, mulVec_mulVec, hcomm]
    · rw [k4, mulVec_mulVec, hcomm]

theorem throughLayers_append {k0 : ℝ} {Vg : Matrix n n ℂ} : ∀ {Ls Ls' : List (Spec.SLayer n)} {Sg S : SDict n},
    Spec.throughLayers k0 Vg (Ls ++ Ls') Sg = .ok S → ∃ S1, Spec.throughLayers k0 Vg Ls Sg = .ok S1 ∧ Spec.throughLayers k0 Vg Ls' S1 = .ok S
  | [], _, Sg, _, h => ⟨Sg, rfl, h⟩
  | L :: Ls, Ls', Sg, S, h => by
    obtain ⟨S1, h1, h⟩ := Except.bind_ok.mp h
    obtain ⟨S2, h2, h3⟩ := throughLayers_append (Ls := Ls) h
    exact ⟨S2, Except.bind_ok.mpr ⟨S1, h1, h2⟩, h3⟩

/-- The fields of the modes of every layer are bases when the matrix could be put together. -/
theorem scatteringMatrix_units {k0 : ℝ} {Vg Vr Vt : Matrix n n ℂ} {Ls Ls' : List (Spec.SLayer n)} {L : Spec.SLayer n} {S : SDict n}
    (h : Spec.scatteringMatrix k0 Vg Vr Vt (Ls ++ L :: Ls') = .ok S) : IsUnit L.W.det ∧ IsUnit L.V.det := by
  obtain ⟨⟨A, B⟩, hAB, h⟩ := Except.bind_ok.mp h
  obtain ⟨Sr, hr, h⟩ := Except.bind_ok.mp h
  obtain ⟨Sg, hg, h⟩ := Except.bind_ok.mp h
  obtain ⟨S1, -, h1⟩ := throughLayers_append hg
  obtain ⟨S2, h2, -⟩ := Except.bind_ok.mp h1
  obtain ⟨AB, hAB, -⟩ := Except.bind_ok.mp h2
  obtain ⟨Wi, hWi, e⟩ := Except.bind_ok.mp hAB
  obtain ⟨Vi, hVi, e⟩ := Except.bind_ok.mp e
  exact ⟨(npInv_ok.mp hWi).1, (npInv_ok.mp hVi).1⟩

end Meent
