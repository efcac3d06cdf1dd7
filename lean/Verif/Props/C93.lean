import Verif.Lemmas.ScatteringExample

/-!
# C93: the scattering-matrix functions describe the stack
-/

open Matrix

namespace Meent

variable {n : Type} [Fintype n] [DecidableEq n]

/-- **C93, combining.**  When `RedhefferStar` succeeds, its matrix describes the two elements one behind the other: waves obey it exactly when there are waves between the
elements such that each element scatters its own. -/
theorem C93_star (SA SB S : SDict n) (h : RedhefferStar SA SB = .ok S) (a1 a2 b1 b2 : n → ℂ) :
    Spec.Scatters S a1 a2 b1 b2 ↔ ∃ f g, Spec.Scatters SA a1 g b1 f ∧ Spec.Scatters SB f a2 g b2 :=
  star_scatters h a1 a2 b1 b2

/-- **C93, order of combining.**  Three elements have the same matrix whether the first two or the last two are combined first. -/
theorem C93_star_assoc (SA SB SC SAB SBC S S' : SDict n) (h1 : RedhefferStar SA SB = .ok SAB) (h2 : RedhefferStar SAB SC = .ok S)
    (h3 : RedhefferStar SB SC = .ok SBC) (h4 : RedhefferStar SA SBC = .ok S') : S' = S := by
  refine scatters_ext fun a1 a2 b1 b2 h => ?_
  obtain ⟨f, g, k1, k2⟩ := (star_scatters h4 _ _ _ _).mp h
  obtain ⟨f', g', k3, k4⟩ := (star_scatters h3 _ _ _ _).mp k2
  exact (star_scatters h2 _ _ _ _).mpr ⟨f', g', (star_scatters h1 _ _ _ _).mpr ⟨f, g, k1, k3⟩, k4⟩

/-- **C93, stacks.**  Put together the upper half space, any number of layers and the lower half space with the scattering functions.  If this succeeds, the matrix
describes the stack: waves obey it exactly when the tangential fields they produce continue through all layers. -/
theorem C93_stack (k0 : ℝ) (Vg Vr Vt : Matrix n n ℂ) (Ls : List (Spec.SLayer n)) (S : SDict n) (h : Spec.scatteringMatrix k0 Vg Vr Vt Ls = .ok S)
    (a1 a2 b1 b2 : n → ℂ) : Spec.Scatters S a1 a2 b1 b2 ↔ Spec.StackScatters k0 Vr Vt Ls a1 a2 b1 b2 :=
  scatteringMatrix_scatters h a1 a2 b1 b2

/-- **C93, the gaps.**  The medium assumed in the gaps of vanishing thickness between the layers does not matter. -/
theorem C93_gap (k0 : ℝ) (Vg Vg' Vr Vt : Matrix n n ℂ) (Ls : List (Spec.SLayer n)) (S S' : SDict n) (h : Spec.scatteringMatrix k0 Vg Vr Vt Ls = .ok S)
    (h' : Spec.scatteringMatrix k0 Vg' Vr Vt Ls = .ok S') : S' = S :=
  scatters_ext fun a1 a2 b1 b2 k => (scatteringMatrix_scatters h a1 a2 b1 b2).mpr ((scatteringMatrix_scatters h' a1 a2 b1 b2).mp k)

/-- **C93, cut layers.**  A layer cut in two has the same matrix. -/
theorem C93_cut (k0 : ℝ) (Vg Vr Vt : Matrix n n ℂ) (Ls Ls' : List (Spec.SLayer n)) (L : Spec.SLayer n) (d1 d2 : ℝ) (S S' : SDict n)
    (h : Spec.scatteringMatrix k0 Vg Vr Vt (Ls ++ { L with d := d1 + d2 } :: Ls') = .ok S)
    (h' : Spec.scatteringMatrix k0 Vg Vr Vt (Ls ++ { L with d := d1 } :: { L with d := d2 } :: Ls') = .ok S') : S' = S := by
  obtain ⟨hW, hV⟩ := scatteringMatrix_units h
  refine scatters_ext fun a1 a2 b1 b2 k => (scatteringMatrix_scatters h a1 a2 b1 b2).mpr ?_
  have k := (scatteringMatrix_scatters h' a1 a2 b1 b2).mp k
  unfold Spec.StackScatters at k ⊢
  rw [through_append] at k ⊢
  obtain ⟨E, H, k1, E1, H1, k2, E2, H2, k3, k4⟩ := k
  exact ⟨E, H, k1, E2, H2, (crosses_cut (L := L) hW hV).mpr ⟨E1, H1, k2, k3⟩, k4⟩

/-- Non-vacuity: three orders, a film whose modes have twice the magnetic field of the gaps. -/
example : ∃ S : SDict (Fin 3), Spec.scatteringMatrix 1 1 1 1 [⟨1, (2 : ℂ) • 1, fun _ => 1, 1⟩] = .ok S ∧ S.S11 ≠ 0 := by
  have hX : (diagonal fun _ => Complex.exp (-1 * ((1 : ℝ) : ℂ) * ((1 : ℝ) : ℂ)) : Matrix (Fin 3) (Fin 3) ℂ) = ((Real.exp (-1) : ℝ) : ℂ) • 1 := by
    rw [← diagonal_one, ← diagonal_smul]
    congr 1
    funext i
    simp
  have hx : 0 < Real.exp (-1) := Real.exp_pos _
  have hx1 : Real.exp (-1) < 1 := by
    rw [Real.exp_lt_one_iff]
    norm_num
  set x := Real.exp (-1) with hxd
  have hT : ((3 / 2 - x * (1 / 2) * (2 / 3) * x * (1 / 2) : ℝ) : ℂ) ≠ 0 := by
    norm_cast
    nlinarith
  have hAB : A_B_matrices (1 : Matrix (Fin 3) (Fin 3) ℂ) 1 ((2 : ℂ) • 1) 1 = .ok ((3 / 2 : ℂ) • 1, (1 / 2 : ℂ) • 1) := by
    refine Except.bind_ok.mpr ⟨_, npInv_one, Except.bind_ok.mpr ⟨_, npInv_scalar two_ne_zero, ?_⟩⟩
    congr 2
    · rw [mul_one, mul_one]
      module
    · rw [mul_one, mul_one]
      module
  refine ⟨_, film_matrix (by simp) hAB (Except.bind_ok.mpr ⟨_, npInv_scalar (by norm_num), Except.bind_ok.mpr
    ⟨((3 / 2 - x * (1 / 2) * (2 / 3) * x * (1 / 2) : ℝ) : ℂ)⁻¹ • 1, ?_, rfl⟩⟩), ?_⟩
  · rw [hX]
    refine Eq.trans (congrArg npInv ?_) (npInv_scalar hT)
    simp only [smul_mul_smul_comm, mul_one, ← sub_smul]
    congr 1
    push_cast
    norm_num
  · intro h0
    dsimp only at h0
    rw [hX] at h0
    simp only [smul_mul_smul_comm, mul_one, ← sub_smul] at h0
    have h1 := congrFun (congrFun h0 0) 0
    simp only [Matrix.smul_apply, one_apply_eq, smul_eq_mul, mul_one, Matrix.zero_apply] at h1
    rcases mul_eq_zero.mp h1 with h2 | h2
    · exact hT (inv_eq_zero.mp h2)
    · have h3 : ((x * (1 / 2) * (3 / 2)⁻¹ * x * (3 / 2) - 1 / 2 : ℝ) : ℂ) = 0 := by
        push_cast
        exact h2
      have h4 : x * (1 / 2) * (3 / 2)⁻¹ * x * (3 / 2) - 1 / 2 = 0 := by exact_mod_cast h3
      nlinarith

end Meent

#print axioms Meent.C93_star
#print axioms Meent.C93_star_assoc
#print axioms Meent.C93_stack
#print axioms Meent.C93_gap
#print axioms Meent.C93_cut
