import Verif.Lemmas.ScatteringFlip
import Verif.Lemmas.ScatteringFilm

/-!
# C98: turning a stack over, and layers without thickness
-/

open Matrix

namespace Meent

variable {n : Type} [Fintype n] [DecidableEq n]

/-- **C98, turning over.**  The same layers from bottom to top, between exchanged half spaces, have the matrix with both sides exchanged.  The gap medium may differ. -/
theorem C98_flip (k0 : ℝ) (Vg Vg' Vr Vt : Matrix n n ℂ) (Ls : List (Spec.SLayer n)) (S S' : SDict n) (h : Spec.scatteringMatrix k0 Vg Vr Vt Ls = .ok S)
    (h' : Spec.scatteringMatrix k0 Vg' Vt Vr Ls.reverse = .ok S') : S' = ⟨S.S22, S.S21, S.S12, S.S11⟩ := by
  refine scatters_ext fun a1 a2 b1 b2 k => ?_
  have k := stack_flip ((scatteringMatrix_scatters h' a1 a2 b1 b2).mp k)
  rw [List.reverse_reverse] at k
  obtain ⟨e1, e2⟩ := (scatteringMatrix_scatters h a2 a1 b2 b1).mpr k
  exact ⟨e2.trans (add_comm _ _), e1.trans (add_comm _ _)⟩

/-- **C98, symmetric stacks.**  A stack that is the same from both sides reflects and transmits the same on both sides. -/
theorem C98_symmetric (k0 : ℝ) (Vg V : Matrix n n ℂ) (Ls : List (Spec.SLayer n)) (hL : Ls.reverse = Ls) (S : SDict n) (h : Spec.scatteringMatrix k0 Vg V V Ls = .ok S) :
    S.S22 = S.S11 ∧ S.S21 = S.S12 := by
  have e := C98_flip k0 Vg Vg V V Ls S S h (by rw [hL]; exact h)
  exact ⟨(congrArg SDict.S11 e).symm, (congrArg SDict.S12 e).symm⟩

/-- **C98, no thickness.**  A layer of thickness zero, anywhere in the stack, does not change the matrix. -/
theorem C98_zero (k0 : ℝ) (Vg Vr Vt : Matrix n n ℂ) (Ls Ls' : List (Spec.SLayer n)) (L : Spec.SLayer n) (hd : L.d = 0) (S S' : SDict n)
    (h : Spec.scatteringMatrix k0 Vg Vr Vt (Ls ++ Ls') = .ok S) (h' : Spec.scatteringMatrix k0 Vg Vr Vt (Ls ++ L :: Ls') = .ok S') : S' = S := by
  refine scatters_ext fun a1 a2 b1 b2 k => (scatteringMatrix_scatters h a1 a2 b1 b2).mpr ?_
  have k := (scatteringMatrix_scatters h' a1 a2 b1 b2).mp k
  unfold Spec.StackScatters at k ⊢
  rw [through_append] at k ⊢
  obtain ⟨E, H, k1, E1, H1, k2, k3⟩ := k
  obtain ⟨rfl, rfl⟩ := crosses_zero hd k2
  exact ⟨E, H, k1, k3⟩

/-- Non-vacuity of the first two: three orders, an absorbing film, the same from both sides. -/
example : ∃ (V : Matrix (Fin 3) (Fin 3) ℂ) (L : Spec.SLayer (Fin 3)) (S : SDict (Fin 3)), [L].reverse = [L] ∧ L.d ≠ 0 ∧ Spec.scatteringMatrix 1 V V V [L] = .ok S := by
  obtain ⟨S, hS⟩ := film_scatters (n := Fin 3) (k0 := 1) (d := 1) (q := 1 + Complex.I) (v := 2 * Complex.I) (by norm_num) (by norm_num) (by simp) (by simp)
  exact ⟨_, _, S, rfl, one_ne_zero, hS⟩

/-- Non-vacuity of the third: the same film without thickness, and the bare interface. -/
example : ∃ (V : Matrix (Fin 3) (Fin 3) ℂ) (L : Spec.SLayer (Fin 3)) (S S' : SDict (Fin 3)), L.d = 0 ∧ Spec.scatteringMatrix 1 V V V [] = .ok S ∧
    Spec.scatteringMatrix 1 V V V [L] = .ok S' := by
  obtain ⟨S, hS⟩ := film_scatters (n := Fin 3) (k0 := 1) (d := 0) (q := 1 + Complex.I) (v := 2 * Complex.I) (by norm_num) (by norm_num) (by simp) (by simp)
  have hs : ((Real.sqrt 3 / 2 : ℝ) : ℂ) ≠ 0 := by
    rw [Complex.ofReal_ne_zero]; positivity
  have hg : IsUnit ((Complex.I * ((Real.sqrt 3 / 2 : ℝ) : ℂ)) • (1 : Matrix (Fin 3) (Fin 3) ℂ)).det := by
    rw [det_smul, det_one, mul_one]
    exact (isUnit_iff_ne_zero.mpr (mul_ne_zero Complex.I_ne_zero hs)).pow _
  refine ⟨_, _, ⟨0, 1, 1, 0⟩, S, rfl, ?_, hS⟩
  exact Except.bind_ok.mpr ⟨_, half_same hg, Except.bind_ok.mpr ⟨_, S_RT_same _, Except.bind_ok.mpr ⟨_, rfl, Except.bind_ok.mpr ⟨_, half_same hg,
    Except.bind_ok.mpr ⟨_, S_RT_same _, star_one_left _⟩⟩⟩⟩⟩

end Meent

#print axioms Meent.C98_flip
#print axioms Meent.C98_symmetric
#print axioms Meent.C98_zero
