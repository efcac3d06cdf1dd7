import Verif.Lemmas.ScatteringExample

/-!
# Turning a stack over (helper lemmas)
-/

open Matrix

namespace Meent

variable {n : Type} [Fintype n] [DecidableEq n]

theorem crosses_flip {k0 : ℝ} {L : Spec.SLayer n} {E H E' H' : n → ℂ} (h : Spec.Crosses k0 L E H E' H') : Spec.Crosses k0 L E' (-H') E (-H) := by
  obtain ⟨u, v, rfl, rfl, rfl, rfl⟩ := h
  refine ⟨v, u, ?_, ?_, ?_, ?_⟩
  · rw [add_comm]
  · rw [← mulVec_neg, neg_sub]
  · rw [add_comm]
  · rw [← mulVec_neg, neg_sub]

theorem through_flip {k0 : ℝ} : ∀ {Ls : List (Spec.SLayer n)} {E H E' H' : n → ℂ}, Spec.Through k0 Ls E H E' H' → Spec.Through k0 Ls.reverse E' (-H') E (-H)
  | [], _, _, _, _, ⟨h1, h2⟩ => ⟨h1.symm, congrArg Neg.neg h2.symm⟩
  | L :: Ls, _, H, _, _, ⟨E1, H1, h1, h2⟩ => by
    rw [List.reverse_cons, through_append]
    exact ⟨E1, -H1, through_flip h2, _, _, crosses_flip h1, rfl, rfl⟩

theorem stack_flip {k0 : ℝ} {Vr Vt : Matrix n n ℂ} {Ls : List (Spec.SLayer n)} {a1 a2 b1 b2 : n → ℂ} (h : Spec.StackScatters k0 Vr Vt Ls a1 a2 b1 b2) :
    Spec.StackScatters k0 Vt Vr Ls.reverse a2 a1 b2 b1 := by
  have := through_flip h
  unfold Spec.StackScatters
  rw [← mulVec_neg, ← mulVec_neg, neg_sub, neg_sub, add_comm b2 a2, add_comm a1 b1] at this
  exact this

theorem crosses_zero {k0 : ℝ} {L : Spec.SLayer n} (hd : L.d = 0) {E H E' H' : n → ℂ} (h : Spec.Crosses k0 L E H E' H') : E = E' ∧ H = H' := by
  have hX : L.X k0 = 1 := by
    unfold Spec.SLayer.X
    rw [hd, ← diagonal_one]
    congr 1
    funext i
    simp
  obtain ⟨u, v, rfl, rfl, rfl, rfl⟩ := h
  simp only [hX, one_mulVec, and_self]

end Meent
