import Verif.Lemmas.Stacks

/-!
# `use_pinv` and invertible matrices (helper lemmas)
-/

open Matrix

namespace Meent

/-- Whatever `x` returns successfully, `y` returns too. -/
def Refines {α : Type} (x y : Res α) : Prop := ∀ a, x = .ok a → y = .ok a

theorem Refines.refl {α : Type} (x : Res α) : Refines x x := fun _ h => h

theorem Refines.bind {α β : Type} {x y : Res α} {f g : α → Res β} (h : Refines x y) (h' : ∀ a, Refines (f a) (g a)) :
    Refines (x >>= f) (y >>= g) := by
  intro b hb
  obtain ⟨a, ha, hb⟩ := Except.bind_ok.mp hb
  exact Except.bind_ok.mpr ⟨a, h a ha, h' a b hb⟩

theorem Refines.mapM {α β : Type} {f g : α → Res β} (h : ∀ a, Refines (f a) (g a)) (l : List α) :
    Refines (l.mapM f) (l.mapM g) := by
  intro r hr
  rw [mapM_ok] at hr ⊢
  exact hr.imp fun a b => h a b

theorem refines_meeinv (la : LinAlg) {n : Type} [Fintype n] [DecidableEq n] (A : Matrix n n ℂ) :
    Refines (meeinv la A false) (meeinv la A true) := by
  intro M hM
  obtain ⟨hu, rfl⟩ := meeinv_false_ok.mp hM
  simp [meeinv, la.pinv_law A hu]

theorem refines_tmmStep (la : LinAlg) {n : Type} [Fintype n] [DecidableEq n] (X W V : Matrix n n ℂ) (s : TState n) :
    Refines (tmmStep la false X W V s) (tmmStep la true X W V s) := by
  unfold tmmStep
  exact (refines_meeinv la _).bind fun _ => (refines_meeinv la _).bind fun _ => (refines_meeinv la _).bind fun _ => .refl _

theorem refines_1d_2 (la : LinAlg) {n : Type} [Fintype n] [DecidableEq n] (pol : ℝ) (kx : n → ℂ) (c : Conv n) :
    Refines (transfer_1d_2 la pol kx c false) (transfer_1d_2 la pol kx c true) := by
  unfold transfer_1d_2
  by_cases h0 : pol = 0
  · simp only [h0, if_true]; exact .refl _
  · by_cases h1 : pol = 1
    · simp only [h1, one_ne_zero, if_true, if_false]
      exact (refines_meeinv la _).bind fun _ => .refl _
    · simp only [h0, h1, if_false]; exact .refl _

theorem refines_1d_4 (la : LinAlg) {ff : ℕ} (pol : ℝ) (s : TState (Fin ff)) (kzt kzb : Fin ff → ℂ) (theta nt nb : ℂ) :
    Refines (transfer_1d_4 la pol s kzt kzb theta nt nb false) (transfer_1d_4 la pol s kzt kzb theta nt nb true) := by
  unfold transfer_1d_4
  by_cases h0 : pol = 0
  · simp only [h0, if_true]
    exact (refines_meeinv la _).bind fun _ => .refl _
  · by_cases h1 : pol = 1
    · simp only [h1, one_ne_zero, if_true, if_false]
      exact (refines_meeinv la _).bind fun _ => .refl _
    · simp only [h0, h1, if_false]; exact .refl _

theorem refines_2d_4 (la : LinAlg) {fx fy : ℕ} (s : TState (FlatIdx fx fy ⊕ FlatIdx fx fy)) (kzt kzb : FlatIdx fx fy → ℂ)
    (psi theta nt nb : ℂ) :
    Refines (transfer_2d_4 la s kzt kzb psi theta nt nb false) (transfer_2d_4 la s kzt kzb psi theta nt nb true) := by
  unfold transfer_2d_4
  exact (refines_meeinv la _).bind fun _ => .refl _

theorem refines_layerLoop {S C L : Type} {step step' : C → ℝ → S → Res (S × L)}
    (h : ∀ c d s, Refines (step c d s) (step' c d s)) (convs : List C) (th : List ℝ) :
    ∀ (k : ℕ) (s : S × List L), Refines (layerLoop step convs th k s) (layerLoop step' convs th k s)
  | 0, _ => .refl _
  | k + 1, s => by
    simp only [layerLoop]
    exact (Refines.refl _).bind fun _ => (Refines.refl _).bind fun _ => (h _ _ _).bind fun _ =>
      refines_layerLoop h convs th k _

theorem refines_convMats (la : LinAlg) (s : Settings) :
    Refines (α := List (Conv (FlatIdx s.p.fto.1 s.p.fto.2)))
      (convMats la (Spec.withPinv s false)) (convMats la (Spec.withPinv s true)) := by
  have hd : ∀ l fx fy e, Refines (convDiscrete la l fx fy e false) (convDiscrete la l fx fy e true) := by
    intro l fx fy e
    unfold convDiscrete
    exact (Refines.refl _).bind fun _ => (Refines.refl _).bind fun _ => (Refines.refl _).bind fun _ =>
      (refines_meeinv la _).bind fun _ => .refl _
  have hc : ∀ c fx fy, Refines (convContinuous la c fx fy false) (convContinuous la c fx fy true) := by
    intro c fx fy
    unfold convContinuous
    exact (Refines.refl _).bind fun _ => (Refines.refl _).bind fun _ => (Refines.refl _).bind fun _ =>
      (refines_meeinv la _).bind fun _ => .refl _
  unfold convMats
  rcases hu : s.ucell with u | ls
  · simp only
    split_ifs
    · exact Refines.mapM (fun l => hd _ _ _ _) _
    · exact Refines.mapM (fun l => (Refines.refl _).bind fun c => hc _ _ _) _
    · exact .refl _
  · simp only
    exact (Refines.refl _).bind fun _ => Refines.mapM (fun c => hc _ _ _) _

theorem refines_conv_solve (la : LinAlg) (s : Settings) :
    Refines (α := Solved s.p.fto.1 s.p.fto.2)
      (conv_solve la (Spec.withPinv s false)) (conv_solve la (Spec.withPinv s true)) := by
  unfold conv_solve
  refine (refines_convMats la s).bind fun convs => ?_
  have hg : gratingType (Spec.withPinv s true) = gratingType (Spec.withPinv s false) := rfl
  unfold solve_for_conv
  rw [hg]
  rcases gratingType_le (Spec.withPinv s false) with h | h | h <;> rcases ha : s.algo with _ | _ | _ <;> simp only [h] <;>
    try exact .refl _
  · refine Refines.bind ?_ fun _ => .refl _
    unfold solve_1d step1d transfer_1d_3
    exact (Refines.refl _).bind fun _ =>
      (refines_layerLoop (fun c d s => (refines_1d_2 la _ _ _).bind fun _ => (refines_tmmStep la _ _ _ _).bind fun _ => .refl _)
        _ _ _ _).bind fun _ => (refines_1d_4 la _ _ _ _ _ _ _).bind fun _ => .refl _
  · refine Refines.bind ?_ fun _ => .refl _
    unfold solve_1d_conical stepCon transfer_1d_conical_2 transfer_1d_conical_3
    refine (Refines.refl _).bind fun _ =>
      (refines_layerLoop (fun c d s => Refines.bind ((refines_meeinv la _).bind fun _ => (refines_meeinv la _).bind fun _ => .refl _)
        fun _ => (refines_tmmStep la _ _ _ _).bind fun _ => .refl _) _ _ _ _).bind fun _ => ?_
    split_ifs
    · exact .refl _
    · exact (refines_2d_4 la _ _ _ _ _ _ _).bind fun _ => .refl _
  · refine Refines.bind ?_ fun _ => .refl _
    unfold solve_2d step2d transfer_2d_2 transfer_2d_3
    exact (Refines.refl _).bind fun _ =>
      (refines_layerLoop (fun c d s => Refines.bind ((refines_meeinv la _).bind fun _ => .refl _)
        fun _ => (refines_tmmStep la _ _ _ _).bind fun _ => .refl _) _ _ _ _).bind fun _ =>
          (refines_2d_4 la _ _ _ _ _ _ _).bind fun _ => .refl _

end Meent
