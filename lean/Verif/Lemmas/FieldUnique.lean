import Mathlib.Analysis.ODE.ExistUnique
import Mathlib.Analysis.Calculus.Deriv.Prod
import Mathlib.Analysis.Calculus.Deriv.Pi
import Mathlib.Topology.Algebra.Module.FiniteDimension
import Verif.Lemmas.BvpSolve
import Verif.Lemmas.Flat
import Verif.Spec.Maxwell
import Verif.Spec.FieldFunction

/-!
# The fields of a stack are determined by the tangential fields at its top (helper lemmas)
-/

open Matrix

namespace Meent

set_option linter.unusedSectionVars false
set_option linter.unusedSimpArgs false
set_option linter.unusedVariables false

/-- Solutions of a linear differential equation on an interval that starts at `0`, on either side, agree if they agree at `0`. -/
theorem linear_ode_unique {E : Type*} [NormedAddCommGroup E] [NormedSpace ℝ E] (A : E →L[ℝ] E) {f g : ℝ → E} {d : ℝ}
    (hf : ∀ t ∈ Set.uIcc 0 d, HasDerivWithinAt f (A (f t)) (Set.uIcc 0 d) t)
    (hg : ∀ t ∈ Set.uIcc 0 d, HasDerivWithinAt g (A (g t)) (Set.uIcc 0 d) t) (h0 : f 0 = g 0) :
    ∀ t ∈ Set.uIcc 0 d, f t = g t := by
  have hL : ∀ t : ℝ, LipschitzOnWith ‖A‖₊ (fun x : E => A x) Set.univ := fun t => A.lipschitz.lipschitzOnWith
  rcases le_total 0 d with hd | hd
  · rw [Set.uIcc_of_le hd] at *
    have r : ∀ {f : ℝ → E}, (∀ t ∈ Set.Icc 0 d, HasDerivWithinAt f (A (f t)) (Set.Icc 0 d) t) →
        ∀ t ∈ Set.Ico 0 d, HasDerivWithinAt f (A (f t)) (Set.Ici t) t := by
      intro f hf t ht
      exact ((hf t ⟨ht.1, ht.2.le⟩).mono (Set.Icc_subset_Icc_left ht.1)).mono_of_mem_nhdsWithin (Icc_mem_nhdsGE ht.2)
    exact ODE_solution_unique_of_mem_Icc_right (v := fun _ x => A x) (s := fun _ => Set.univ) (fun t _ => hL t)
      (fun t ht => (hf t ht).continuousWithinAt) (r hf) (fun _ _ => trivial)
      (fun t ht => (hg t ht).continuousWithinAt) (r hg) (fun _ _ => trivial) h0
  · rw [Set.uIcc_of_ge hd] at *
    have r : ∀ {f : ℝ → E}, (∀ t ∈ Set.Icc d 0, HasDerivWithinAt f (A (f t)) (Set.Icc d 0) t) →
        ∀ t ∈ Set.Ioc d 0, HasDerivWithinAt f (A (f t)) (Set.Iic t) t := by
      intro f hf t ht
      exact ((hf t ⟨ht.1.le, ht.2⟩).mono (Set.Icc_subset_Icc_right ht.2)).mono_of_mem_nhdsWithin (Icc_mem_nhdsLE ht.1)
    exact ODE_solution_unique_of_mem_Icc_left (v := fun _ x => A x) (s := fun _ => Set.univ) (fun t _ => hL t)
      (fun t ht => (hf t ht).continuousWithinAt) (r hf) (fun _ _ => trivial)
      (fun t ht => (hg t ht).continuousWithinAt) (r hg) (fun _ _ => trivial) h0

section
variable {n : Type} [Fintype n] [DecidableEq n]

/-- The right-hand side of the equations of a layer. -/
noncomputable def layerMap (k0 : ℝ) (P R : Matrix n n ℂ) : (n → ℂ) × (n → ℂ) →L[ℝ] (n → ℂ) × (n → ℂ) :=
  LinearMap.toContinuousLinearMap (𝕜 := ℝ)
    { toFun := fun x => ((k0 : ℂ) • (P *ᵥ x.2), (k0 : ℂ) • (R *ᵥ x.1))
      map_add' := fun x y => by simp [mulVec_add]
      map_smul' := fun a x => by
        ext i
        · simp only [Prod.smul_snd, mulVec_smul, Pi.smul_apply, Complex.real_smul, smul_eq_mul, RingHom.id_apply, Prod.smul_fst]
          ring
        · simp only [Prod.smul_fst, mulVec_smul, Pi.smul_apply, Complex.real_smul, smul_eq_mul, RingHom.id_apply, Prod.smul_snd]
          ring }

theorem PRSol.unique {k0 : ℝ} {P R : Matrix n n ℂ} {d : ℝ} {S U S' U' : ℝ → n → ℂ} (h : PRSol k0 P R (Set.uIcc 0 d) S U)
    (h' : PRSol k0 P R (Set.uIcc 0 d) S' U') (hS : S 0 = S' 0) (hU : U 0 = U' 0) :
    ∀ t ∈ Set.uIcc 0 d, S t = S' t ∧ U t = U' t := by
  have key : ∀ {S U : ℝ → n → ℂ}, PRSol k0 P R (Set.uIcc 0 d) S U → ∀ t ∈ Set.uIcc 0 d,
      HasDerivWithinAt (fun t => (S t, U t)) (layerMap k0 P R (S t, U t)) (Set.uIcc 0 d) t := by
    intro S U h t ht
    exact HasDerivWithinAt.prodMk (hasDerivWithinAt_pi.mpr fun i => h.dS t ht i) (hasDerivWithinAt_pi.mpr fun i => h.dU t ht i)
  intro t ht
  exact Prod.mk.inj (linear_ode_unique (layerMap k0 P R) (key h) (key h') (by simp only [hS, hU]) t ht)
end

section
variable {m : Type} [Fintype m] [DecidableEq m]

/-- The six amplitudes of two fields agree at a depth. -/
structure SameAt (f f' : Spec.OrderFields m) (t : ℝ) : Prop where
  Ex : f.Ex t = f'.Ex t
  Ey : f.Ey t = f'.Ey t
  Ez : f.Ez t = f'.Ez t
  Hx : f.Hx t = f'.Hx t
  Hy : f.Hy t = f'.Hy t
  Hz : f.Hz t = f'.Hz t

theorem maxwell_unique {k0 : ℝ} (hk : k0 ≠ 0) {kx ky : m → ℂ} {c : Conv m} {d : ℝ} {f f' : Spec.OrderFields m}
    (h : Spec.Maxwell k0 kx ky c (Set.uIcc 0 d) f) (h' : Spec.Maxwell k0 kx ky c (Set.uIcc 0 d) f') (h0 : f.tan 0 = f'.tan 0) :
    ∀ t ∈ Set.uIcc 0 d, SameAt f f' t := by
  have hk' : (k0 : ℂ) ≠ 0 := by exact_mod_cast hk
  have a : ∀ i, f.tan 0 i = f'.tan 0 i := fun i => congrFun h0 i
  have aEx : f.Ex 0 = f'.Ex 0 := funext fun i => congrArg Spec.Tangential.Ex (a i)
  have aEy : f.Ey 0 = f'.Ey 0 := funext fun i => congrArg Spec.Tangential.Ey (a i)
  have aHx : f.Hx 0 = f'.Hx 0 := funext fun i => congrArg Spec.Tangential.Hx (a i)
  have aHy : f.Hy 0 = f'.Hy 0 := funext fun i => congrArg Spec.Tangential.Hy (a i)
  have hu := (pr_of_maxwell h).unique (pr_of_maxwell h') (by unfold fS; rw [aEx, aEy]) (by unfold fU; rw [aHx, aHy])
  intro t ht
  obtain ⟨hS, hU⟩ := hu t ht
  have eEx : f.Ex t = f'.Ex t := funext fun i => congrFun hS (.inl i)
  have eEy : f.Ey t = f'.Ey t := funext fun i => congrFun hS (.inr i)
  have hI : -Complex.I ≠ 0 := neg_ne_zero.mpr Complex.I_ne_zero
  have eHx : f.Hx t = f'.Hx t := funext fun i => mul_left_cancel₀ hI (congrFun hU (.inl i))
  have eHy : f.Hy t = f'.Hy t := funext fun i => mul_left_cancel₀ hI (congrFun hU (.inr i))
  obtain ⟨_, _, _, _, -, -, -, -, q⟩ := h
  obtain ⟨_, _, _, _, -, -, -, -, q'⟩ := h'
  obtain ⟨-, -, e3, -, -, e6⟩ := q t ht
  obtain ⟨-, -, e3', -, -, e6'⟩ := q' t ht
  simp only [eEx, eEy, eHx, eHy] at e3 e6
  refine ⟨eEx, eEy, ?_, eHx, eHy, ?_⟩
  · exact smul_right_injective _ (mul_ne_zero Complex.I_ne_zero hk') (e6.symm.trans e6')
  · exact smul_right_injective _ (mul_ne_zero hI hk') (e3.symm.trans e3')

theorem solvesStack_length {k0 : ℝ} {kx ky : m → ℂ} : ∀ {ls : List (Conv m × ℝ)} {fs : List (Spec.OrderFields m)} {top bot : m → Spec.Tangential},
    Spec.SolvesStack k0 kx ky ls fs top bot → fs.length = ls.length
  | [], [], _, _, _ => rfl
  | (c, d) :: ls, f :: fs, _, _, h => by
    simp only [List.length_cons, solvesStack_length h.2.2]
  | [], _ :: _, _, _, h => h.elim
  | (_, _) :: _, [], _, _, h => h.elim

theorem solvesStack_unique {k0 : ℝ} (hk : k0 ≠ 0) {kx ky : m → ℂ} : ∀ {ls : List (Conv m × ℝ)} {fs fs' : List (Spec.OrderFields m)}
    {top bot bot' : m → Spec.Tangential}, Spec.SolvesStack k0 kx ky ls fs top bot → Spec.SolvesStack k0 kx ky ls fs' top bot' →
    ∀ (k : ℕ) (d : ℝ) (f f' : Spec.OrderFields m), (ls.map Prod.snd)[k]? = some d → fs[k]? = some f → fs'[k]? = some f' →
      ∀ t ∈ Set.uIcc 0 d, SameAt f f' t
  | [], [], [], _, _, _, _, _ => fun k d f f' h => by simp at h
  | (c, d) :: ls, f :: fs, f' :: fs', _, _, _, h, h' => by
    have hu := maxwell_unique hk h.1 h'.1 (h.2.1.trans h'.2.1.symm)
    intro k
    cases k with
    | zero =>
      intro d' g g' hd hg hg'
      simp only [List.map_cons, List.getElem?_cons_zero, Option.some.injEq] at hd hg hg'
      subst hd; subst hg; subst hg'
      exact hu
    | succ k =>
      intro d' g g' hd hg hg'
      simp only [List.map_cons, List.getElem?_cons_succ] at hd hg hg'
      have hr := h'.2.2
      have he : f'.tan d = f.tan d := by
        have := hu d Set.right_mem_uIcc
        funext i
        unfold Spec.OrderFields.tan
        rw [this.Ex, this.Ey, this.Hx, this.Hy]
      rw [he] at hr
      exact solvesStack_unique hk h.2.2 hr k d' g g' hd hg hg'
  | [], _ :: _, _, _, _, _, h, _ => h.elim
  | [], [], _ :: _, _, _, _, _, h => h.elim
  | (_, _) :: _, [], _, _, _, _, h, _ => h.elim
  | (_, _) :: _, _ :: _, [], _, _, _, _, h => h.elim

theorem at_same {k0 : ℝ} {kx ky : m → ℂ} {f f' : Spec.OrderFields m} {t : ℝ} (h : SameAt f f' t) (x y : ℝ) :
    f.at k0 kx ky x y t = f'.at k0 kx ky x y t := by
  unfold Spec.OrderFields.at
  rw [h.Ex, h.Ey, h.Ez, h.Hx, h.Hy, h.Hz]

theorem samplePoint_one (d : ℝ) (n : ℕ) (i : Fin n) : Spec.samplePoint d n i = Spec.samplePoint 1 n i * d := by
  unfold Spec.samplePoint
  split_ifs <;> ring

theorem samplePoint_unit (n : ℕ) (i : Fin n) : Spec.samplePoint 1 n i ∈ Set.Icc (0 : ℝ) 1 := by
  unfold Spec.samplePoint
  split_ifs with h
  · simp
  · have h2 : 2 ≤ n := by have := i.isLt; omega
    have h3 : (2 : ℝ) ≤ n := by exact_mod_cast h2
    have h4 : (i.val : ℝ) + 1 ≤ n := by exact_mod_cast i.isLt
    rw [mul_one]
    exact ⟨div_nonneg (Nat.cast_nonneg _) (by linarith), (div_le_one (by linarith)).mpr (by linarith)⟩

theorem mul_mem_uIcc {z d : ℝ} (hz : z ∈ Set.Icc (0 : ℝ) 1) : z * d ∈ Set.uIcc 0 d := by
  rcases le_total 0 d with hd | hd
  · rw [Set.uIcc_of_le hd]
    exact ⟨mul_nonneg hz.1 hd, mul_le_of_le_one_left hd hz.2⟩
  · rw [Set.uIcc_of_ge hd]
    exact ⟨by nlinarith [hz.2], mul_nonpos_of_nonneg_of_nonpos hz.1 hd⟩

/-- The function of position behind the fields of the layers. -/
noncomputable def stackFn (k0 : ℝ) (kx ky : m → ℂ) (ds : List ℝ) (fs : List (Spec.OrderFields m)) : Spec.FieldFn Field6 := fun k z y x =>
  match fs[k]?, ds[k]? with
  | some f, some d => f.at k0 kx ky x y (z * d)
  | _, _ => ⟨0, 0, 0, 0, 0, 0⟩

end
end Meent
