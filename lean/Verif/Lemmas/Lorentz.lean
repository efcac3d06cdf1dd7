import Mathlib.Analysis.Calculus.MeanValue
import Verif.Spec.Maxwell

/-!
# Lorentz reciprocity for the diffraction orders (helper lemmas)

A bilinear form of two solutions of Maxwell's equations, one with wavevectors `k` and one with `-k` and transposed
convolution matrices, does not depend on the depth.
-/

open Matrix

namespace Meent

set_option linter.unusedSectionVars false
set_option linter.unusedSimpArgs false

variable {m : Type} [Fintype m]

/-! ### Renumbering the orders -/

/-- Renumbered orders. -/
def Conv.reindex (J : m ≃ m) (c : Conv m) : Conv m :=
  ⟨c.epx.submatrix J J, c.epy.submatrix J J, c.epzi.submatrix J J⟩

/-- Renumbered orders. -/
def reindexF (J : m ≃ m) (f : Spec.OrderFields m) : Spec.OrderFields m :=
  ⟨fun t i => f.Ex t (J i), fun t i => f.Ey t (J i), fun t i => f.Ez t (J i),
    fun t i => f.Hx t (J i), fun t i => f.Hy t (J i), fun t i => f.Hz t (J i)⟩

theorem submatrix_mulVec_J (J : m ≃ m) (M : Matrix m m ℂ) (v : m → ℂ) :
    M.submatrix J J *ᵥ (fun i => v (J i)) = fun i => (M *ᵥ v) (J i) := by
  ext i
  simp only [mulVec, dotProduct, submatrix_apply]
  exact Equiv.sum_comp J fun j => M (J i) j * v j

theorem maxwell_reindex (J : m ≃ m) {k0 : ℝ} {kx ky : m → ℂ} {c : Conv m} {D : Set ℝ} {f : Spec.OrderFields m}
    (h : Spec.Maxwell k0 kx ky c D f) :
    Spec.Maxwell k0 (fun i => kx (J i)) (fun i => ky (J i)) (c.reindex J) D (reindexF J f) := by
  obtain ⟨a, b, x, y, h1, h2, h3, h4, h⟩ := h
  refine ⟨fun t i => a t (J i), fun t i => b t (J i), fun t i => x t (J i), fun t i => y t (J i),
    fun t ht i => h1 t ht (J i), fun t ht i => h2 t ht (J i), fun t ht i => h3 t ht (J i), fun t ht i => h4 t ht (J i), ?_⟩
  intro t ht
  obtain ⟨e1, e2, e3, e4, e5, e6⟩ := h t ht
  refine ⟨?_, ?_, ?_, ?_, ?_, ?_⟩
  · ext i; exact congrFun e1 (J i)
  · ext i; exact congrFun e2 (J i)
  · ext i; exact congrFun e3 (J i)
  · ext i
    have := congrFun e4 (J i)
    simp only [Conv.reindex, reindexF, submatrix_mulVec_J] at this ⊢
    exact this
  · ext i
    have := congrFun e5 (J i)
    simp only [Conv.reindex, reindexF, submatrix_mulVec_J] at this ⊢
    exact this
  · ext i
    have := congrFun e6 (J i)
    have e := congrFun (submatrix_mulVec_J J c.epzi ((fun i => -Complex.I * k0 * kx i * f.Hy t i)
      - fun i => -Complex.I * k0 * ky i * f.Hx t i)) i
    exact e.trans this

theorem solves_reindex (J : m ≃ m) {k0 : ℝ} {kx ky : m → ℂ} : ∀ {ls : List (Conv m × ℝ)} {fs : List (Spec.OrderFields m)}
    {top bot : m → Spec.Tangential}, Spec.SolvesStack k0 kx ky ls fs top bot →
    Spec.SolvesStack k0 (fun i => kx (J i)) (fun i => ky (J i)) (ls.map fun x => (x.1.reindex J, x.2)) (fs.map (reindexF J))
      (fun i => top (J i)) (fun i => bot (J i))
  | [], [], top, bot, h => by
    obtain rfl : top = bot := h
    rfl
  | (c, d) :: ls, f :: fs, top, bot, h => by
    obtain ⟨h1, h2, h3⟩ := h
    refine ⟨maxwell_reindex J h1, ?_, solves_reindex J h3⟩
    rw [← h2]; rfl
  | [], _ :: _, _, _, h => h.elim
  | _ :: _, [], _, _, h => h.elim

/-! ### The conserved form -/

/-- The `z` component of `E × H' - E' × H`. -/
noncomputable def lor1 (a b : Spec.Tangential) : ℂ := a.Ex * b.Hy - a.Ey * b.Hx - b.Ex * a.Hy + b.Ey * a.Hx

noncomputable def lorentz (a b : m → Spec.Tangential) : ℂ := ∑ i, lor1 (a i) (b i)

def Conv.tr (c : Conv m) : Conv m := ⟨c.epxᵀ, c.epyᵀ, c.epziᵀ⟩

theorem sum_tr (M : Matrix m m ℂ) (u v : m → ℂ) : ∑ i, u i * (Mᵀ *ᵥ v) i = ∑ i, v i * (M *ᵥ u) i := by
  have : u ⬝ᵥ (Mᵀ *ᵥ v) = v ⬝ᵥ (M *ᵥ u) := by
    rw [mulVec_transpose, dotProduct_comm, ← dotProduct_mulVec]
  exact this

theorem lorentz_layer {k0 : ℝ} {kx ky : m → ℂ} {c : Conv m} {d : ℝ} {f g : Spec.OrderFields m}
    (hf : Spec.Maxwell k0 kx ky c (Set.uIcc 0 d) f)
    (hg : Spec.Maxwell k0 (fun i => -kx i) (fun i => -ky i) c.tr (Set.uIcc 0 d) g) :
    lorentz (f.tan 0) (g.tan 0) = lorentz (f.tan d) (g.tan d) := by
  obtain ⟨zEx, zEy, zHx, zHy, a1, a2, a3, a4, ha⟩ := hf
  obtain ⟨zEx', zEy', zHx', zHy', b1, b2, b3, b4, hb⟩ := hg
  have key : ∀ t ∈ Set.uIcc 0 d, HasDerivWithinAt (fun t => lorentz (f.tan t) (g.tan t)) 0 (Set.uIcc 0 d) t := by
    intro t ht
    have hd : HasDerivWithinAt (fun t => lorentz (f.tan t) (g.tan t))
        (∑ i, ((-zEx t i * g.Hy t i + f.Ex t i * -zHy' t i) - (-zEy t i * g.Hx t i + f.Ey t i * -zHx' t i)
          - (-zEx' t i * f.Hy t i + g.Ex t i * -zHy t i) + (-zEy' t i * f.Hx t i + g.Ey t i * -zHx t i)))
        (Set.uIcc 0 d) t := by
      unfold lorentz lor1 Spec.OrderFields.tan
      refine HasDerivWithinAt.fun_sum fun i _ => ?_
      exact ((((a1 t ht i).mul (b4 t ht i)).sub ((a2 t ht i).mul (b3 t ht i))).sub
        ((b1 t ht i).mul (a4 t ht i))).add ((b2 t ht i).mul (a3 t ht i))
    have e : (∑ i, ((-zEx t i * g.Hy t i + f.Ex t i * -zHy' t i) - (-zEy t i * g.Hx t i + f.Ey t i * -zHx' t i)
          - (-zEx' t i * f.Hy t i + g.Ex t i * -zHy t i) + (-zEy' t i * f.Hx t i + g.Ey t i * -zHx t i))) = 0 := by
      obtain ⟨e1, e2, e3, e4, e5, e6⟩ := ha t ht
      obtain ⟨g1, g2, g3, g4, g5, g6⟩ := hb t ht
      set w : m → ℂ := (fun i => -Complex.I * k0 * kx i * f.Hy t i) - fun i => -Complex.I * k0 * ky i * f.Hx t i with hw
      set w' : m → ℂ := (fun i => -Complex.I * k0 * -kx i * g.Hy t i) - fun i => -Complex.I * k0 * -ky i * g.Hx t i with hw'
      have s1 := sum_tr c.epx (f.Ex t) (g.Ex t)
      have s2 := sum_tr c.epy (f.Ey t) (g.Ey t)
      have s3 : ∑ i, w' i * f.Ez t i = ∑ i, w i * g.Ez t i := by
        by_cases hk : k0 = 0
        · simp only [hw, hw', hk, Pi.sub_apply, Complex.ofReal_zero, mul_zero, zero_mul, sub_zero, Finset.sum_const_zero]
        · have hk' : Complex.I * (k0 : ℂ) ≠ 0 := mul_ne_zero Complex.I_ne_zero (by exact_mod_cast hk)
          apply mul_left_cancel₀ hk'
          have s := sum_tr c.epzi w w'
          have e6' : c.epzi *ᵥ w = (Complex.I * k0) • f.Ez t := e6
          have g6' : c.epziᵀ *ᵥ w' = (Complex.I * k0) • g.Ez t := g6
          rw [e6', g6'] at s
          rw [Finset.mul_sum, Finset.mul_sum]
          refine Eq.trans ?_ (s.symm.trans ?_) <;> refine Finset.sum_congr rfl fun i _ => ?_ <;>
            simp only [Pi.smul_apply, smul_eq_mul] <;> ring
      have s4 : ∀ i, ((-zEx t i * g.Hy t i + f.Ex t i * -zHy' t i) - (-zEy t i * g.Hx t i + f.Ey t i * -zHx' t i)
          - (-zEx' t i * f.Hy t i + g.Ex t i * -zHy t i) + (-zEy' t i * f.Hx t i + g.Ey t i * -zHx t i))
          = Complex.I * k0 * (f.Ex t i * (c.epxᵀ *ᵥ g.Ex t) i - g.Ex t i * (c.epx *ᵥ f.Ex t) i)
            + Complex.I * k0 * (f.Ey t i * (c.epyᵀ *ᵥ g.Ey t) i - g.Ey t i * (c.epy *ᵥ f.Ey t) i)
            + (w' i * f.Ez t i - w i * g.Ez t i) := by
        intro i
        have e1 := congrFun e1 i
        have e2 := congrFun e2 i
        have e3 := congrFun e3 i
        have e4 := congrFun e4 i
        have e5 := congrFun e5 i
        have g1 := congrFun g1 i
        have g2 := congrFun g2 i
        have g3 := congrFun g3 i
        have g4 := congrFun g4 i
        have g5 := congrFun g5 i
        simp only [Pi.sub_apply, Pi.smul_apply, smul_eq_mul, Conv.tr, hw, hw'] at *
        linear_combination (-g.Hy t i) * e2 + f.Ex t i * g4 - g.Hx t i * e1 + f.Ey t i * g5 + f.Hy t i * g2
          - g.Ex t i * e4 + f.Hx t i * g1 - g.Ey t i * e5 - g.Hz t i * e3 + f.Hz t i * g3
      rw [Finset.sum_congr rfl fun i _ => s4 i, Finset.sum_add_distrib, Finset.sum_add_distrib, ← Finset.mul_sum,
        ← Finset.mul_sum, Finset.sum_sub_distrib, Finset.sum_sub_distrib, Finset.sum_sub_distrib, s1, s2, s3]
      ring
    rw [e] at hd
    exact hd
  have := Convex.norm_image_sub_le_of_norm_hasDerivWithin_le (C := 0) key (fun x _ => by simp) (convex_uIcc 0 d)
    Set.left_mem_uIcc Set.right_mem_uIcc
  rw [zero_mul, norm_le_zero_iff, sub_eq_zero] at this
  exact this.symm

theorem lorentz_stack {k0 : ℝ} {kx ky : m → ℂ} : ∀ {ls : List (Conv m × ℝ)} {fs gs : List (Spec.OrderFields m)}
    {a a' b b' : m → Spec.Tangential}, Spec.SolvesStack k0 kx ky ls fs a b →
    Spec.SolvesStack k0 (fun i => -kx i) (fun i => -ky i) (ls.map fun x => (x.1.tr, x.2)) gs a' b' →
    lorentz a a' = lorentz b b'
  | [], [], [], a, a', b, b', h, h' => by
    obtain rfl : a = b := h
    obtain rfl : a' = b' := h'
    rfl
  | (c, d) :: ls, f :: fs, g :: gs, a, a', b, b', h, h' => by
    obtain ⟨h1, h2, h3⟩ := h
    obtain ⟨g1, g2, g3⟩ := h'
    rw [← h2, ← g2, lorentz_layer h1 g1]
    exact lorentz_stack h3 g3
  | [], _ :: _, _, _, _, _, _, h, _ => h.elim
  | _ :: _, [], _, _, _, _, _, h, _ => h.elim
  | [], [], _ :: _, _, _, _, _, _, h => h.elim
  | _ :: _, _ :: _, [], _, _, _, _, _, h => h.elim

end Meent
