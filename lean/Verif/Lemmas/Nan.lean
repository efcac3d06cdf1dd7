import Verif.Spec.Normal
import Verif.Lemmas.Dispatch
import Verif.Lemmas.Branch
import Verif.Lemmas.Orders
import Verif.Lemmas.Object

/-!
# Where NaN can come from (helper lemmas)
-/

set_option linter.unusedSectionVars false
set_option linter.unusedSimpArgs false

open Matrix

namespace Meent

theorem bind_nan {α β : Type} {x : Res α} {f : α → Res β} :
    (x >>= f) = .error .nan ↔ x = .error .nan ∨ ∃ a, x = .ok a ∧ f a = .error .nan := by
  rcases x with e | a
  · constructor
    · intro h
      left
      exact congrArg Except.error (Except.error.inj h)
    · rintro (h | ⟨a, h, -⟩)
      · cases h; rfl
      · cases h
  · constructor
    · intro h
      exact .inr ⟨a, rfl, h⟩
    · rintro (h | ⟨b, h, h2⟩)
      · cases h
      · cases h; exact h2

theorem npInv_nan {n : Type} [Fintype n] [DecidableEq n] (A : Matrix n n ℂ) : npInv A ≠ .error .nan := by
  unfold npInv
  split <;> simp

theorem meeinv_nan {n : Type} [Fintype n] [DecidableEq n] (la : LinAlg) (A : Matrix n n ℂ) (u : Bool) :
    meeinv la A u ≠ .error .nan := by
  unfold meeinv
  split
  · simp
  · exact npInv_nan A

theorem getIdx_nan {α : Type} (l : List α) (i : ℕ) : getIdx l i ≠ .error .nan := by
  unfold getIdx
  split <;> simp

theorem layerLoop_nan {S C L : Type} {step : C → ℝ → S → Res (S × L)} {convs : List C} {th : List ℝ}
    (h : ∀ c d s, step c d s ≠ .error .nan) (i : ℕ) (s : S × List L) : layerLoop step convs th i s ≠ .error .nan := by
  induction i generalizing s with
  | zero => simp [layerLoop]
  | succ i ih =>
    unfold layerLoop
    simp only [ne_eq, bind_nan, getIdx_nan, false_or, not_exists, not_and]
    intro c _ d _ hr
    rcases hr with hr | ⟨r, -, hr⟩
    · exact h _ _ _ hr
    · exact ih _ hr

theorem tmmStep_nan {n : Type} [Fintype n] [DecidableEq n] (la : LinAlg) (u : Bool) (X W V : Matrix n n ℂ)
    (s : TState n) : tmmStep la u X W V s ≠ .error .nan := by
  unfold tmmStep
  simp [bind_nan, meeinv_nan]

theorem step1d_nan {n : Type} [Fintype n] [DecidableEq n] (la : LinAlg) (p : Params) (k0 : ℝ) (kx : n → ℂ) (c : Conv n)
    (d : ℝ) (s : TState n) : step1d la p k0 kx c d s ≠ .error .nan := by
  unfold step1d transfer_1d_3 transfer_1d_2
  by_cases h0 : p.pol = 0
  · simp [bind_nan, meeinv_nan, tmmStep_nan, h0]
  · by_cases h1 : p.pol = 1 <;> simp [bind_nan, meeinv_nan, tmmStep_nan, h0, h1]

theorem stepCon_nan {m : Type} [Fintype m] [DecidableEq m] (la : LinAlg) (u : Bool) (k0 : ℝ) (kx ky φ : m → ℂ) (c : Conv m)
    (d : ℝ) (s : TState (m ⊕ m)) : stepCon la u k0 kx ky φ c d s ≠ .error .nan := by
  unfold stepCon transfer_1d_conical_3 transfer_1d_conical_2
  simp [bind_nan, meeinv_nan, tmmStep_nan]

theorem step2d_nan {m : Type} [Fintype m] [DecidableEq m] (la : LinAlg) (u : Bool) (k0 : ℝ) (kx ky φ : m → ℂ) (c : Conv m)
    (d : ℝ) (s : TState (m ⊕ m)) : step2d la u k0 kx ky φ c d s ≠ .error .nan := by
  unfold step2d transfer_2d_3 transfer_2d_2
  simp [bind_nan, meeinv_nan, tmmStep_nan]

theorem transfer_2d_4_nan {fx fy : ℕ} (la : LinAlg) (s : TState (FlatIdx fx fy ⊕ FlatIdx fx fy))
    (kz_top kz_bot : FlatIdx fx fy → ℂ) (psi theta n_top n_bot : ℂ) (u : Bool) :
    transfer_2d_4 la s kz_top kz_bot psi theta n_top n_bot u ≠ .error .nan := by
  unfold transfer_2d_4
  simp [bind_nan, meeinv_nan]

theorem transfer_1d_4_nan {ff : ℕ} (la : LinAlg) (pol : ℝ) (s : TState (Fin ff)) (kz_top kz_bot : Fin ff → ℂ)
    (theta n_top n_bot : ℂ) (u : Bool) : transfer_1d_4 la pol s kz_top kz_bot theta n_top n_bot u ≠ .error .nan := by
  unfold transfer_1d_4
  by_cases h0 : pol = 0
  · simp [bind_nan, meeinv_nan, h0]
  · by_cases h1 : pol = 1 <;> simp [bind_nan, meeinv_nan, h0, h1]

theorem transfer_2d_1_nan {m : Type} [Fintype m] [DecidableEq m] (kx ky : m → ℂ) (n_top n_bot : ℂ) :
    transfer_2d_1 kx ky n_top n_bot = .error .nan ↔ ∃ i, kx i = 0 ∧ ky i = 0 := by
  have hv : varphiAll kx ky = .error .nan ↔ ∃ i, kx i = 0 ∧ ky i = 0 := by
    unfold varphiAll
    have h1 : ∀ i, (varphi1 (kx i) (ky i)).isSome ↔ ¬(kx i = 0 ∧ ky i = 0) := by
      intro i
      unfold varphi1
      by_cases hx : kx i = 0
      · by_cases hy : ky i = 0 <;> simp [hx, hy]
      · simp [hx]
    by_cases h : ∀ i, (varphi1 (kx i) (ky i)).isSome
    · rw [dif_pos h]
      simp only [reduceCtorEq, false_iff]
      rintro ⟨i, hi⟩
      exact (h1 i).mp (h i) hi
    · rw [dif_neg h]
      simp only [true_iff]
      by_contra hc
      push Not at hc
      exact h fun i => (h1 i).mpr fun hi => hc i hi.1 hi.2
  unfold transfer_2d_1
  simp only [bind_nan, hv, reduceCtorEq, and_false, exists_false, or_false]

theorem solve_1d_nan (la : LinAlg) (p : Params) (wl : ℝ) (cs : List (Conv (Fin (2 * p.fto.1 + 1)))) :
    solve_1d la p wl cs ≠ .error .nan := by
  unfold solve_1d
  simp only [ne_eq, bind_nan, layerLoop_nan (step1d_nan la p _ _), transfer_1d_4_nan, reduceCtorEq, and_false,
    exists_false, or_false, false_or, not_exists, not_and]
  unfold transfer_1d_1
  by_cases h0 : p.pol = 0
  · simp [h0]
  · by_cases h1 : p.pol = 1 <;> simp [h0, h1]

theorem solve_con_nan (la : LinAlg) (p : Params) (wl : ℝ) (cs : List (Conv (FlatIdx p.fto.1 p.fto.2))) :
    solve_1d_conical la p wl cs = .error .nan ↔ ∃ i, kxF p wl i = 0 ∧ kyF p wl i = 0 := by
  unfold solve_1d_conical
  rw [bind_nan, transfer_2d_1_nan]
  refine or_iff_left ?_
  rintro ⟨init, -, h⟩
  rcases bind_nan.mp h with h | ⟨r, -, h⟩
  · exact layerLoop_nan (stepCon_nan la _ _ _ _ _) _ _ h
  · split at h
    · cases h
    · rcases bind_nan.mp h with h | ⟨r, -, h⟩
      · exact transfer_2d_4_nan _ _ _ _ _ _ _ _ _ h
      · cases h

theorem solve_2d_nan (la : LinAlg) (p : Params) (wl : ℝ) (cs : List (Conv (FlatIdx p.fto.1 p.fto.2))) :
    solve_2d la p wl cs = .error .nan ↔ ∃ i, kxF p wl i = 0 ∧ kyF p wl i = 0 := by
  unfold solve_2d
  rw [bind_nan, transfer_2d_1_nan]
  refine or_iff_left ?_
  rintro ⟨init, -, h⟩
  rcases bind_nan.mp h with h | ⟨r, -, h⟩
  · exact layerLoop_nan (step2d_nan la _ _ _ _ _) _ _ h
  · rcases bind_nan.mp h with h | ⟨r, -, h⟩
    · exact transfer_2d_4_nan _ _ _ _ _ _ _ _ _ h
    · cases h

theorem solve_for_conv_nan {la : LinAlg} {s : Settings} {wl : ℝ} {cs : List (Conv (FlatIdx s.p.fto.1 s.p.fto.2))} :
    solve_for_conv la s wl cs = .error .nan ↔
      gratingType s ≠ 0 ∧ s.algo = .tmm ∧ ∃ i, kxF s.p wl i = 0 ∧ kyF s.p wl i = 0 := by
  unfold solve_for_conv
  rcases gratingType_le s with h | h | h <;> rcases ha : s.algo with _ | _ | _ <;>
    simp [h, bind_nan, solve_1d_nan, solve_con_nan, solve_2d_nan]

theorem sinTheta_lt {t : ℂ} (h : t.re < Real.pi / 2) : sinTheta t = Complex.sin t := by
  unfold sinTheta
  refine if_neg ?_
  have : Real.pi / 2 < f32HalfPi := by
    have := Real.pi_lt_d20
    unfold f32HalfPi
    norm_num at this ⊢
    linarith
  linarith

theorem normal_iff {p : Params} (ht : p.theta.re < Real.pi / 2) :
    (∃ i, kxF p p.wavelength i = 0 ∧ kyF p p.wavelength i = 0) ↔ Spec.SomeAlongNormal p := by
  have hx : ∀ i : Fin (2 * p.fto.1 + 1), kxVec p p.wavelength i = 0 ↔ p.n_top * Complex.sin p.theta
      * Complex.cos (p.phi.getD 0) + ((((i : ℤ) - (p.fto.1 : ℤ) : ℤ)) : ℂ) * ((p.wavelength / p.period.1 : ℝ) : ℂ) = 0 := by
    intro i
    unfold kxVec
    rw [sinTheta_lt ht, star_eq_zero]
  have hy : ∀ i : Fin (2 * p.fto.2 + 1), kyVec p p.wavelength i = 0 ↔ p.n_top * Complex.sin p.theta
      * Complex.sin (p.phi.getD 0) + ((((i : ℤ) - (p.fto.2 : ℤ) : ℤ)) : ℂ) * ((p.wavelength / p.period.2 : ℝ) : ℂ) = 0 := by
    intro i
    unfold kyVec
    rw [sinTheta_lt ht, star_eq_zero]
  constructor
  · rintro ⟨i, h1, h2⟩
    refine ⟨_, _, ?_, ?_, (hx _).mp h1, (hy _).mp h2⟩
    · have := i.modNat.isLt
      rw [abs_le]; omega
    · have := i.divNat.isLt
      rw [abs_le]; omega
  · rintro ⟨m, k, hm, hk, h1, h2⟩
    rw [abs_le] at hm hk
    refine ⟨finProdFinEquiv (⟨(k + p.fto.2).toNat, by omega⟩, ⟨(m + p.fto.1).toNat, by omega⟩), ?_, ?_⟩
    · change kxVec p p.wavelength (finProdFinEquiv _).modNat = 0
      rw [modNat_prod, hx]
      rw [show ((((m + p.fto.1).toNat : ℕ) : ℤ) - (p.fto.1 : ℤ)) = m by omega]
      exact h1
    · change kyVec p p.wavelength (finProdFinEquiv _).divNat = 0
      rw [divNat_prod, hy]
      rw [show ((((k + p.fto.2).toNat : ℕ) : ℤ) - (p.fto.2 : ℤ)) = k by omega]
      exact h2

theorem convSolve_nan {la : LinAlg} {o o'' : Obj} (h : convSolve la o = (o'', .error .nan)) :
    ∃ u fx fy, o.structure = .ok u ∧ o.orders = .ok (fx, fy) ∧ (convMats la (o.settings u fx fy) = .error .nan ∨
      ∃ i, kxF (o.params fx fy) o.wavelength i = 0 ∧ kyF (o.params fx fy) o.wavelength i = 0) := by
  unfold convSolve at h
  rcases hs : o.structure with e | u
  · exfalso
    rw [hs] at h
    have := (Prod.mk.inj h).2
    rw [Except.error.inj this] at hs
    unfold Obj.structure at hs
    split at hs <;> (try split at hs) <;> (try split at hs) <;> simp at hs
  rcases ho : o.orders with e | ⟨fx, fy⟩
  · exfalso
    rw [hs, ho] at h
    have := (Prod.mk.inj h).2
    rw [Except.error.inj this] at ho
    unfold Obj.orders at ho
    split at ho <;> (try split at ho) <;> simp at ho
  refine ⟨u, fx, fy, rfl, rfl, ?_⟩
  rw [hs, ho] at h
  dsimp only at h
  rcases hc : convMats la (o.settings u fx fy) with e | cs
  · rw [hc] at h
    have := (Prod.mk.inj h).2
    rw [Except.error.inj this]
    exact .inl rfl
  right
  rw [hc] at h
  dsimp only at h
  rcases hr : o.ready with e | ⟨⟩
  · exfalso
    rw [hr] at h
    have := (Prod.mk.inj h).2
    rw [Except.error.inj this] at hr
    clear h
    unfold Obj.ready Obj.anglesReady at hr
    generalize o.theta = x1 at hr
    generalize o.period.length = x2 at hr
    generalize o.thickness = x3 at hr
    rcases x1 with _ | t
    · simp at hr
    · by_cases hl : x2 < 2
      · simp [hl] at hr
      · rcases x3 <;> simp [hl] at hr
  rw [hr] at h
  dsimp only at h
  rcases hv : solve_for_conv la (o.settings u fx fy) o.wavelength cs with e | r
  · rw [hv] at h
    have := (Prod.mk.inj h).2
    rw [Except.error.inj this] at hv
    exact (solve_for_conv_nan.mp hv).2.2
  · rw [hv] at h
    cases (Prod.mk.inj h).2

end Meent
