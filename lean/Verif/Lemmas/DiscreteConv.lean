import Verif.Lemmas.ConvMats
import Verif.Spec.Conv

/-!
# The discrete convolution matrices against their specification (helper lemmas)
-/

open Matrix

namespace Meent

set_option linter.unusedSimpArgs false

theorem finProd_symm_snd {fx fy : ℕ} (i : FlatIdx fx fy) :
    ((finProdFinEquiv.symm i).2.val : ℤ) = Spec.orderX i + fx := by
  simp [Spec.orderX, finProdFinEquiv]

theorem finProd_symm_fst {fx fy : ℕ} (i : FlatIdx fx fy) :
    ((finProdFinEquiv.symm i).1.val : ℤ) = Spec.orderY i + fy := by
  simp [Spec.orderY, finProdFinEquiv]

theorem finProd_symm_fst' {fx fy : ℕ} (i : FlatIdx fx fy) :
    (finProdFinEquiv.symm i).1 = Spec.rowOf i := rfl

theorem flatten_btoepL_apply {N fx fy : ℕ} (L : (Fin N → ℂ) → ℤ → ℂ)
    (a : Fin N → Matrix (Fin (2 * fy + 1)) (Fin (2 * fy + 1)) ℂ) (r c : FlatIdx fx fy) :
    flatten4 (btoepL L fx a) r c
      = L (fun x => a x (Spec.rowOf r) (Spec.rowOf c)) (Spec.orderX c - Spec.orderX r) := by
  simp only [flatten4, submatrix_apply, btoepL, of_apply, finProd_symm_snd, finProd_symm_fst']
  congr 1; ring

theorem rowOf_orderY {fx fy : ℕ} (i : FlatIdx fx fy) : ((Spec.rowOf i).val : ℤ) = Spec.orderY i + fy := by
  simp [Spec.orderY, Spec.rowOf]

section
variable {Nx Ny fx fy : ℕ} {cell : Fin Nx → Fin Ny → ℂ} {M : Matrix (FlatIdx fx fy) (FlatIdx fx fy) ℂ}

theorem genConv_direct (h : genConv Spec.dftCoeff Spec.dftCoeff true true fx fy cell = .ok M) :
    Spec.IsDirectConv (fun y x => cell x y) M := by
  unfold genConv at h
  simp only [Except.bind_ok, invRuleY_ok, invIf_ok] at h
  obtain ⟨c, hc, a, ha, e⟩ := h
  rcases hc with ⟨-, rfl⟩ | ⟨h, -⟩
  · rcases ha with ⟨-, rfl⟩ | ⟨h, -⟩
    · simp only [if_true, Except.ok.injEq] at e
      subst e
      intro r k
      rw [flatten_btoepL_apply]
      unfold Spec.dftCoeff2
      simp only [toepL, of_apply, rowOf_orderY]
      congr 1; ext x; congr 1; ring
    · simp at h
  · simp at h

theorem genConv_invY (h : genConv Spec.dftCoeff Spec.dftCoeff true false fx fy cell = .ok M) :
    (∀ x y, cell x y ≠ 0) ∧ Spec.IsInverseYConv (fun y x => cell x y) M := by
  unfold genConv at h
  simp only [Except.bind_ok, invRuleY_ok, invIf_ok] at h
  obtain ⟨c, hc, a, ha, e⟩ := h
  rcases hc with ⟨h, -⟩ | ⟨-, hne, rfl⟩
  · simp at h
  · rcases ha with ⟨h, -⟩ | ⟨-, hu, rfl⟩
    · simp at h
    · simp only [if_true, Except.ok.injEq] at e
      subst e
      refine ⟨hne, hu, fun r k => ?_⟩
      rw [flatten_btoepL_apply]
      rfl

theorem genConv_invX (h : genConv Spec.dftCoeff Spec.dftCoeff false true fx fy cell = .ok M) :
    Spec.IsInverseXConv (fun y x => cell x y) M := by
  unfold genConv at h
  simp only [Except.bind_ok, invRuleY_ok, invIf_ok] at h
  obtain ⟨c, hc, a, ha, e⟩ := h
  rcases hc with ⟨-, rfl⟩ | ⟨h, -⟩
  · rcases ha with ⟨h, -⟩ | ⟨-, hu, rfl⟩
    · simp at h
    · simp only [Bool.false_eq_true, if_false, npInv_ok] at e
      obtain ⟨hd, rfl⟩ := e
      refine ⟨hu, (isUnit_nonsing_inv_det_iff).mpr hd, fun r k => ?_⟩
      rw [nonsing_inv_nonsing_inv _ hd, flatten_btoepL_apply]
      rfl
  · simp at h

end

theorem isRepeated_refl {ny nx : ℕ} (a : Fin ny → Fin nx → ℂ) : Spec.IsRepeated a a := by
  refine ⟨1, 1, one_pos, one_pos, by simp, by simp, fun i j i' j' h1 h2 => ?_⟩
  have e1 : i' = i := by ext; simpa using h1
  have e2 : j' = j := by ext; simpa using h2
  rw [e1, e2]

theorem repeatRows_isRepeated (l : Raster) {k : ℕ} (hk : 0 < k) :
    Spec.IsRepeated l.val (l.repeatRows k).val := by
  refine ⟨k, 1, hk, one_pos, rfl, by simp [Raster.repeatRows], fun i j i' j' h1 h2 => ?_⟩
  simp only [Raster.repeatRows]
  have e1 : i' = i.divNat := Fin.ext h1
  have e2 : j' = j := by ext; simpa using h2
  rw [e1, e2]

theorem repeatCols_isRepeated {ny nx : ℕ} {a : Fin ny → Fin nx → ℂ} (l : Raster) {k : ℕ} (hk : 0 < k)
    (hn : nx = l.nx) (h : ∃ ky, 0 < ky ∧ l.ny = ny * ky ∧
      ∀ i j (i' : Fin ny) (j' : Fin nx), i'.val = i.val / ky → j'.val = j.val → l.val i j = a i' j') :
    Spec.IsRepeated a (l.repeatCols k).val := by
  obtain ⟨ky, h0, h1, h2⟩ := h
  refine ⟨ky, k, h0, hk, h1, by simp [Raster.repeatCols, hn], fun i j i' j' e1 e2 => ?_⟩
  simp only [Raster.repeatCols]
  exact h2 _ _ _ _ e1 e2

/-- What `enlarge` does. -/
theorem enlarge_spec (l : Raster) (fx fy : ℕ) (enh : Bool) (hy : 0 < l.ny) (hx : 0 < l.nx) :
    4 * fy + 1 ≤ (enlarge l fx fy enh).ny ∧ 4 * fx + 1 ≤ (enlarge l fx fy enh).nx ∧
    Spec.IsRepeated l.val (enlarge l fx fy enh).val := by
  have hd : ∀ a n : ℕ, 0 < n → a < n * (a / n + 1) := by
    intro a n hn
    have := Nat.lt_div_mul_add hn (a := a)
    calc a < a / n * n + n := this
      _ = n * (a / n + 1) := by ring
  have hm : ∀ f n : ℕ, 0 < n → 4 * f + 1 ≤ if enh then (4 * f + 1) * n else 4 * f + 1 := by
    intro f n hn
    split
    · exact Nat.le_mul_of_pos_right _ hn
    · exact le_rfl
  unfold enlarge
  simp only
  set mY := if enh = true then (4 * fy + 1) * l.ny else 4 * fy + 1 with hmY
  set mX := if enh = true then (4 * fx + 1) * l.nx else 4 * fx + 1 with hmX
  have hY : 4 * fy + 1 ≤ mY := hm fy l.ny hy
  have hX : 4 * fx + 1 ≤ mX := hm fx l.nx hx
  by_cases h1 : l.ny < mY
  · rw [if_pos h1]
    by_cases h2 : l.nx < mX
    · have h2' : (l.repeatRows (mY / l.ny + 1)).nx < mX := h2
      rw [if_pos h2']
      refine ⟨?_, ?_, ?_⟩
      · have := hd mY l.ny hy
        simp only [Raster.repeatCols, Raster.repeatRows]
        omega
      · have := hd mX l.nx hx
        simp only [Raster.repeatCols, Raster.repeatRows]
        omega
      · refine repeatCols_isRepeated _ (Nat.succ_pos _) rfl ⟨mY / l.ny + 1, Nat.succ_pos _, rfl, ?_⟩
        intro i j i' j' e1 e2
        simp only [Raster.repeatRows]
        have e3 : i' = i.divNat := Fin.ext e1
        have e4 : j' = j := by ext; simpa using e2
        rw [e3, e4]
    · have h2' : ¬ (l.repeatRows (mY / l.ny + 1)).nx < mX := h2
      rw [if_neg h2']
      refine ⟨?_, ?_, repeatRows_isRepeated _ (Nat.succ_pos _)⟩
      · have := hd mY l.ny hy
        simp only [Raster.repeatRows]
        omega
      · simp only [Raster.repeatRows]; omega
  · rw [if_neg h1]
    by_cases h2 : l.nx < mX
    · rw [if_pos h2]
      refine ⟨?_, ?_, ?_⟩
      · simp only [Raster.repeatCols]; omega
      · have := hd mX l.nx hx
        simp only [Raster.repeatCols]
        omega
      · refine repeatCols_isRepeated _ (Nat.succ_pos _) rfl ⟨1, by omega, by simp, ?_⟩
        intro i j i' j' e1 e2
        have e3 : i' = i := by ext; simpa using e1
        have e4 : j' = j := by ext; simpa using e2
        rw [e3, e4]
    · rw [if_neg h2]
      exact ⟨by omega, by omega, isRepeated_refl _⟩

theorem Except.bind_error {ε α β : Type} {x : Except ε α} {f : α → Except ε β} {e : ε} :
    (x >>= f) = .error e ↔ x = .error e ∨ ∃ a, x = .ok a ∧ f a = .error e := by
  cases x <;> simp [bind, Except.bind]

theorem forAllFin_error {α : Type} {N : ℕ} {f : Fin N → Res α} {e : Err}
    (h : forAllFin f = .error e) : ∃ i, f i = .error e := by
  induction N with
  | zero => simp [forAllFin] at h
  | succ N ih =>
    simp only [forAllFin, Except.bind_error] at h
    rcases h with h | ⟨a, -, h | ⟨r, -, h⟩⟩
    · exact ⟨0, h⟩
    · obtain ⟨i, hi⟩ := ih h
      exact ⟨i.succ, hi⟩
    · simp at h

theorem fancy_fft_noerr {N f : ℕ} (h : 2 * f < N) (a : Fin N → ℂ) (e : Err) :
    fancy a (fun (r c : Fin (2 * f + 1)) => circulant r.val c.val) ≠ .error e := by
  unfold fancy
  rw [dif_pos]
  · simp
  · intro r c
    rw [pyIdx_isSome]
    simp only [circulant]; omega

theorem dfs2d_ne_index {cell : Raster} {cx cy : Bool} {fx fy : ℕ} (hy : 2 * fy < cell.ny)
    (hx : 2 * fx < cell.nx) : dfs2d cell cx cy fx fy ≠ .error .indexError := by
  intro h
  unfold dfs2d at h
  simp only [Except.bind_error] at h
  rcases h with h | ⟨c, -, h | ⟨a, -, h | ⟨b, -, h | ⟨d, -, h⟩⟩⟩⟩
  · unfold invRuleY at h
    split at h
    · simp at h
    · split at h <;> simp at h
  · obtain ⟨i, hi⟩ := forAllFin_error h
    exact fancy_fft_noerr hy _ _ hi
  · unfold invIf npInvStack at h
    split at h
    · split at h <;> simp at h
    · simp at h
  · obtain ⟨i, hi⟩ := forAllFin_error h
    obtain ⟨j, hj⟩ := forAllFin_error hi
    exact fancy_fft_noerr hx _ _ hj
  · unfold npInv at h
    split at h
    · simp at h
    · split at h <;> simp at h

theorem meeinv_ne_index {n : Type} [Fintype n] [DecidableEq n] (la : LinAlg) (A : Matrix n n ℂ) (b : Bool) :
    meeinv la A b ≠ .error .indexError := by
  unfold meeinv npInv
  split
  · simp
  · split <;> simp

theorem mapM_error {α β : Type} {f : α → Res β} {l : List α} {e : Err}
    (h : l.mapM f = .error e) : ∃ a ∈ l, f a = .error e := by
  induction l with
  | nil => simp [pure, Except.pure] at h
  | cons a l ih =>
    rw [List.mapM_cons] at h
    simp only [Except.bind_error] at h
    rcases h with h | ⟨b, -, h | ⟨r, -, h⟩⟩
    · exact ⟨a, by simp, h⟩
    · obtain ⟨x, hx, e⟩ := ih h
      exact ⟨x, by simp [hx], e⟩
    · simp [pure, Except.pure] at h

end Meent
