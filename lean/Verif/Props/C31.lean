import Verif.Lemmas.Substitution

/-!
# C31: material substitution in a ucell

`put_refractive_index_in_ucell` replaces every pixel holding `i` by the index of material `i`.
-/

namespace Meent

open Spec

/-- **C31, pixels.** If the call returns, every pixel holding `i` receives the index of material
number `i`. -/
theorem C31_pixel {ι : Type} (sp : SciPy) (disk : Res Table) (cache : Table) (ucell : ι → ℂ)
    (mats : List Material) (wl : ℝ) (out : ι → Option ℂ)
    (h : (put_refractive_index_in_ucell sp disk cache ucell mats wl).2 = .ok out)
    (p : ι) (i : ℕ) (m : Material) (hm : mats[i]? = some m) (hp : ucell p = i) :
    IndexOf sp disk cache wl m (out p) := by
  rcases putLoop_ok h p with ⟨j, m', hm', hp', hi⟩ | ⟨hn, -⟩
  · rw [hp, zero_add, Nat.cast_inj] at hp'
    subst hp'
    rw [hm] at hm'
    cases hm'
    exact hi
  · obtain ⟨hlt, -⟩ := List.getElem?_eq_some_iff.mp hm
    exact absurd (by rw [hp, zero_add]) (hn i hlt)

/-- **C31, success.** The call returns an array exactly when every material of the list has an
index at that wavelength, whatever the ucell holds. -/
theorem C31_success {ι : Type} (sp : SciPy) (disk : Res Table) (cache : Table) (ucell : ι → ℂ)
    (mats : List Material) (wl : ℝ) :
    (∃ out, (put_refractive_index_in_ucell sp disk cache ucell mats wl).2 = .ok out) ↔
      ∀ m ∈ mats, ∃ v, IndexOf sp disk cache wl m v :=
  putLoop_succeeds

/-- **C31, other pixels.** The value of a pixel depends on that pixel only: pixels of two ucells,
also of different shapes, that hold the same number receive the same value. -/
theorem C31_local {ι κ : Type} (sp : SciPy) (disk : Res Table) (cache : Table) (ucell : ι → ℂ)
    (ucell' : κ → ℂ) (mats : List Material) (wl : ℝ) (out : ι → Option ℂ) (out' : κ → Option ℂ)
    (h : (put_refractive_index_in_ucell sp disk cache ucell mats wl).2 = .ok out)
    (h' : (put_refractive_index_in_ucell sp disk cache ucell' mats wl).2 = .ok out')
    (p : ι) (q : κ) (hpq : ucell p = ucell' q) : out p = out' q := by
  rcases putLoop_ok h p with ⟨j, m, hm, hp, hi⟩ | ⟨hn, ho⟩
  · have := C31_pixel sp disk cache ucell' mats wl out' h' q j m hm
      (by rw [← hpq, hp, zero_add])
    exact indexOf_unique hi this
  · rcases putLoop_ok h' q with ⟨j, m, hm, hp, hi⟩ | ⟨hn', ho'⟩
    · obtain ⟨hlt, -⟩ := List.getElem?_eq_some_iff.mp hm
      exact absurd (hpq.trans hp) (hn j hlt)
    · rw [ho, ho']

/-- **C31, range of the result.** If every pixel holds the number of a material, every pixel of the
result is the index of a material of the list.  Missing: pixels holding anything else become `0`,
see `C31_other_pixels` and `C31_zero_negation`. -/
theorem C31_values_partial {ι : Type} (sp : SciPy) (disk : Res Table) (cache : Table)
    (ucell : ι → ℂ) (mats : List Material) (wl : ℝ) (out : ι → Option ℂ)
    (h : (put_refractive_index_in_ucell sp disk cache ucell mats wl).2 = .ok out)
    (hu : ∀ p, ∃ i < mats.length, ucell p = (i : ℕ)) (p : ι) :
    ∃ m ∈ mats, IndexOf sp disk cache wl m (out p) := by
  obtain ⟨i, hi, hp⟩ := hu p
  exact ⟨mats[i], List.getElem_mem hi,
    C31_pixel sp disk cache ucell mats wl out h p i _ (List.getElem?_eq_getElem hi) hp⟩

/-- **C31, pixels without a material.** They become `0`. -/
theorem C31_other_pixels {ι : Type} (sp : SciPy) (disk : Res Table) (cache : Table)
    (ucell : ι → ℂ) (mats : List Material) (wl : ℝ) (out : ι → Option ℂ)
    (h : (put_refractive_index_in_ucell sp disk cache ucell mats wl).2 = .ok out)
    (p : ι) (hp : ∀ i < mats.length, ucell p ≠ (i : ℕ)) : out p = some 0 := by
  rcases putLoop_ok h p with ⟨j, m, hm, hp', -⟩ | ⟨-, ho⟩
  · obtain ⟨hlt, -⟩ := List.getElem?_eq_some_iff.mp hm
    exact absurd (by rw [hp', zero_add]) (hp j hlt)
  · exact ho

/-- A ucell of two pixels and two materials given as numbers, the hypotheses above. -/
theorem twoPixels (sp : SciPy) (a b : ℂ) :
    (put_refractive_index_in_ucell sp (.error .valueError) []
      (fun i : Bool => if i then 1 else 0) [.value a, .value b] 1).2 =
        .ok fun i => if i then some b else some a := by
  simp only [put_refractive_index_in_ucell, putLoop, assignValue]
  congr 1
  funext i
  cases i <;> simp

/-- **C31, counterexample.** With one material and a pixel holding `1` the call returns, and that
pixel is `0`, which is no material's index. -/
theorem C31_zero_negation :
    ¬ ∀ (sp : SciPy) (disk : Res Table) (cache : Table) (ucell : Bool → ℂ)
      (mats : List Material) (wl : ℝ) (out : Bool → Option ℂ),
      (put_refractive_index_in_ucell sp disk cache ucell mats wl).2 = .ok out →
      ∀ p, ∃ m ∈ mats, IndexOf sp disk cache wl m (out p) := by
  intro h
  have hs := (C31_success ⟨fun z => z, fun _ _ => 0⟩ (.error .valueError) []
    (fun i : Bool => if i then 1 else 0) [.value 2] 1).mpr
      (by simp only [List.mem_singleton, forall_eq]; exact ⟨_, rfl⟩)
  obtain ⟨out, ho⟩ := hs
  have h0 := C31_other_pixels _ _ _ _ _ _ _ ho true (by simp)
  obtain ⟨m, hm, hi⟩ := h _ _ _ _ _ _ out ho true
  rw [List.mem_singleton.mp hm, h0] at hi
  simp [IndexOf] at hi

/-- The hypotheses of the theorems above are met by a ucell with two pixels. -/
example (sp : SciPy) (a b : ℂ) :
    ∃ out, (put_refractive_index_in_ucell sp (.error .valueError) []
      (fun i : Bool => if i then 1 else 0) [.value a, .value b] 1).2 = .ok out ∧
      out true = some b ∧ out false = some a ∧
      ∀ p : Bool, ∃ i < 2, (if p then 1 else 0 : ℂ) = (i : ℕ) := by
  refine ⟨_, twoPixels sp a b, rfl, rfl, ?_⟩
  rintro (_ | _)
  · exact ⟨0, by norm_num, by simp⟩
  · exact ⟨1, by norm_num, by simp⟩

#print axioms C31_pixel
#print axioms C31_success
#print axioms C31_local
#print axioms C31_values_partial
#print axioms C31_other_pixels
#print axioms C31_zero_negation

end Meent
