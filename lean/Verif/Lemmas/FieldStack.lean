import Verif.Lemmas.FieldMoved
import Verif.Spec.FieldStack
import Verif.Spec.Stacks

/-!
# Fields of stacks that are listed in another way (helper lemmas)
-/

open Matrix

namespace Meent

set_option linter.unusedSectionVars false
set_option linter.unusedSimpArgs false
set_option linter.unusedVariables false

section
variable {m : Type} [Fintype m] [DecidableEq m] {k0 : ℝ} {kx ky : m → ℂ}

theorem solvesStack_append : ∀ {l1 l2 : List (Conv m × ℝ)} {fs : List (Spec.OrderFields m)} {top bot : m → Spec.Tangential},
    Spec.SolvesStack k0 kx ky (l1 ++ l2) fs top bot ↔
      ∃ A B mid, fs = A ++ B ∧ Spec.SolvesStack k0 kx ky l1 A top mid ∧ Spec.SolvesStack k0 kx ky l2 B mid bot
  | [], l2, fs, top, bot => by
    constructor
    · intro h
      exact ⟨[], fs, top, rfl, rfl, h⟩
    · rintro ⟨A, B, mid, rfl, h1, h2⟩
      cases A with
      | nil => cases h1; exact h2
      | cons a A => exact h1.elim
  | (c, d) :: l1, l2, fs, top, bot => by
    constructor
    · intro h
      cases fs with
      | nil => exact h.elim
      | cons f fs =>
        obtain ⟨A, B, mid, rfl, h1, h2⟩ := solvesStack_append.mp h.2.2
        exact ⟨f :: A, B, mid, rfl, ⟨h.1, h.2.1, h1⟩, h2⟩
    · rintro ⟨A, B, mid, rfl, h1, h2⟩
      cases A with
      | nil => exact h1.elim
      | cons f A => exact ⟨h1.1, h1.2.1, solvesStack_append.mpr ⟨A, B, mid, rfl, h1.2.2, h2⟩⟩

theorem maxwell_mono {c : Conv m} {D D' : Set ℝ} (hD : D' ⊆ D) {f : Spec.OrderFields m} (h : Spec.Maxwell k0 kx ky c D f) :
    Spec.Maxwell k0 kx ky c D' f := by
  obtain ⟨a, b, c', d, h1, h2, h3, h4, h5⟩ := h
  exact ⟨a, b, c', d, fun t ht i => (h1 t (hD ht) i).mono hD, fun t ht i => (h2 t (hD ht) i).mono hD, fun t ht i => (h3 t (hD ht) i).mono hD,
    fun t ht i => (h4 t (hD ht) i).mono hD, fun t ht => h5 t (hD ht)⟩

/-- Fields read from a depth on. -/
def laterFields (a : ℝ) (f : Spec.OrderFields m) : Spec.OrderFields m :=
  ⟨fun t => f.Ex (a + t), fun t => f.Ey (a + t), fun t => f.Ez (a + t), fun t => f.Hx (a + t), fun t => f.Hy (a + t), fun t => f.Hz (a + t)⟩

theorem maxwell_later {c : Conv m} {D D' : Set ℝ} {a : ℝ} (hD : ∀ t ∈ D', a + t ∈ D) {f : Spec.OrderFields m} (h : Spec.Maxwell k0 kx ky c D f) :
    Spec.Maxwell k0 kx ky c D' (laterFields a f) := by
  obtain ⟨z1, z2, z3, z4, h1, h2, h3, h4, h5⟩ := h
  have key : ∀ {u du : ℝ → m → ℂ}, Spec.DerivZ D u du → Spec.DerivZ D' (fun t => u (a + t)) (fun t => du (a + t)) := by
    intro u du h t ht i
    have h' := (h (a + t) (hD t ht) i).scomp t ((hasDerivWithinAt_id t D').const_add a) (fun x hx => hD x hx)
    simpa [Function.comp_def] using h'
  exact ⟨fun t => z1 (a + t), fun t => z2 (a + t), fun t => z3 (a + t), fun t => z4 (a + t), key h1, key h2, key h3, key h4, fun t ht => h5 (a + t) (hD t ht)⟩

/-- The layers `cs` of thicknesses `th` may be listed as `cs'` and `th'`. -/
def Relisted (cs cs' : List (Conv m)) (th th' : List ℝ) (w : ℕ → ℝ → ℕ × ℝ) : Prop :=
  ∀ (k0 : ℝ) (kx ky : m → ℂ) fs top bot, Spec.SolvesStack k0 kx ky (cs.zip th) fs top bot → ∃ fs', Spec.SolvesStack k0 kx ky (cs'.zip th') fs' top bot ∧
    stackFn k0 kx ky th' fs' = Spec.relayer w (stackFn k0 kx ky th fs)

theorem relisted_cut {pre post : List (Conv m)} {c : Conv m} {t1 t2 : List ℝ} {d1 d2 : ℝ} (hk : pre.length = t1.length) (h1 : 0 ≤ d1) (h2 : 0 ≤ d2)
    (h : 0 < d1 + d2) : Relisted (pre ++ c :: post) (pre ++ c :: c :: post) (t1 ++ (d1 + d2) :: t2) (t1 ++ d1 :: d2 :: t2) (Spec.cutLayer t1.length d1 d2) := by
  intro k0 kx ky fs top bot hs
  rw [List.zip_append hk] at hs ⊢
  simp only [List.zip_cons_cons] at hs ⊢
  obtain ⟨A, B, mid, rfl, hA, hB⟩ := solvesStack_append.mp hs
  cases B with
  | nil => exact hB.elim
  | cons f B =>
    obtain ⟨hM, hT, hB⟩ := hB
    have hlen : A.length = t1.length := by rw [solvesStack_length hA, List.length_zip]; omega
    refine ⟨A ++ f :: laterFields d1 f :: B, solvesStack_append.mpr ⟨A, _, mid, rfl, hA, ?_, hT, ?_, ?_, ?_⟩, ?_⟩
    · refine maxwell_mono ?_ hM
      rw [Set.uIcc_of_le h1, Set.uIcc_of_le h.le]
      exact Set.Icc_subset_Icc_right (by linarith)
    · refine maxwell_later ?_ hM
      rw [Set.uIcc_of_le h2, Set.uIcc_of_le h.le]
      intro t ht
      exact ⟨by linarith [ht.1], by linarith [ht.2]⟩
    · funext i
      simp [Spec.OrderFields.tan, laterFields]
    · exact hB
    · funext j z y x
      unfold Spec.relayer Spec.cutLayer stackFn
      rcases lt_trichotomy j t1.length with hj | hj | hj
      · simp [hj, List.getElem?_append_left, hlen]
      · subst hj
        have e : z * d1 = z * d1 / (d1 + d2) * (d1 + d2) := by field_simp
        simp [List.getElem?_append_right, hlen]
        rw [← e]
      · obtain ⟨n, rfl⟩ : ∃ n, j = t1.length + (n + 1) := ⟨j - t1.length - 1, by omega⟩
        cases n with
        | zero =>
          have e : d1 + z * d2 = (d1 + z * d2) / (d1 + d2) * (d1 + d2) := by field_simp
          simp [List.getElem?_append_right, hlen]
          rw [← e]
          rfl
        | succ n =>
          have e1 : ¬ t1.length + (n + 1 + 1) < t1.length := by omega
          have e2 : ¬ t1.length + (n + 1 + 1) = t1.length := by omega
          have e3 : ¬ t1.length + (n + 1 + 1) = t1.length + 1 := by omega
          have e4 : t1.length + (n + 1 + 1) - 1 = t1.length + (n + 1) := by omega
          rw [if_neg e1, if_neg e2, if_neg e3]
          simp [List.getElem?_append_right, hlen, e4]

theorem relisted_drop {pre post : List (Conv m)} {c : Conv m} {t1 t2 : List ℝ} (hk : pre.length = t1.length) :
    Relisted (pre ++ c :: post) (pre ++ post) (t1 ++ 0 :: t2) (t1 ++ t2) (Spec.dropLayer t1.length) := by
  intro k0 kx ky fs top bot hs
  rw [List.zip_append hk] at hs ⊢
  simp only [List.zip_cons_cons] at hs
  obtain ⟨A, B, mid, rfl, hA, hB⟩ := solvesStack_append.mp hs
  cases B with
  | nil => exact hB.elim
  | cons f B =>
    obtain ⟨hM, hT, hB⟩ := hB
    have hlen : A.length = t1.length := by rw [solvesStack_length hA, List.length_zip]; omega
    rw [hT] at hB
    refine ⟨A ++ B, solvesStack_append.mpr ⟨A, _, mid, rfl, hA, hB⟩, ?_⟩
    funext j z y x
    unfold Spec.relayer Spec.dropLayer stackFn
    rcases lt_or_ge j t1.length with hj | hj
    · simp [hj, List.getElem?_append_left, hlen]
    · obtain ⟨n, rfl⟩ : ∃ n, j = t1.length + n := ⟨j - t1.length, by omega⟩
      have e1 : ¬ t1.length + n < t1.length := by omega
      have e4 : t1.length + n + 1 = t1.length + (n + 1) := by omega
      rw [if_neg e1]
      simp [List.getElem?_append_right, hlen, e4]
end

theorem Relisted.row {fx fy : ℕ} {cs cs' : List (Conv (FlatIdx fx fy))} {th th' : List ℝ} {w : ℕ → ℝ → ℕ × ℝ}
    (h : ∀ (m : Type) [Fintype m] [DecidableEq m] (g : Conv (FlatIdx fx fy) → Conv m), Relisted (cs.map g) (cs'.map g) th th' w) :
    Relisted cs cs' th th' w := by
  simpa using h _ id

/-- The fields of a problem whose layers are listed in another way. -/
theorem problem_relisted {p : Params} {th' : List ℝ} {w : ℕ → ℝ → ℕ × ℝ} {cs cs' : List (Conv (FlatIdx p.fto.1 p.fto.2))}
    (hw : ∀ (m : Type) [Fintype m] [DecidableEq m] (g : Conv (FlatIdx p.fto.1 p.fto.2) → Conv m), Relisted (cs.map g) (cs'.map g) p.thickness th' w)
    {r : Solved p.fto.1 p.fto.2} {fields : Spec.Fields Field3} (h : ProblemFields p cs r fields) :
    ProblemFields { p with thickness := th' } cs' r (fields.relayer w) := by
  have wave : ∀ {ψ r F}, WaveField p cs ψ r F → WaveField { p with thickness := th' } cs' ψ r (Spec.relayer w F) := by
    rintro ψ r F ⟨fs, h1, rfl⟩
    obtain ⟨fs', h2, h3⟩ := Relisted.row hw _ _ _ _ _ _ h1
    exact ⟨fs', h2, h3.symm⟩
  cases r with
  | conicalSmm => exact h.elim
  | tetm o =>
    cases fields with
    | vector F G H => exact h.elim
    | tetm F =>
      obtain ⟨fs, h1, rfl⟩ := h
      obtain ⟨fs', h2, h3⟩ := hw _ Conv.row _ _ _ _ _ _ h1
      refine ⟨fs', h2, ?_⟩
      funext k z y x
      exact congrArg (unsix p.pol) (congrFun (congrFun (congrFun (congrFun h3 k) z) y) x).symm
  | conical o =>
    cases fields with
    | tetm F => exact h.elim
    | vector F G H => exact ⟨wave h.1, wave h.2.1, wave h.2.2⟩
  | twoD o =>
    cases fields with
    | tetm F => exact h.elim
    | vector F G H => exact ⟨wave h.1, wave h.2.1, wave h.2.2⟩

end Meent
