import Verif.Lemmas.Persym

/-!
# Reciprocity of the boundary amplitudes (helper lemmas)
-/

open Matrix

namespace Meent

set_option linter.unusedSectionVars false
set_option linter.unusedSimpArgs false

variable {m : Type} [Fintype m]

theorem tan_add (a b : Spec.Tangential) : a + b = ⟨a.Ex + b.Ex, a.Ey + b.Ey, a.Hx + b.Hx, a.Hy + b.Hy⟩ := rfl

theorem lor1_planeWave (n φ κ e h κ' e' h' : ℂ) :
    lor1 (Spec.planeWave n φ κ e h) (Spec.planeWave n φ κ' e' h') = (κ - κ') * (e * e' - h * h' / n ^ 2) := by
  unfold lor1 Spec.planeWave
  have := Complex.sin_sq_add_cos_sq φ
  simp only
  linear_combination ((κ - κ') * (e * e' - h * h' / n ^ 2)) * this

theorem lor1_add_left (a b c : Spec.Tangential) : lor1 (a + b) c = lor1 a c + lor1 b c := by
  rw [tan_add]; unfold lor1; ring

theorem lor1_add_right (a b c : Spec.Tangential) : lor1 a (b + c) = lor1 a b + lor1 a c := by
  rw [tan_add]; unfold lor1; ring

theorem lor1_swap (a b : Spec.Tangential) : lor1 a b = -lor1 b a := by unfold lor1; ring

theorem lorentz_swap (a b : m → Spec.Tangential) : lorentz a b = -lorentz b a := by
  unfold lorentz
  rw [← Finset.sum_neg_distrib]
  exact Finset.sum_congr rfl fun i _ => lor1_swap _ _

/-- The same wave described with the azimuth turned by a half turn or not at all. -/
def SamePlane (φ φ' η : ℂ) : Prop := Complex.sin φ' = η * Complex.sin φ ∧ Complex.cos φ' = η * Complex.cos φ

theorem SamePlane.wave {φ φ' η : ℂ} (h : SamePlane φ φ' η) (n κ e g : ℂ) :
    Spec.planeWave n φ' κ e g = Spec.planeWave n φ κ (η * e) (η * g) := by
  unfold Spec.planeWave
  rw [h.1, h.2]
  congr 1 <;> ring

theorem azimuth_neg (kx ky : ℂ) : ∃ η : ℂ, η ≠ 0 ∧ SamePlane (Spec.azimuth kx ky) (Spec.azimuth (-kx) (-ky)) η := by
  unfold Spec.azimuth
  by_cases h : kx = 0
  · subst h
    simp only [neg_zero, if_true, Complex.neg_re]
    by_cases h1 : ky.re < 0
    · rw [if_pos h1, if_neg (by linarith)]
      exact ⟨-1, by norm_num, by simp [SamePlane]⟩
    · rw [if_neg h1]
      by_cases h2 : -ky.re < 0
      · rw [if_pos h2]
        exact ⟨-1, by norm_num, by simp [SamePlane]⟩
      · rw [if_neg h2]
        exact ⟨1, by norm_num, by simp [SamePlane]⟩
  · rw [if_neg h, if_neg (by simpa using h), neg_div_neg_eq]
    exact ⟨1, by norm_num, by simp [SamePlane]⟩

theorem lorentz_waves [DecidableEq m] (o : m) {n κ0 A B A' B' : ℂ} {φ φ' η kz ρ σ ρ' σ' : m → ℂ} {a b : m → Spec.Tangential}
    (hφ : ∀ i, SamePlane (φ i) (φ' i) (η i))
    (ha : ∀ i, a i = Spec.planeWave n (φ i) κ0 (A * if i = o then 1 else 0) (B * if i = o then 1 else 0)
      + Spec.planeWave n (φ i) (-kz i) (ρ i) (σ i))
    (hb : ∀ i, b i = Spec.planeWave n (φ' i) κ0 (A' * if i = o then 1 else 0) (B' * if i = o then 1 else 0)
      + Spec.planeWave n (φ' i) (-kz i) (ρ' i) (σ' i)) :
    lorentz a b = η o * (κ0 + kz o) * ((A * ρ' o - B * σ' o / n ^ 2) - (A' * ρ o - B' * σ o / n ^ 2)) := by
  unfold lorentz
  have e : ∀ i, lor1 (a i) (b i) = (κ0 + kz i) * η i *
      (((A * if i = o then 1 else 0) * ρ' i - (B * if i = o then 1 else 0) * σ' i / n ^ 2)
        - ((A' * if i = o then 1 else 0) * ρ i - (B' * if i = o then 1 else 0) * σ i / n ^ 2)) := by
    intro i
    rw [ha, hb, (hφ i).wave, (hφ i).wave, lor1_add_left, lor1_add_right, lor1_add_right, lor1_planeWave, lor1_planeWave,
      lor1_planeWave, lor1_planeWave]
    ring
  rw [Finset.sum_congr rfl fun i _ => e i, Finset.sum_eq_single o]
  · simp only [if_true]; ring
  · intro i _ hi
    simp only [hi, if_false, mul_zero, zero_mul, zero_div, sub_zero]
  · intro h; exact absurd (Finset.mem_univ o) h

theorem lorentz_out {n : ℂ} {φ φ' η kz ρ σ ρ' σ' : m → ℂ} {a b : m → Spec.Tangential}
    (hφ : ∀ i, SamePlane (φ i) (φ' i) (η i))
    (ha : ∀ i, a i = Spec.planeWave n (φ i) (kz i) (ρ i) (σ i))
    (hb : ∀ i, b i = Spec.planeWave n (φ' i) (kz i) (ρ' i) (σ' i)) : lorentz a b = 0 := by
  unfold lorentz
  refine Finset.sum_eq_zero fun i _ => ?_
  rw [ha, hb, (hφ i).wave, lor1_planeWave, sub_self, zero_mul]

theorem lorentz_reversed {J : m ≃ m} {k0 : ℝ} {kx ky kx' ky' : m → ℂ} {ls : List (Conv m × ℝ)}
    {fs gs : List (Spec.OrderFields m)} {a b a' b' : m → Spec.Tangential} (hJ : ∀ x ∈ ls, x.1.reindex J = x.1.tr)
    (hx : ∀ i, kx' (J i) = -kx i) (hy : ∀ i, ky' (J i) = -ky i)
    (h : Spec.SolvesStack k0 kx ky ls fs a b) (h' : Spec.SolvesStack k0 kx' ky' ls gs a' b') :
    lorentz a (fun i => a' (J i)) = lorentz b (fun i => b' (J i)) := by
  have h2 := solves_reindex J h'
  rw [show (fun i => kx' (J i)) = fun i => -kx i from funext hx, show (fun i => ky' (J i)) = fun i => -ky i from funext hy,
    List.map_congr_left (g := fun x => (x.1.tr, x.2)) (fun x hx => by rw [hJ x hx])] at h2
  exact lorentz_stack h h2

/-! ### Turning the stack upside down -/

/-- A field seen with the `z` axis reversed. -/
def flipT (a : Spec.Tangential) : Spec.Tangential := ⟨a.Ex, a.Ey, -a.Hx, -a.Hy⟩

/-- The fields of a layer of thickness `d` seen with the `z` axis reversed. -/
noncomputable def flipF (d : ℝ) (f : Spec.OrderFields m) : Spec.OrderFields m :=
  ⟨fun t => f.Ex (d - t), fun t => f.Ey (d - t), fun t => -f.Ez (d - t),
    fun t => -f.Hx (d - t), fun t => -f.Hy (d - t), fun t => f.Hz (d - t)⟩

theorem uIcc_flip {d t : ℝ} (h : t ∈ Set.uIcc 0 d) : d - t ∈ Set.uIcc 0 d := by
  rw [Set.mem_uIcc] at *
  rcases h with h | h
  · left; constructor <;> linarith
  · right; constructor <;> linarith

theorem derivZ_flip {d : ℝ} {u du : ℝ → m → ℂ} (h : Spec.DerivZ (Set.uIcc 0 d) u du) :
    Spec.DerivZ (Set.uIcc 0 d) (fun t => u (d - t)) (fun t => -du (d - t)) := by
  intro t ht i
  have h1 := h (d - t) (uIcc_flip ht) i
  have h2 : HasDerivWithinAt (fun t : ℝ => d - t) (-1) (Set.uIcc 0 d) t := by
    simpa using (hasDerivWithinAt_id t (Set.uIcc 0 d)).const_sub d
  have := HasDerivWithinAt.scomp t h1 h2 (fun x hx => uIcc_flip hx)
  simpa [Function.comp_def] using this

theorem derivZ_neg {D : Set ℝ} {u du : ℝ → m → ℂ} (h : Spec.DerivZ D u du) :
    Spec.DerivZ D (fun t => -u t) (fun t => -du t) := by
  intro t ht i
  exact (h t ht i).neg

theorem maxwell_flip {k0 : ℝ} {kx ky : m → ℂ} {c : Conv m} {d : ℝ} {f : Spec.OrderFields m}
    (h : Spec.Maxwell k0 kx ky c (Set.uIcc 0 d) f) : Spec.Maxwell k0 kx ky c (Set.uIcc 0 d) (flipF d f) := by
  obtain ⟨a, b, x, y, h1, h2, h3, h4, h⟩ := h
  refine ⟨fun t => -a (d - t), fun t => -b (d - t), fun t => x (d - t), fun t => y (d - t), derivZ_flip h1, derivZ_flip h2,
    ?_, ?_, ?_⟩
  · have := derivZ_neg (derivZ_flip h3)
    simp only [neg_neg] at this
    exact this
  · have := derivZ_neg (derivZ_flip h4)
    simp only [neg_neg] at this
    exact this
  · intro t ht
    obtain ⟨e1, e2, e3, e4, e5, e6⟩ := h _ (uIcc_flip ht)
    simp only at e1 e2 e3 e4 e5 e6
    have n : ∀ (k u : m → ℂ), (fun i => -Complex.I * k0 * k i * (-u) i) = -fun i => -Complex.I * k0 * k i * u i := by
      intro k u; ext i; simp only [Pi.neg_apply]; ring
    simp only [flipF, n]
    refine ⟨?_, ?_, e3, e4, e5, ?_⟩
    · rw [smul_neg, ← e1]; abel
    · rw [smul_neg, ← e2]; abel
    · rw [smul_neg, ← e6, ← mulVec_neg]
      congr 1; abel

theorem solves_append {k0 : ℝ} {kx ky : m → ℂ} : ∀ {ls ls' : List (Conv m × ℝ)} {fs fs' : List (Spec.OrderFields m)}
    {a b c : m → Spec.Tangential}, Spec.SolvesStack k0 kx ky ls fs a b → Spec.SolvesStack k0 kx ky ls' fs' b c →
    Spec.SolvesStack k0 kx ky (ls ++ ls') (fs ++ fs') a c
  | [], ls', [], fs', a, b, c, h, h' => by
    obtain rfl : a = b := h
    exact h'
  | (x, d) :: ls, ls', f :: fs, fs', a, b, c, h, h' => by
    obtain ⟨h1, h2, h3⟩ := h
    exact ⟨h1, h2, solves_append h3 h'⟩
  | [], _, _ :: _, _, _, _, _, h, _ => h.elim
  | _ :: _, _, [], _, _, _, _, h, _ => h.elim

theorem solves_flip {k0 : ℝ} {kx ky : m → ℂ} : ∀ {ls : List (Conv m × ℝ)} {fs : List (Spec.OrderFields m)}
    {a b : m → Spec.Tangential}, Spec.SolvesStack k0 kx ky ls fs a b →
    ∃ gs, Spec.SolvesStack k0 kx ky ls.reverse gs (fun i => flipT (b i)) (fun i => flipT (a i))
  | [], [], a, b, h => by
    obtain rfl : a = b := h
    exact ⟨[], rfl⟩
  | (x, d) :: ls, f :: fs, a, b, h => by
    obtain ⟨h1, h2, h3⟩ := h
    obtain ⟨gs, hg⟩ := solves_flip h3
    refine ⟨gs ++ [flipF d f], ?_⟩
    rw [List.reverse_cons]
    refine solves_append hg ⟨maxwell_flip h1, ?_, ?_⟩
    · funext i
      simp only [Spec.OrderFields.tan, flipF, flipT, sub_zero, Pi.neg_apply]
    · subst h2
      funext i
      simp only [Spec.OrderFields.tan, flipF, flipT, sub_self, Pi.neg_apply]
  | [], _ :: _, _, _, h => h.elim
  | _ :: _, [], _, _, h => h.elim

theorem flipT_wave (n φ κ e h : ℂ) : flipT (Spec.planeWave n φ κ e h) = Spec.planeWave n φ (-κ) e (-h) := by
  unfold flipT Spec.planeWave
  congr 1 <;> ring

theorem lor1_flip (a b : Spec.Tangential) : lor1 (flipT a) (flipT b) = -lor1 a b := by
  unfold lor1 flipT; ring

theorem flipT_flipT (a : Spec.Tangential) : flipT (flipT a) = a := by
  unfold flipT; simp

theorem lorentz_flip (a b : m → Spec.Tangential) :
    lorentz a (fun i => flipT (b i)) = lorentz b (fun i => flipT (a i)) := by
  unfold lorentz
  refine Finset.sum_congr rfl fun i _ => ?_
  rw [lor1_swap, ← lor1_flip, flipT_flipT]

end Meent
