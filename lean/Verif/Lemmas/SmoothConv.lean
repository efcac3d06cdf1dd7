import Verif.Lemmas.Smooth
import Verif.Lemmas.ConvMats
import Verif.Lemmas.Compress
import Verif.Spec.Smooth

/-!
# Convolution matrices depend smoothly on the pixels (helper lemmas)
-/

open Matrix
open scoped ContDiff Topology

namespace Meent

set_option linter.unusedSectionVars false
set_option linter.unusedSimpArgs false

variable {E : Type} [NormedAddCommGroup E] [NormedSpace ℝ E] {x₀ : E}

/-- A coefficient functional that maps smooth families to smooth functions. -/
def SmoothL {N : ℕ} (L : (Fin N → ℂ) → ℤ → ℂ) : Prop :=
  ∀ {E : Type} [NormedAddCommGroup E] [NormedSpace ℝ E] (x₀ : E) (a : E → Fin N → ℂ), VSm a x₀ →
    ∀ m, ContDiffAt ℝ ∞ (fun x => L (a x) m) x₀

theorem smoothL_dft {N : ℕ} : SmoothL (Spec.dftCoeff (N := N)) := by
  intro E _ _ x₀ a ha m
  unfold Spec.dftCoeff
  simp only [div_eq_mul_inv]
  exact ContDiffAt.mul (ContDiffAt.sum fun y _ => (ha y).mul contDiffAt_const) contDiffAt_const

theorem smoothL_pix {N : ℕ} [NeZero N] : SmoothL (pixL N) := by
  intro E _ _ x₀ a ha m
  unfold pixL cfsC
  simp only [div_eq_mul_inv]
  by_cases hm : m = 0
  · simp only [hm, if_true]
    exact ContDiffAt.mul (ContDiffAt.sum fun y _ => (ha y).mul contDiffAt_const) contDiffAt_const
  · simp only [hm, if_false]
    exact ContDiffAt.mul (ContDiffAt.sum fun y _ => ((ha _).sub (ha y)).mul contDiffAt_const) contDiffAt_const

theorem invRuleY_smooth {Nx Ny : ℕ} {cy : Bool} {cell : E → Fin Nx → Fin Ny → ℂ} {c₀ : Fin Nx → Fin Ny → ℂ}
    (hs : ∀ i, VSm (fun x => cell x i) x₀) (h : invRuleY cy (cell x₀) = .ok c₀) :
    ∃ c : E → Fin Nx → Fin Ny → ℂ, (∀ᶠ x in 𝓝 x₀, invRuleY cy (cell x) = .ok (c x)) ∧ c x₀ = c₀ ∧ ∀ i, VSm (fun x => c x i) x₀ := by
  unfold invRuleY at h ⊢
  cases cy
  · simp only [Bool.false_eq_true, if_false] at h ⊢
    by_cases hn : ∀ i j, cell x₀ i j ≠ 0
    · rw [if_pos hn] at h
      simp only [Except.ok.injEq] at h
      refine ⟨fun x i j => 1 / cell x i j, ?_, h, ?_⟩
      · have : ∀ᶠ x in 𝓝 x₀, ∀ i j, cell x i j ≠ 0 := by
          rw [Filter.eventually_all]
          intro i
          rw [Filter.eventually_all]
          intro j
          exact (hs i j).continuousAt.eventually_ne (hn i j)
        exact this.mono fun x hx => if_pos hx
      · intro i j
        simp only [one_div]
        exact (hs i j).inv (hn i j)
    · rw [if_neg hn] at h
      cases h
  · simp only [if_true, Except.ok.injEq] at h ⊢
    exact ⟨cell, Filter.Eventually.of_forall fun _ => rfl, h, hs⟩

theorem npInv_smooth {n : Type} [Fintype n] [DecidableEq n] {A : E → Matrix n n ℂ} {M : Matrix n n ℂ} (hs : MSm A x₀)
    (h : npInv (A x₀) = .ok M) :
    (∀ᶠ x in 𝓝 x₀, npInv (A x) = .ok (A x)⁻¹) ∧ (A x₀)⁻¹ = M ∧ MSm (fun x => (A x)⁻¹) x₀ := by
  obtain ⟨hu, rfl⟩ := npInv_ok.mp h
  exact ⟨(hs.isUnit hu).mono fun x hx => npInv_ok.mpr ⟨hx, rfl⟩, rfl, hs.inv hu⟩

theorem invIf_smooth {N : ℕ} {n : Type} [Fintype n] [DecidableEq n] {b : Bool} {A : E → Fin N → Matrix n n ℂ}
    {M : Fin N → Matrix n n ℂ} (hs : ∀ i, MSm (fun x => A x i) x₀) (h : invIf b (A x₀) = .ok M) :
    ∃ B : E → Fin N → Matrix n n ℂ, (∀ᶠ x in 𝓝 x₀, invIf b (A x) = .ok (B x)) ∧ B x₀ = M ∧ ∀ i, MSm (fun x => B x i) x₀ := by
  unfold invIf npInvStack at h ⊢
  cases b
  · simp only [Bool.false_eq_true, if_false, Except.ok.injEq] at h ⊢
    exact ⟨A, Filter.Eventually.of_forall fun _ => rfl, h, hs⟩
  · simp only [if_true] at h ⊢
    by_cases hn : ∀ i, IsUnit (A x₀ i).det
    · rw [if_pos hn] at h
      simp only [Except.ok.injEq] at h
      refine ⟨fun x i => (A x i)⁻¹, ?_, h, fun i => (hs i).inv (hn i)⟩
      have : ∀ᶠ x in 𝓝 x₀, ∀ i, IsUnit (A x i).det := by
        rw [Filter.eventually_all]
        exact fun i => (hs i).isUnit (hn i)
      exact this.mono fun x hx => if_pos hx
    · rw [if_neg hn] at h
      cases h

theorem genConv_smooth {Nx Ny fx fy : ℕ} {Lx : (Fin Nx → ℂ) → ℤ → ℂ} {Ly : (Fin Ny → ℂ) → ℤ → ℂ} (hLx : SmoothL Lx)
    (hLy : SmoothL Ly) {cx cy : Bool} {cell : E → Fin Nx → Fin Ny → ℂ} {M : Matrix (FlatIdx fx fy) (FlatIdx fx fy) ℂ}
    (hs : ∀ i, VSm (fun x => cell x i) x₀) (h : genConv Lx Ly cx cy fx fy (cell x₀) = .ok M) :
    ∃ A : E → Matrix (FlatIdx fx fy) (FlatIdx fx fy) ℂ,
      (∀ᶠ x in 𝓝 x₀, genConv Lx Ly cx cy fx fy (cell x) = .ok (A x)) ∧ A x₀ = M ∧ MSm A x₀ := by
  unfold genConv at h
  simp only [Except.bind_ok] at h
  obtain ⟨c₀, hc, a₀, ha, hm⟩ := h
  obtain ⟨c, hc1, rfl, hc2⟩ := invRuleY_smooth hs hc
  have ht : ∀ i, MSm (fun x => toepL Ly fy (c x i)) x₀ := by
    intro i r k
    exact hLy x₀ (fun x => c x i) (hc2 i) _
  obtain ⟨a, ha1, rfl, ha2⟩ := invIf_smooth (A := fun x i => toepL Ly fy (c x i)) ht ha
  have hb : MSm (fun x => (flatten4 (btoepL Lx fx (a x)) : Matrix (FlatIdx fx fy) (FlatIdx fx fy) ℂ)) x₀ := by
    intro r k
    exact hLx x₀ (fun x i => a x i _ _) (fun i => ha2 i _ _) _
  cases cx
  · simp only [Bool.false_eq_true, if_false] at hm
    obtain ⟨h1, h2, h3⟩ := npInv_smooth hb hm
    refine ⟨_, ?_, h2, h3⟩
    filter_upwards [hc1, ha1, h1] with x e1 e2 e3
    unfold genConv
    simp only [Except.bind_ok]
    exact ⟨_, e1, _, e2, by simpa using e3⟩
  · simp only [if_true, Except.ok.injEq] at hm
    refine ⟨_, ?_, hm, hb⟩
    filter_upwards [hc1, ha1] with x e1 e2
    unfold genConv
    simp only [Except.bind_ok]
    exact ⟨_, e1, _, e2, rfl⟩

/-- Smooth convolution matrices. -/
def CSm {n : Type} (c : E → Conv n) (x₀ : E) : Prop :=
  MSm (fun x => (c x).epx) x₀ ∧ MSm (fun x => (c x).epy) x₀ ∧ MSm (fun x => (c x).epzi) x₀

theorem fromCell_smooth {Nx Ny fx fy : ℕ} {Lx : (Fin Nx → ℂ) → ℤ → ℂ} {Ly : (Fin Ny → ℂ) → ℤ → ℂ} (hLx : SmoothL Lx)
    (hLy : SmoothL Ly) {cell : E → Fin Nx → Fin Ny → ℂ} {c₀ : Conv (FlatIdx fx fy)} {z₀ : Matrix (FlatIdx fx fy) (FlatIdx fx fy) ℂ}
    (hs : ∀ i, VSm (fun x => cell x i) x₀) (h : FromCell Lx Ly (cell x₀) c₀ z₀) :
    ∃ c : E → Conv (FlatIdx fx fy), (∀ᶠ x in 𝓝 x₀, ∃ z, FromCell Lx Ly (cell x) (c x) z) ∧ CSm c x₀ := by
  obtain ⟨z, z1, z2, z3⟩ := genConv_smooth hLx hLy hs h.hz
  obtain ⟨y, y1, y2, y3⟩ := genConv_smooth hLx hLy hs h.hy
  obtain ⟨w, w1, w2, w3⟩ := genConv_smooth hLx hLy hs h.hx
  have hu : IsUnit (z x₀).det := by rw [z2]; exact h.hu
  refine ⟨fun x => ⟨w x, y x, (z x)⁻¹⟩, ?_, w3, y3, z3.inv hu⟩
  filter_upwards [z1, y1, w1, z3.isUnit hu] with x e1 e2 e3 e4
  exact ⟨z x, e1, e2, e3, e4, rfl⟩

/-! ### One layer -/

theorem repeatRows_form (ny nx k lim : ℕ) : ∃ (Ny : ℕ) (ρ : Fin Ny → Fin ny), ∀ l : Fin ny → Fin nx → ℂ,
    (if ny < lim then (Raster.mk ny nx l).repeatRows k else ⟨ny, nx, l⟩) = ⟨Ny, nx, fun i j => l (ρ i) j⟩ := by
  by_cases h : ny < lim
  · exact ⟨ny * k, Fin.divNat, fun l => by rw [if_pos h]; rfl⟩
  · exact ⟨ny, id, fun l => by rw [if_neg h]; rfl⟩

theorem repeatCols_form (ny nx k lim : ℕ) : ∃ (Nx : ℕ) (κ : Fin Nx → Fin nx), ∀ l : Fin ny → Fin nx → ℂ,
    (if nx < lim then (Raster.mk ny nx l).repeatCols k else ⟨ny, nx, l⟩) = ⟨ny, Nx, fun i j => l i (κ j)⟩ := by
  by_cases h : nx < lim
  · exact ⟨nx * k, Fin.divNat, fun l => by rw [if_pos h]; rfl⟩
  · exact ⟨nx, id, fun l => by rw [if_neg h]; rfl⟩

theorem enlarge_form (ny nx fx fy : ℕ) (enh : Bool) : ∃ (Ny Nx : ℕ) (ρ : Fin Ny → Fin ny) (κ : Fin Nx → Fin nx),
    ∀ l : Fin ny → Fin nx → ℂ, enlarge ⟨ny, nx, l⟩ fx fy enh = ⟨Ny, Nx, fun i j => l (ρ i) (κ j)⟩ := by
  obtain ⟨Ny, ρ, h1⟩ := repeatRows_form ny nx ((if enh then (4 * fy + 1) * ny else 4 * fy + 1) / ny + 1)
    (if enh then (4 * fy + 1) * ny else 4 * fy + 1)
  obtain ⟨Nx, κ, h2⟩ := repeatCols_form Ny nx ((if enh then (4 * fx + 1) * nx else 4 * fx + 1) / nx + 1)
    (if enh then (4 * fx + 1) * nx else 4 * fx + 1)
  refine ⟨Ny, Nx, ρ, κ, fun l => ?_⟩
  unfold enlarge
  dsimp only
  rw [h1 l]
  exact h2 _

theorem convDiscrete_enlarged {la : LinAlg} {l R : Raster} {fx fy : ℕ} {enh : Bool} {c : Conv (FlatIdx fx fy)}
    (e : enlarge l fx fy enh = R) : convDiscrete la l fx fy enh false = .ok c ↔ 2 * fy < R.ny ∧ 2 * fx < R.nx ∧
      ∃ epz, FromCell Spec.dftCoeff Spec.dftCoeff (fun x y => (R.sq.val y x)) c epz := by
  subst e
  exact convDiscrete_fromCell

theorem convDiscrete_smooth {la : LinAlg} {ny nx fx fy : ℕ} {enh : Bool} {l : E → Fin ny → Fin nx → ℂ}
    {c₀ : Conv (FlatIdx fx fy)} (hs : ∀ i, VSm (fun x => l x i) x₀) (h : convDiscrete la ⟨ny, nx, l x₀⟩ fx fy enh false = .ok c₀) :
    ∃ c : E → Conv (FlatIdx fx fy), (∀ᶠ x in 𝓝 x₀, convDiscrete la ⟨ny, nx, l x⟩ fx fy enh false = .ok (c x)) ∧ CSm c x₀ := by
  obtain ⟨Ny, Nx, ρ, κ, e⟩ := enlarge_form ny nx fx fy enh
  obtain ⟨h1, h2, z, hz⟩ := (convDiscrete_enlarged (e _)).mp h
  obtain ⟨c, hc, hc'⟩ := fromCell_smooth smoothL_dft smoothL_dft (cell := fun x i j => l x (ρ j) (κ i) ^ 2)
    (fun i j => (hs _ _).pow 2) hz
  exact ⟨c, hc.mono fun x hx => (convDiscrete_enlarged (e _)).mpr ⟨h1, h2, hx⟩, hc'⟩

theorem convRaster_fromCell_iff {la : LinAlg} {ny nx fx fy : ℕ} [NeZero ny] [NeZero nx] {l : Fin ny → Fin nx → ℂ}
    {c : Conv (FlatIdx fx fy)} : convRasterContinuous la ⟨ny, nx, l⟩ fx fy false = .ok c ↔
      ∃ z, FromCell (pixL nx) (pixL ny) (fun x y => (l y.rev x) ^ 2) c z := by
  have e := @convRaster_pix la ⟨ny, nx, l⟩ ‹_› ‹_› fx fy false
  rw [e]
  simp only [Except.bind_ok, meeinv_false_ok]
  constructor
  · rintro ⟨z, hz, y, hy, x, hx, zi, ⟨hu, hi⟩, e⟩
    simp only [Except.ok.injEq] at e
    subst e
    exact ⟨z, ⟨hz, hy, hx, hu, hi⟩⟩
  · rintro ⟨z, h⟩
    exact ⟨z, h.hz, _, h.hy, _, h.hx, _, ⟨h.hu, h.hi⟩, rfl⟩

theorem convRaster_smooth {la : LinAlg} {ny nx fx fy : ℕ} [NeZero ny] [NeZero nx] {l : E → Fin ny → Fin nx → ℂ}
    {c₀ : Conv (FlatIdx fx fy)} (hs : ∀ i, VSm (fun x => l x i) x₀) (h : convRasterContinuous la ⟨ny, nx, l x₀⟩ fx fy false = .ok c₀) :
    ∃ c : E → Conv (FlatIdx fx fy), (∀ᶠ x in 𝓝 x₀, convRasterContinuous la ⟨ny, nx, l x⟩ fx fy false = .ok (c x)) ∧ CSm c x₀ := by
  simp only [convRaster_fromCell_iff] at h ⊢
  obtain ⟨z, hz⟩ := h
  exact fromCell_smooth smoothL_pix smoothL_pix (cell := fun x i j => l x j.rev i ^ 2) (fun i j => (hs _ _).pow 2) hz

/-! ### All layers -/

theorem mapM_smooth {α β : Type} {f : α → Res β} {S : (E → β) → Prop} :
    ∀ {ls : List (E → α)} {r₀ : List β}, (∀ l ∈ ls, ∀ b, f (l x₀) = .ok b → ∃ c : E → β, (∀ᶠ x in 𝓝 x₀, f (l x) = .ok (c x)) ∧ S c) →
      (ls.map fun l => l x₀).mapM f = .ok r₀ →
      ∃ cs : List (E → β), (∀ᶠ x in 𝓝 x₀, (ls.map fun l => l x).mapM f = .ok (cs.map fun c => c x)) ∧ ∀ c ∈ cs, S c
  | [], r₀, _, h => ⟨[], Filter.Eventually.of_forall fun _ => rfl, by simp⟩
  | l :: ls, r₀, hl, h => by
    simp only [List.map_cons, List.mapM_cons, Except.bind_ok] at h
    obtain ⟨b, hb, bs, hbs, -⟩ := h
    obtain ⟨c, hc, hc'⟩ := hl l List.mem_cons_self b hb
    obtain ⟨cs, hcs, hcs'⟩ := mapM_smooth (fun l' h' => hl l' (List.mem_cons_of_mem _ h')) hbs
    refine ⟨c :: cs, ?_, ?_⟩
    · filter_upwards [hc, hcs] with x e1 e2
      simp only [List.map_cons, List.mapM_cons, Except.bind_ok]
      exact ⟨_, e1, _, e2, rfl⟩
    · intro d hd
      rcases List.mem_cons.mp hd with rfl | hd
      · exact hc'
      · exact hcs' d hd

end Meent
