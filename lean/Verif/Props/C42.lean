import Verif.Lemmas.LayerCount
import Verif.Props.C06

/-!
# C42: layer count mismatch

The full claim is that every mismatch between the number of layers and the number of thicknesses is rejected. The code
rejects too many thicknesses (first theorem) but silently ignores surplus layers (second and third theorem), so the full
claim is false of the code.
-/

open Matrix

namespace Meent

/-- **C42, proved half.** With more thicknesses than layers no result is returned; if the convolution matrices and the
half-space terms could be computed, the exception is `IndexError` (1D solver shown here, where the half-space terms
always can). -/
theorem C42_rejects_surplus_thickness_partial (la : LinAlg) (s : Settings) (ht : s.algo = .tmm)
    (h : Spec.layerCount s.ucell < s.p.thickness.length) :
    (∀ sol, conv_solve la s ≠ .ok sol) ∧
    (∀ cs, convMats la s = .ok cs → gratingType s = 0 → conv_solve la s = .error .indexError) := by
  have hlen : ∀ {S C L : Type} {step : C → ℝ → S → Res (S × L)} {convs : List C} {st : S × List L},
      convs.length < s.p.thickness.length → layerLoop step convs s.p.thickness s.p.thickness.length st = .error .indexError :=
    fun h => (layerLoop_too_long h).choose_spec.2
  constructor
  · intro sol hs
    obtain ⟨cs, hc, hs⟩ := conv_solve_ok.mp hs
    have hl := convMats_length hc
    have hl' : cs.length < s.p.thickness.length := by omega
    cases sol with
    | tetm o =>
      have := (solve_for_conv_tetm.mp hs).2.2
      unfold solve_1d at this
      simp only [Except.bind_ok] at this
      obtain ⟨i, -, r, hr, -⟩ := this
      rw [hlen (by simpa using hl')] at hr; cases hr
    | conical o =>
      have := (solve_for_conv_conical.mp hs).2.2
      unfold solve_1d_conical at this
      simp only [Except.bind_ok] at this
      obtain ⟨i, -, r, hr, -⟩ := this
      rw [hlen hl'] at hr; cases hr
    | conicalSmm => have := (solve_for_conv_smm.mp hs).2; rw [ht] at this; cases this
    | twoD o =>
      have := (solve_for_conv_twoD.mp hs).2.2
      unfold solve_2d at this
      simp only [Except.bind_ok] at this
      obtain ⟨i, -, r, hr, -⟩ := this
      rw [hlen hl'] at hr; cases hr
  · intro cs hc hg
    have hl := convMats_length hc
    unfold conv_solve solve_for_conv
    rw [hc]
    simp only [bind, Except.bind, hg, ht]
    unfold solve_1d
    obtain ⟨u, -, -, hpol, -, -⟩ := gratingType_zero hg
    have hi : ∃ i, transfer_1d_1 s.p.pol (kxVec s.p s.p.wavelength) s.p.n_top s.p.n_bot = .ok i := by
      unfold transfer_1d_1
      rcases hpol with e | e <;> simp [e]
    obtain ⟨i, hi⟩ := hi
    simp only [hi, bind, Except.bind]
    rw [hlen (by simp; omega)]

/-- **C42, what happens instead.** With fewer thicknesses than layers the surplus layers are silently ignored: the solver
returns the result of the stack without them. -/
theorem C42_ignores_surplus_layers (la : LinAlg) (s : Settings) (hp : s.p.use_pinv = false) (u u' : Structure)
    (hu : Spec.Extended u u') (th : List ℝ) (hth : th.length ≤ Spec.layerCount u) (sol' : Solved s.p.fto.1 s.p.fto.2)
    (h : conv_solve la (Spec.withStack s u' th) = .ok sol') :
    ∃ sol : Solved s.p.fto.1 s.p.fto.2,
      conv_solve la (Spec.withStack s u th) = .ok sol ∧ sol.result = sol'.result := by
  refine conv_solve_sim hp (gratingType_extended hu) (fun cs' hc => ?_) h
  obtain ⟨pre, post, rfl, hlen, hc'⟩ := convMats_extended hu hc
  refine ⟨_, hc', fun hl => ⟨by omega, ?_⟩⟩
  rw [zip_append_right _ _ _ (by omega)]
  intro n _ _ L k0 step hm s0 r' hr
  exact ⟨r', hr, SEquiv.refl _⟩

/-- **C42 is violated**: a two-layer structure with a single thickness is accepted. -/
theorem C42_violated : ∃ (s : Settings) (sol : Solved s.p.fto.1 s.p.fto.2), s.p.use_pinv = false ∧ s.algo = .tmm ∧
    Spec.layerCount s.ucell ≠ s.p.thickness.length ∧ conv_solve exLA s = .ok sol := by
  refine ⟨Spec.withStack (exSettings 0 none) exDouble [1 / 3], ?_⟩
  obtain ⟨cs, h1, h2, h3, h4⟩ := conv_solve_tetm.mp exTE_ok.choose_spec
  obtain ⟨pre, c, post, rfl, -, h1'⟩ := convMats_undoubled (s := exSettings 0 none) (th := [1 / 3]) (th' := [1 / 3]) exDoubled h1
  refine ⟨.tetm exTE_ok.choose, rfl, rfl, by simp [Spec.layerCount, exDouble], ?_⟩
  refine conv_solve_tetm.mpr ⟨_, h1', h2, h3, ?_⟩
  have hl : pre.length + (post.length + 1) = 1 := by
    have := convMats_length h1
    rw [List.length_append, List.length_cons] at this
    exact this
  obtain rfl : pre = [] := by apply List.eq_nil_of_length_eq_zero; omega
  obtain rfl : post = [] := by apply List.eq_nil_of_length_eq_zero; omega
  obtain ⟨a, init, r, x, e1, e2, e3, e4⟩ := (solve_1d_iff rfl).mp h4
  refine (solve_1d_iff (p := (Spec.withStack (exSettings 0 none) exDouble [1 / 3]).p) rfl).mpr ⟨by simp, init, r, x, e1, ?_, e3, e4⟩
  exact e2

/-- Hypotheses of the first theorem: the one-layer example with two thicknesses. -/
example : Spec.layerCount (exSettings 0 none).ucell <
    (Spec.withStack (exSettings 0 none) (exSettings 0 none).ucell [1 / 3, 1 / 3]).p.thickness.length := by
  simp [Spec.layerCount, exSettings, exCell]

/-- Hypotheses of the second theorem. -/
example : Spec.Extended (exSettings 0 none).ucell exDouble := .raster [_] [_]

#print axioms C42_rejects_surplus_thickness_partial
#print axioms C42_ignores_surplus_layers
#print axioms C42_violated

end Meent
