import Verif.Lemmas.SmoothAll
import Verif.Lemmas.Example1D
import Verif.Spec.Smooth

/-!
# C67: results depend smoothly on pixels and thicknesses

The eigenvalue routine may return its eigenvectors in any order and with any phases, so `layer_info_list` and all
intermediate matrices may jump when a pixel changes a little. The results do not.
-/

open Matrix
open scoped ContDiff Topology

namespace Meent

/-- **C67 (pixels and thicknesses).** Let the solve of a raster design `x₀` succeed. Then there is a function `g` with
derivatives of all orders at `x₀` that gives the amplitudes and efficiencies of every design near `x₀` that can be
solved. -/
theorem C67_smooth (la : LinAlg) (s : Settings) (hp : s.p.use_pinv = false) {L ny nx M : ℕ} (x₀ : Spec.Design L ny nx M)
    (h : ∃ r, conv_solve la (Spec.withDesign s x₀) = .ok r) :
    ∃ g : Spec.Design L ny nx M → Result s.p.fto.1 s.p.fto.2,
      (∀ᶠ x in 𝓝 x₀, ∀ r, conv_solve la (Spec.withDesign s x) = .ok r → r.result = g x) ∧ Spec.SmoothResult g x₀ := by
  obtain ⟨r, h⟩ := h
  obtain ⟨c₀, hc₀, -⟩ := conv_solve_ok.mp h
  obtain ⟨cs, hcs, hsm⟩ := convMats_design hp hc₀
  have e : ∀ x : Spec.Design L ny nx M, Spec.withDesign s x = reshape s (.raster ⟨ny, nx, List.ofFn x.1⟩)
      ((List.ofFn fun i (y : Spec.Design L ny nx M) => y.2 i).map fun t => t x) := by
    intro x
    unfold Spec.withDesign reshape
    rw [ofFn_eval (fun y : Spec.Design L ny nx M => y.2) x]
  have hz : gratingType (Spec.withDesign s x₀) = 1 → s.p.fto.2 = 0 → ∀ᶠ x in 𝓝 x₀, ∀ c ∈ cs, (c x).epzi * (c x).epy = 1 := by
    intro hk hf
    filter_upwards [hcs] with x hx c hc
    exact epzi_epy_of_one (s := Spec.withDesign s x) hp hk hf hx _ (List.mem_map.mpr ⟨c, hc, rfl⟩)
  have main := conv_solve_smooth (la := la) hp (u := fun x : Spec.Design L ny nx M => .raster ⟨ny, nx, List.ofFn x.1⟩)
    (ts := List.ofFn fun i (y : Spec.Design L ny nx M) => y.2 i) (cs := cs) (k := gratingType (Spec.withDesign s x₀)) (x₀ := x₀)
    (fun x => rfl) (hcs.mono fun x hx => hx) hsm design_thickness hz (by rw [← e]; exact ⟨r, h⟩)
  obtain ⟨g, h1, h2⟩ := main
  refine ⟨g, h1.mono fun x hx r hr => ?_, h2⟩
  have key : ∀ (S S' : Settings) (eS : S = S') (g' : Result S'.p.fto.1 S'.p.fto.2),
      (∀ r, conv_solve la S' = .ok r → r.result = g') → ∀ r, conv_solve la S = .ok r → HEq r.result g' := by
    rintro S S' rfl g' k r hr
    exact heq_of_eq (k r hr)
  exact eq_of_heq (key _ _ (e x) (g x) hx r hr)

/-- **C67 (thicknesses).** For every structure, raster or vector: if it can be solved with the thicknesses `d₀`, it can
be solved with all nearby thicknesses, and amplitudes and efficiencies have derivatives of all orders in them. -/
theorem C67_thickness (la : LinAlg) (s : Settings) (hp : s.p.use_pinv = false) {M : ℕ} (d₀ : Fin M → ℝ)
    (h : ∃ r, conv_solve la (Spec.withThickness s d₀) = .ok r) :
    ∃ g : (Fin M → ℝ) → Result s.p.fto.1 s.p.fto.2,
      (∀ᶠ d in 𝓝 d₀, ∃ r, conv_solve la (Spec.withThickness s d) = .ok r ∧ r.result = g d) ∧ Spec.SmoothResult g d₀ := by
  obtain ⟨r, h⟩ := h
  obtain ⟨c₀, hc₀, -⟩ := conv_solve_ok.mp h
  have e : ∀ d : Fin M → ℝ, Spec.withThickness s d = reshape s s.ucell ((List.ofFn fun i (y : Fin M → ℝ) => y i).map fun t => t d) := by
    intro x
    unfold Spec.withThickness reshape
    rw [ofFn_eval (fun y : Fin M → ℝ => y) x]
  have ht : ∀ t ∈ List.ofFn (fun i (y : Fin M → ℝ) => y i), ContDiffAt ℝ ∞ t d₀ := by
    intro t ht
    obtain ⟨i, rfl⟩ := (List.mem_ofFn' _ _).mp ht
    fun_prop
  have h' : ∃ r, conv_solve la (reshape s s.ucell ((List.ofFn fun i (y : Fin M → ℝ) => y i).map fun t => t d₀)) = .ok r := by
    rw [← e]
    exact ⟨r, h⟩
  obtain ⟨g, h1, h2⟩ := conv_solve_smooth (la := la) hp (u := fun _ : Fin M → ℝ => s.ucell)
    (ts := List.ofFn fun i (y : Fin M → ℝ) => y i) (cs := c₀.map fun c _ => c) (k := gratingType s) (x₀ := d₀)
    (fun x => rfl) (Filter.Eventually.of_forall fun x => by
      have : (c₀.map fun c (_ : Fin M → ℝ) => c).map (fun c => c x) = c₀ := by
        rw [List.map_map]
        exact List.map_id _
      exact hc₀.trans (congrArg Except.ok this.symm))
    (by
      intro c hc
      obtain ⟨c', -, rfl⟩ := List.mem_map.mp hc
      exact ⟨MSm.const _, MSm.const _, MSm.const _⟩) ht
    (by
      intro hk hf
      refine Filter.Eventually.of_forall fun x c hc => ?_
      obtain ⟨c', hc', rfl⟩ := List.mem_map.mp hc
      exact epzi_epy_of_one (s := Spec.withThickness s d₀) hp hk hf hc₀ _ hc') h'
  refine ⟨g, ?_, h2⟩
  filter_upwards [h1, conv_solve_open hp ht h'] with d hd hr
  obtain ⟨r, hr⟩ := hr
  have key : ∀ (S S' : Settings) (eS : S' = S) (g' : Result S.p.fto.1 S.p.fto.2) (r : Solved S.p.fto.1 S.p.fto.2),
      conv_solve la S = .ok r → r.result = g' → ∃ r', conv_solve la S' = .ok r' ∧ HEq r'.result g' := by
    rintro S S' rfl g' r hr k
    exact ⟨r, hr, heq_of_eq k⟩
  obtain ⟨r', k1, k2⟩ := key _ _ (e d) (g d) r hr (hd r hr)
  exact ⟨r', k1, eq_of_heq k2⟩

/-- In particular, a quantity a user computes in a region where the solves succeed is differentiable: the total
reflected power, for example, as a function of the thicknesses. -/
theorem C67_total (la : LinAlg) (s : Settings) (hp : s.p.use_pinv = false) {M : ℕ} (d₀ : Fin M → ℝ)
    (f : (Fin M → ℝ) → SubRes (2 * s.p.fto.2 + 1) (2 * s.p.fto.1 + 1))
    (h : ∀ᶠ d in 𝓝 d₀, ∃ r, conv_solve la (Spec.withThickness s d) = .ok r ∧ r.result.res = some (f d)) :
    ContDiffAt ℝ ∞ (fun d => ∑ i, ∑ j, (f d).de_ri i j) d₀ ∧ ContDiffAt ℝ ∞ (fun d => ∑ i, ∑ j, (f d).de_ti i j) d₀ := by
  obtain ⟨r₀, hr₀, hf₀⟩ := h.self_of_nhds
  obtain ⟨g, h1, h2, -, -⟩ := C67_thickness la s hp d₀ ⟨r₀, hr₀⟩
  have hg : ∀ᶠ d in 𝓝 d₀, (g d).res = some (f d) := by
    filter_upwards [h, h1] with d hd hd1
    obtain ⟨r, k1, k2⟩ := hd
    obtain ⟨r', k3, k4⟩ := hd1
    obtain rfl := Except.ok.inj (k1.symm.trans k3)
    rw [← k4]
    exact k2
  rcases h2 with h2 | ⟨G, hG, hs⟩
  · have := hg.self_of_nhds
    rw [show (g d₀).res = none from h2 d₀] at this
    simp at this
  · have hfG : ∀ᶠ d in 𝓝 d₀, f d = G d := hg.mono fun d hd => by
      rw [show (g d).res = some (G d) from hG d] at hd
      exact (Option.some.inj hd).symm
    constructor
    · have : ContDiffAt ℝ ∞ (fun d => ∑ i, ∑ j, (G d).de_ri i j) d₀ :=
        ContDiffAt.sum fun i _ => ContDiffAt.sum fun j _ => hs.de_ri i j
      refine this.congr_of_eventuallyEq (hfG.mono fun d hd => ?_)
      simp only [hd]
    · have : ContDiffAt ℝ ∞ (fun d => ∑ i, ∑ j, (G d).de_ti i j) d₀ :=
        ContDiffAt.sum fun i _ => ContDiffAt.sum fun j _ => hs.de_ti i j
      refine this.congr_of_eventuallyEq (hfG.mono fun d hd => ?_)
      simp only [hd]

/-! ## Non-vacuity -/

/-- The example grating, its pixels and its thickness as a design. -/
example : ∃ (L ny nx M : ℕ) (x₀ : Spec.Design L ny nx M), 0 < L ∧ 0 < nx ∧ 0 < M ∧
    ∃ r, conv_solve exLA (Spec.withDesign (exSettings 0 none) x₀) = .ok r := by
  refine ⟨exCell.layers.length, exCell.ny, exCell.nx, (exParams 0 none).thickness.length,
    ⟨exCell.layers.get, (exParams 0 none).thickness.get⟩, by simp [exCell], by simp [exCell], by simp [exParams], ?_⟩
  have e : Spec.withDesign (exSettings 0 none) (⟨exCell.layers.get, (exParams 0 none).thickness.get⟩ :
      Spec.Design exCell.layers.length exCell.ny exCell.nx (exParams 0 none).thickness.length) = exSettings 0 none := by
    unfold Spec.withDesign
    rw [List.ofFn_get, List.ofFn_get]
    rfl
  rw [e]
  exact ⟨_, exTE_ok.choose_spec⟩

example : ∃ (M : ℕ) (d₀ : Fin M → ℝ), 0 < M ∧ ∃ r, conv_solve exLA (Spec.withThickness (exSettings 1 none) d₀) = .ok r := by
  refine ⟨(exParams 1 none).thickness.length, (exParams 1 none).thickness.get, by simp [exParams], ?_⟩
  have e : Spec.withThickness (exSettings 1 none) (exParams 1 none).thickness.get = exSettings 1 none := by
    unfold Spec.withThickness
    rw [List.ofFn_get]
    rfl
  rw [e]
  exact ⟨_, exTM_ok.choose_spec⟩

#print axioms C67_smooth
#print axioms C67_thickness
#print axioms C67_total

end Meent
