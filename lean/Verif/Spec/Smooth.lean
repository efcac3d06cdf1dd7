import Mathlib.Analysis.Calculus.ContDiff.Operations
import Mathlib.Analysis.Complex.Basic
import Verif.Model.Rcwa

/-!
# Specification vocabulary: designs and smooth results
-/

open scoped ContDiff

namespace Meent.Spec

/-- What a designer varies: the refractive index of every pixel of `L` layers of `ny × nx` pixels, and `M` thicknesses. -/
abbrev Design (L ny nx M : ℕ) : Type := (Fin L → Fin ny → Fin nx → ℂ) × (Fin M → ℝ)

/-- The settings `s` with the pixels and thicknesses of a design. -/
def withDesign {L ny nx M : ℕ} (s : Settings) (x : Design L ny nx M) : Settings :=
  { s with ucell := .raster ⟨ny, nx, List.ofFn x.1⟩, p := { s.p with thickness := List.ofFn x.2 } }

/-- The settings `s` with other thicknesses. -/
def withThickness {M : ℕ} (s : Settings) (d : Fin M → ℝ) : Settings :=
  { s with p := { s.p with thickness := List.ofFn d } }

variable {E : Type} [NormedAddCommGroup E] [NormedSpace ℝ E] {a b : ℕ}

/-- All amplitudes and efficiencies have derivatives of every order at `x₀`. -/
structure SmoothSub (g : E → SubRes a b) (x₀ : E) : Prop where
  R_s : ∀ i j, ContDiffAt ℝ ∞ (fun x => (g x).R_s i j) x₀
  R_p : ∀ i j, ContDiffAt ℝ ∞ (fun x => (g x).R_p i j) x₀
  T_s : ∀ i j, ContDiffAt ℝ ∞ (fun x => (g x).T_s i j) x₀
  T_p : ∀ i j, ContDiffAt ℝ ∞ (fun x => (g x).T_p i j) x₀
  de_ri_s : ∀ i j, ContDiffAt ℝ ∞ (fun x => (g x).de_ri_s i j) x₀
  de_ri_p : ∀ i j, ContDiffAt ℝ ∞ (fun x => (g x).de_ri_p i j) x₀
  de_ri : ∀ i j, ContDiffAt ℝ ∞ (fun x => (g x).de_ri i j) x₀
  de_ti_s : ∀ i j, ContDiffAt ℝ ∞ (fun x => (g x).de_ti_s i j) x₀
  de_ti_p : ∀ i j, ContDiffAt ℝ ∞ (fun x => (g x).de_ti_p i j) x₀
  de_ti : ∀ i j, ContDiffAt ℝ ∞ (fun x => (g x).de_ti i j) x₀

/-- A part of the result that is absent for all `x`, or present for all `x` and smooth at `x₀`. -/
def SmoothOpt (g : E → Option (SubRes a b)) (x₀ : E) : Prop :=
  (∀ x, g x = none) ∨ ∃ h, (∀ x, g x = some (h x)) ∧ SmoothSub h x₀

/-- All parts of the result are smooth at `x₀`. -/
def SmoothResult {fx fy : ℕ} (g : E → Result fx fy) (x₀ : E) : Prop :=
  SmoothOpt (fun x => (g x).res) x₀ ∧ SmoothOpt (fun x => (g x).res_te_inc) x₀ ∧ SmoothOpt (fun x => (g x).res_tm_inc) x₀

end Meent.Spec
