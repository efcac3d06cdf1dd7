import Verif.Spec.Fields
import Verif.Model.TorchField

/-!
# Specification vocabulary: sampled arrays as samples of a function of position

A field in the stack is a function of the layer (`0` is the topmost one), of the depth in that layer as a fraction of its thickness,
of `y` and of `x`. An array of samples is compared with such a function; the resolution only enters through the positions of the samples.
-/

namespace Meent.Spec

/-- A field: layer, depth as a fraction of the thickness of the layer, `y`, `x`. -/
abbrev FieldFn (α : Type) : Type := ℕ → ℝ → ℝ → ℝ → α

/-- `cell` holds the samples of `F` in `n` layers: depths from the top (`0`) to the bottom (`1`) of each layer, rows from `y = period` down
to `y = 0`, columns from `x = 0` to `x = period`, all ends included. -/
structure SamplesOf {rx ry rz : ℕ} {α : Type} (n : ℕ) (period : ℝ × ℝ) (F : FieldFn α) (cell : List (Block rx ry rz α)) : Prop where
  layers : cell.length = n
  value : ∀ (k : ℕ) (a : Block rx ry rz α), cell[k]? = some a → ∀ iz iy ix,
    a iz iy ix = F k (samplePoint 1 rz iz) (samplePoint period.2 ry iy.rev) (samplePoint period.1 rx ix)

/-- All components times a number. -/
def times6 (c : ℂ) (f : Field6) : Field6 := ⟨c * f.Ex, c * f.Ey, c * f.Ez, c * f.Hx, c * f.Hy, c * f.Hz⟩

/-- All components times a number. -/
def times3 (c : ℂ) (f : Field3) : Field3 := ⟨c * f.Fy, c * f.Fx, c * f.Fz⟩

/-- Sum of two fields. -/
def plus6 (f g : Field6) : Field6 := ⟨f.Ex + g.Ex, f.Ey + g.Ey, f.Ez + g.Ez, f.Hx + g.Hx, f.Hy + g.Hy, f.Hz + g.Hz⟩

/-- Phase picked up by the incident wave over one period along `x`: `2π/λ · n_top sin θ cos φ · Λx`. -/
noncomputable def phaseAlongX (p : Params) : ℝ :=
  2 * Real.pi / p.wavelength * (p.n_top.re * Real.sin p.theta.re * Real.cos (p.phi.getD 0).re) * p.period.1

/-- Phase picked up by the incident wave over one period along `y`. -/
noncomputable def phaseAlongY (p : Params) : ℝ :=
  2 * Real.pi / p.wavelength * (p.n_top.re * Real.sin p.theta.re * Real.sin (p.phi.getD 0).re) * p.period.2

/-- One period further along `x` the field is the same up to the phase `δ`. -/
def QuasiX {α : Type} (times : ℂ → α → α) (period δ : ℝ) (F : FieldFn α) : Prop :=
  ∀ k z y x, F k z y (x + period) = times (Complex.exp ((δ : ℂ) * Complex.I)) (F k z y x)

/-- One period further along `y` the field is the same up to the phase `δ`. -/
def QuasiY {α : Type} (times : ℂ → α → α) (period δ : ℝ) (F : FieldFn α) : Prop :=
  ∀ k z y x, F k z (y + period) x = times (Complex.exp ((δ : ℂ) * Complex.I)) (F k z y x)

/-- `F` is the superposition `sin ψ · G + cos ψ · H`. -/
def Superposed (ψ : ℂ) (F G H : FieldFn Field6) : Prop :=
  ∀ k z y x, F k z y x = plus6 (times6 (Complex.sin ψ) (G k z y x)) (times6 (Complex.cos ψ) (H k z y x))

/-- The fields of a solved problem: one for the TE/TM solver; otherwise one for the polarization angle asked for, one for TE and one for TM. -/
inductive Fields (α : Type)
  | tetm (F : FieldFn α)
  | vector (F G H : FieldFn Field6)

/-- One period further along `x` or `y` the fields are the same up to the phases `δ`; those of the TE/TM solver do not depend on `y`. -/
def Fields.Quasi {α : Type} (times : ℂ → α → α) (period δ : ℝ × ℝ) : Fields α → Prop
  | .tetm F => QuasiX times period.1 δ.1 F ∧ ∀ k z y y' x, F k z y x = F k z y' x
  | .vector F G H => ∀ f ∈ [F, G, H], QuasiX times6 period.1 δ.1 f ∧ QuasiY times6 period.2 δ.2 f

/-- The field for the polarization angle `ψ` is the superposition of those for TE and TM. -/
def Fields.Superpose {α : Type} (ψ : ℂ) : Fields α → Prop
  | .tetm _ => True
  | .vector F G H => Superposed ψ F G H

/-- The array returned for the selection `sel` holds the samples of the selected fields in `n` layers. -/
def Fields.Sampled {rx ry rz : ℕ} (p : Params) (n : ℕ) (sel : Bool × Bool × Bool) : Fields Field3 → FieldCell rx ry rz → Prop
  | .tetm F, .tetm cell => SamplesOf n p.period F cell
  | .vector F G H, .vector cells =>
    List.Forall₂ (fun f cell => SamplesOf n p.period f cell)
      ((if sel.1 then [F] else []) ++ (if sel.2.1 then [G] else []) ++ (if sel.2.2 then [H] else [])) cells
  | _, _ => False

/-- The same for the arrays of the PyTorch backend, which always have six components. -/
def Fields.SampledT {rx ry rz : ℕ} (p : Params) (n : ℕ) (sel : Bool × Bool × Bool) : Fields Field6 → TFieldCell rx ry rz → Prop
  | .tetm F, .tetm cell => SamplesOf n p.period F cell
  | .vector F G H, .vector cells =>
    List.Forall₂ (fun f cell => SamplesOf n p.period f cell)
      ((if sel.1 then [F] else []) ++ (if sel.2.1 then [G] else []) ++ (if sel.2.2 then [H] else [])) cells
  | _, _ => False

/-- Two arrays, possibly of different resolutions, agree wherever both have a sample. -/
def AgreeLayers {α : Type} {rx ry rz rx' ry' rz' : ℕ} (period : ℝ × ℝ) (cell : List (Block rx ry rz α)) (cell' : List (Block rx' ry' rz' α)) : Prop :=
  cell.length = cell'.length ∧ ∀ (k : ℕ) (a : Block rx ry rz α) (a' : Block rx' ry' rz' α), cell[k]? = some a → cell'[k]? = some a' →
    ∀ iz iz' iy iy' ix ix', samplePoint 1 rz iz = samplePoint 1 rz' iz' → samplePoint period.2 ry iy.rev = samplePoint period.2 ry' iy'.rev →
      samplePoint period.1 rx ix = samplePoint period.1 rx' ix' → a iz iy ix = a' iz' iy' ix'

/-- The same for the arrays returned by the solver. -/
def Agree {rx ry rz rx' ry' rz' : ℕ} (period : ℝ × ℝ) : FieldCell rx ry rz → FieldCell rx' ry' rz' → Prop
  | .tetm cell, .tetm cell' => AgreeLayers period cell cell'
  | .vector cells, .vector cells' => List.Forall₂ (fun cell cell' => AgreeLayers period cell cell') cells cells'
  | _, _ => False

/-- The last column is the first one up to the phase `δ`, in every row, at every depth, in every layer. -/
def ColumnsClose {α : Type} {rx ry rz : ℕ} (times : ℂ → α → α) (δ : ℝ) (cell : List (Block rx ry rz α)) : Prop :=
  ∀ a ∈ cell, ∀ iz iy (first last : Fin rx), first.val = 0 → last.val + 1 = rx → 2 ≤ rx →
    a iz iy last = times (Complex.exp ((δ : ℂ) * Complex.I)) (a iz iy first)

/-- The first row, at `y = period`, is the last one, at `y = 0`, up to the phase `δ`. -/
def RowsClose {α : Type} {rx ry rz : ℕ} (times : ℂ → α → α) (δ : ℝ) (cell : List (Block rx ry rz α)) : Prop :=
  ∀ a ∈ cell, ∀ iz ix (first last : Fin ry), first.val = 0 → last.val + 1 = ry → 2 ≤ ry →
    a iz first ix = times (Complex.exp ((δ : ℂ) * Complex.I)) (a iz last ix)

/-- Opposite edges of the sampled cell match. -/
def Closes {rx ry rz : ℕ} (δ : ℝ × ℝ) : FieldCell rx ry rz → Prop
  | .tetm cell => ColumnsClose times3 δ.1 cell
  | .vector cells => ∀ cell ∈ cells, ColumnsClose times6 δ.1 cell ∧ RowsClose times6 δ.2 cell

end Meent.Spec
