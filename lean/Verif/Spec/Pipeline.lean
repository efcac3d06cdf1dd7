import Verif.Spec.Materials
import Verif.Spec.Gain

/-!
# Specification vocabulary: structures filled with materials
-/

namespace Meent.Spec

/-- Rows of optical constants as sources publish them: in ascending order, at least one, `n ≥ 0` and `k ≥ 0`. -/
structure PublishedRows (rows : List (ℝ × ℝ × ℝ)) : Prop where
  some_row : rows ≠ []
  ascending : Ascending rows
  n_nonneg : ∀ r ∈ rows, 0 ≤ r.2.1
  k_nonneg : ∀ r ∈ rows, 0 ≤ r.2.2

/-- The same with the sign of `k` flipped. -/
structure FlippedRows (rows : List (ℝ × ℝ × ℝ)) : Prop where
  some_row : rows ≠ []
  ascending : Ascending rows
  n_nonneg : ∀ r ∈ rows, 0 ≤ r.2.1
  k_nonpos : ∀ r ∈ rows, r.2.2 ≤ 0

/-- What a list of materials may hold if nothing is to amplify: numbers `n - ik` with `n, k ≥ 0`, closed forms that absorb or are
transparent, and names that stand for such a closed form or for published rows. -/
inductive SafeMaterial (disk : Res Table) (cache : Table) : Material → Prop
  | value (z : ℂ) (h : PassiveMedium z) : SafeMaterial disk cache (.value z)
  | form (f : FSpec) (h : PassiveSpec f) : SafeMaterial disk cache (.lookup (.spec f))
  | fitted (s : Str) (t : Table) (f : FSpec) (b : Bool) (hu : InUse disk cache t) (hd : Denotes t (.name s) (.spec f) b)
      (h : PassiveSpec f) : SafeMaterial disk cache (.lookup (.name s))
  | tabulated (s : Str) (t : Table) (rows : List (ℝ × ℝ × ℝ)) (b : Bool) (hu : InUse disk cache t)
      (hd : Denotes t (.name s) (.table rows) b) (h : PublishedRows rows) : SafeMaterial disk cache (.lookup (.name s))

/-- Materials without absorption: non-negative numbers, Sellmeier fits, and names with the suffix `__real` of any closed form or of
rows with `n ≥ 0`, whatever their `k`. -/
inductive ClearMaterial (disk : Res Table) (cache : Table) : Material → Prop
  | value (z : ℂ) (h : 0 ≤ z.re) (h' : z.im = 0) : ClearMaterial disk cache (.value z)
  | sellmeier (n : ℤ) (cs : Option (List ℝ)) (range : Option (EReal × EReal)) (hn : n = 1 ∨ n = 2) :
      ClearMaterial disk cache (.lookup (.spec ⟨some (.num n), cs, range⟩))
  | fitted (s : Str) (t : Table) (n : ℤ) (cs : Option (List ℝ)) (range : Option (EReal × EReal)) (b : Bool) (hn : n = 1 ∨ n = 2)
      (hu : InUse disk cache t) (hd : Denotes t (.name s) (.spec ⟨some (.num n), cs, range⟩) b) :
      ClearMaterial disk cache (.lookup (.name s))
  | realForm (s : Str) (t : Table) (f : FSpec) (hu : InUse disk cache t)
      (hd : Denotes t (.name (s ++ "__real".toList)) (.spec f) true) : ClearMaterial disk cache (.lookup (.name (s ++ "__real".toList)))
  | realRows (s : Str) (t : Table) (rows : List (ℝ × ℝ × ℝ)) (hu : InUse disk cache t)
      (hd : Denotes t (.name (s ++ "__real".toList)) (.table rows) true) (hne : rows ≠ []) (ha : Ascending rows)
      (hn : ∀ r ∈ rows, 0 ≤ r.2.1) : ClearMaterial disk cache (.lookup (.name (s ++ "__real".toList)))

/-- Materials that do not absorb as the program reads them: those without absorption, and rows whose `k` was flipped. -/
inductive FlippedMaterial (disk : Res Table) (cache : Table) : Material → Prop
  | clear (m : Material) (h : ClearMaterial disk cache m) : FlippedMaterial disk cache m
  | tabulated (s : Str) (t : Table) (rows : List (ℝ × ℝ × ℝ)) (b : Bool) (hu : InUse disk cache t)
      (hd : Denotes t (.name s) (.table rows) b) (h : FlippedRows rows) : FlippedMaterial disk cache (.lookup (.name s))

/-- The structure is the array that a substitution returned, all of whose entries are numbers. -/
def Holding {L ny nx : ℕ} (s : Settings) (out : Fin L × Fin ny × Fin nx → Option ℂ) : Prop :=
  ∃ ls : Fin L → Fin ny → Fin nx → ℂ, s.ucell = .raster ⟨ny, nx, List.ofFn ls⟩ ∧ ∀ l i j, out (l, i, j) = some (ls l i j)

/-- Real illumination between lossless half-spaces, no thickness negative. -/
structure PlainStack (p : Params) : Prop extends RealIllumination p where
  thickness_nonneg : ∀ d ∈ p.thickness, 0 ≤ d
  n_bot_real : IsReal p.n_bot
  n_bot_pos : 0 < p.n_bot.re

/-- In a layer of positive thickness that the light sees in full (the Fourier coefficients are the continuous ones or those of the
enhanced discrete transform) a pixel is labelled with a material whose index at `wl` satisfies `P`. -/
def Labelled {L ny nx : ℕ} (s : Settings) (labels : Fin L × Fin ny × Fin nx → ℂ) (mats : List Material) (sp : SciPy) (disk : Res Table)
    (cache : Table) (wl : ℝ) (P : ℂ → Prop) : Prop :=
  (s.fourier_type = 1 ∨ s.fourier_type = 0 ∧ s.enhanced_dfs = true) ∧
    ∃ (l : Fin L) (i : Fin ny) (j : Fin nx) (d : ℝ) (k : ℕ) (m : Material) (z : ℂ), s.p.thickness[(l : ℕ)]? = some d ∧ 0 < d ∧
      labels (l, i, j) = (k : ℂ) ∧ mats[k]? = some m ∧ IndexOf sp disk cache wl m (some z) ∧ P z

end Meent.Spec
