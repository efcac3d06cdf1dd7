import Verif.Model.Materials
import Mathlib.MeasureTheory.Measure.Lebesgue.Basic
import Mathlib.MeasureTheory.Integral.Bochner.Basic

/-!
# What the material properties mean
-/

namespace Meent.Spec

open MeasureTheory

/-! ### Tables -/

/-- The wavelengths of a table ascend.  Some of the shipped tables list a wavelength twice. -/
def Ascending (rows : List (ℝ × ℝ × ℝ)) : Prop := rows.Pairwise fun a b => a.1 ≤ b.1

/-- `a` and `b` are consecutive rows. -/
def Neighbours (rows : List (ℝ × ℝ × ℝ)) (a b : ℝ × ℝ × ℝ) : Prop :=
  ∃ before after, rows = before ++ a :: b :: after

/-- The value at `x` of the straight line through `(x₀, y₀)` and `(x₁, y₁)`. -/
noncomputable def onLine (x₀ y₀ x₁ y₁ x : ℝ) : ℝ := y₀ + (y₁ - y₀) * ((x - x₀) / (x₁ - x₀))

/-- `n` and `k` are the optical constants the table gives at the wavelength `w`: a tabulated row (the
last one, if the wavelength is listed twice), a point on the lines between two consecutive rows, or the
values at the nearer end. -/
inductive Interpolates (rows : List (ℝ × ℝ × ℝ)) (w : ℝ) : ℝ → ℝ → Prop
  | exact (n k : ℝ) (before after : List (ℝ × ℝ × ℝ)) (h : rows = before ++ (w, n, k) :: after)
      (hl : ∀ r ∈ after, r.1 ≠ w) : Interpolates rows w n k
  | between (a b : ℝ × ℝ × ℝ) (h : Neighbours rows a b) (h₀ : a.1 < w) (h₁ : w < b.1) :
      Interpolates rows w (onLine a.1 a.2.1 b.1 b.2.1 w) (onLine a.1 a.2.2 b.1 b.2.2 w)
  | below (a : ℝ × ℝ × ℝ) (rest : List (ℝ × ℝ × ℝ)) (h : rows = a :: rest) (h₀ : w < a.1) :
      Interpolates rows w a.2.1 a.2.2
  | above (a : ℝ × ℝ × ℝ) (before : List (ℝ × ℝ × ℝ)) (h : rows = before ++ [a]) (h₀ : a.1 < w) :
      Interpolates rows w a.2.1 a.2.2

/-- The wavelength `w` lies outside the range of the material. -/
def OutOfRange (w : ℝ) : MatData → Prop
  | .table rows => (∀ r ∈ rows, w < r.1) ∨ ∀ r ∈ rows, r.1 < w
  | .spec s => ∃ lo hi, s.range = some (lo, hi) ∧ ((w : EReal) < lo ∨ hi < (w : EReal))
  | .flat => False

/-- The material has a range: a table with at least one row, or a closed form with its range. -/
def HasRange : MatData → Prop
  | .table rows => rows ≠ []
  | .spec s => s.range ≠ none
  | .flat => False

/-! ### Names -/

/-- The name ends in `__real`. -/
def EndsWithReal (s : Str) : Prop := ∃ base, s = base ++ "__real".toList

/-- Which entry of the table a material argument denotes, and whether only the real part of the
index is wanted. -/
inductive Denotes (t : Table) : MatArg → MatData → Bool → Prop
  | spec (s : FSpec) : Denotes t (.spec s) (.spec s) false
  | plain (s : Str) (d : MatData) (hs : ¬ EndsWithReal s) (hd : t.lookup (upper s) = some d) :
      Denotes t (.name s) d false
  | real (s : Str) (d : MatData) (hd : t.lookup (upper s) = some d) :
      Denotes t (.name (s ++ "__real".toList)) d true

/-- `f` is a material file for the table entry `key`: its name is the entry's name in some
spelling, one further character (the dot), and `txt` or `mat`.  A file called just `txt` or `mat`
counts for the empty name. -/
def FileFor (key : Str) (f : MatFile) : Prop :=
  ∃ stem sep ext, f.name = stem ++ sep ++ ext ∧
    (ext = "txt".toList ∨ ext = "mat".toList) ∧
    (sep.length = 1 ∨ (sep = [] ∧ stem = [])) ∧ upper stem = key

/-- `d` is what the file holds: the closed form of its header, or its data rows. -/
def Holds (pn : PyNum) (f : MatFile) (d : MatData) : Prop :=
  ((∃ stem, f.name = stem ++ "txt".toList) ∧
    ((∃ s, parse_header pn f.lines = .ok (some s) ∧ d = .spec s) ∨
      (parse_header pn f.lines = .ok none ∧ f.data = .ok d))) ∨
  ((∃ stem, f.name = stem ++ "mat".toList) ∧ f.data = .ok d)

/-! ### Closed forms -/

/-- The Sellmeier value of `n²`: `1 + C₀ + Σ Bᵢ λ² / (λ² - pᵢ)`. -/
noncomputable def sellmeierSquare (c0 : ℝ) (terms : List (ℝ × ℝ)) (wl : ℝ) : ℝ :=
  1 + c0 + (terms.map fun t => t.1 * wl ^ 2 / (wl ^ 2 - t.2)).sum

/-- The coefficient list `C₀, B₁, C₁, B₂, C₂, …`. -/
def sellmeierCoefficients (c0 : ℝ) (terms : List (ℝ × ℝ)) : List ℝ :=
  c0 :: terms.flatMap fun t => [t.1, t.2]

open Classical in
/-- The index at one wavelength: the square root of `sellmeierSquare`, and no number at a pole or
where the sum is negative. -/
noncomputable def sellmeierIndex (c0 : ℝ) (terms : List (ℝ × ℝ)) (wl : ℝ) : Option ℂ :=
  if (∃ t ∈ terms, wl ^ 2 = t.2) ∨ sellmeierSquare c0 terms wl < 0 then none
  else some (Real.sqrt (sellmeierSquare c0 terms wl) : ℝ)

/-- Every entry of the array is a number without gain (meent solves with `n - ik`). -/
def NoGain (r : List (Option ℂ)) : Prop := ∀ z, some z ∈ r → z.im ≤ 0

/-- The Faddeeva function in the upper half plane:
`w(z) = (i/π) ∫ exp(-t²) / (z - t) dt`. -/
def IsFaddeeva (w : ℂ → ℂ) : Prop :=
  ∀ z : ℂ, 0 < z.im →
    w z = Complex.I / Real.pi * ∫ t : ℝ, ((Real.exp (-t ^ 2) : ℝ) : ℂ) / (z - (t : ℂ))

/-- An oscillator absorbs: its strength is not negative, its damping and its width are
positive. -/
def Absorbing (strength gamma sigma : ℝ) : Prop := 0 ≤ strength ∧ 0 < gamma ∧ 0 < sigma

/-- A closed-form material that absorbs or is transparent: a Sellmeier fit, a Brendel-Bormann model
whose Drude term and oscillators absorb (the layouts of the two coefficient lists differ), or the
graphene model at a positive temperature and thickness. -/
inductive PassiveSpec : FSpec → Prop
  | sellmeier (n : ℤ) (cs : Option (List ℝ)) (range : Option (EReal × EReal))
      (hn : n = 1 ∨ n = 2) : PassiveSpec ⟨some (.num n), cs, range⟩
  | brendelBormannEv (plasma strength damping : ℝ) (osc : List (ℝ × ℝ × ℝ × ℝ))
      (range : Option (EReal × EReal)) (hs : 0 ≤ strength) (hd : 0 ≤ damping)
      (ho : ∀ f gamma centre sigma, (f, gamma, centre, sigma) ∈ osc → Absorbing f gamma sigma) :
      PassiveSpec ⟨some (.name "brendel-bormann-ev".toList),
        some (plasma :: strength :: damping ::
          osc.flatMap fun o => [o.1, o.2.1, o.2.2.1, o.2.2.2]), range⟩
  | brendelBormannCm (eps_inf : ℝ) (osc : List (ℝ × ℝ × ℝ × ℝ))
      (range : Option (EReal × EReal))
      (ho : ∀ f gamma sigma centre, (f, gamma, sigma, centre) ∈ osc → Absorbing f gamma sigma) :
      PassiveSpec ⟨some (.name "brendel-bormann-cm".toList),
        some (eps_inf :: osc.flatMap fun o => [o.1, o.2.1, o.2.2.1, o.2.2.2]), range⟩
  | graphene (fermi_level mobility temperature thickness : ℝ) (range : Option (EReal × EReal))
      (ht : 0 < temperature) (hd : 0 < thickness) :
      PassiveSpec ⟨some (.name "graphene-falkovsky".toList),
        some [fermi_level, mobility, temperature, thickness], range⟩

/-! ### Graphene -/

/-- The number `float` makes of the argument, if it is finite. -/
def FiniteValue : ScalarArg → ℝ → Prop
  | .int z, x => x = z
  | .finite y, x => x = y
  | _, _ => False

/-- The int is too large for a float. -/
def TooLarge : ScalarArg → Prop
  | .int z => floatLimit ≤ |z|
  | _ => False

/-! ### Substitution -/

/-- The table a substitution looks names up in: the cached one unless it is empty. -/
def InUse (disk : Res Table) (cache t : Table) : Prop :=
  (cache ≠ [] ∧ t = cache) ∨ (cache = [] ∧ disk = .ok t)

/-- `v` is the index of the material at the wavelength `wl`. -/
def IndexOf (sp : SciPy) (disk : Res Table) (cache : Table) (wl : ℝ) :
    Material → Option ℂ → Prop
  | .value z, v => v = some z
  | .lookup (.spec s), v => (find_nk_index sp (.spec s) [] [wl]).value = .ok [v]
  | .lookup (.name s), v =>
      ∃ t, InUse disk cache t ∧ (find_nk_index sp (.name s) t [wl]).value = .ok [v]

/-! ### Headers -/

/-- The comment lines of a material file: those after the first line and before the first line
that does not start with `#`. -/
def commentLines (lines : List Str) : List Str :=
  (lines.drop 1).takeWhile fun l => l.head? = some '#'

/-- The comment line reads `# key: value`, with blanks around both removed; without a colon the
value is empty. -/
def ReadsAs (line key value : Str) : Prop :=
  ∃ k v, ((line = '#' :: (k ++ ':' :: v) ∧ ':' ∉ k) ∨ (line = '#' :: k ∧ ':' ∉ k ∧ v = [])) ∧
    key = strip k ∧ value = strip v

/-- The header gives `key` the value `value`; if a key occurs twice, the last line counts. -/
def HeaderValue (lines : List Str) (key value : Str) : Prop :=
  ∃ before line after, commentLines lines = before ++ line :: after ∧ ReadsAs line key value ∧
    ∀ l ∈ after, ∀ v, ¬ ReadsAs l key v

/-- The header describes a closed-form material. -/
def ClosedForm (lines : List Str) : Prop :=
  (∃ c, HeaderValue lines "coefficients".toList c) ∧
    ∃ kind, HeaderValue lines "type".toList kind ∧
      ((∃ r, kind = "formula".toList ++ r) ∨ ∃ r, kind = "model".toList ++ r)

/-- A word: not empty and without white space. -/
def IsWord (s : Str) : Prop := s ≠ [] ∧ ∀ c ∈ s, isSpace c = false

end Meent.Spec
