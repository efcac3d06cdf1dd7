import Verif.Model.Basic
import Mathlib.Analysis.SpecialFunctions.Trigonometric.DerivHyp
import Mathlib.Analysis.SpecialFunctions.Log.Basic
import Mathlib.Analysis.SpecialFunctions.Pow.Real
import Mathlib.Data.EReal.Basic

/-!
# Model of `meent/dispersion.py`

Python strings are lists of characters, floats are real numbers.  An array entry that numpy
leaves non-finite (`inf` or `nan`) is `none`.
-/

namespace Meent

/-- A Python string.
dispersion.py:246-269 -/
abbrev Str := List Char

/-- The characters Python's `str.isspace`, `str.strip` and `str.split` treat as white space.
dispersion.py:252, 258-269 -/
def isSpace (c : Char) : Bool :=
  (9 ≤ c.toNat && c.toNat ≤ 13) || (28 ≤ c.toNat && c.toNat ≤ 32) || c.toNat == 0x85 ||
  c.toNat == 0xa0 || c.toNat == 0x1680 || (0x2000 ≤ c.toNat && c.toNat ≤ 0x200a) ||
  c.toNat == 0x2028 || c.toNat == 0x2029 || c.toNat == 0x202f || c.toNat == 0x205f ||
  c.toNat == 0x3000

/-- `s.strip()`
dispersion.py:252, 260 -/
def strip (s : Str) : Str :=
  (((s.dropWhile isSpace).reverse).dropWhile isSpace).reverse

/-- `s.split()`
dispersion.py:258, 268-269 -/
def splitWs (s : Str) : List Str :=
  (s.splitOnP isSpace).filter (· ≠ [])

/-- `s.split(' - ')`: the pieces between the non-overlapping occurrences, read from the left.
`acc` holds the characters of the current piece in reverse.
dispersion.py:265 -/
def splitDash : Str → Str → List Str
  | ' ' :: '-' :: ' ' :: rest, acc => acc.reverse :: splitDash rest []
  | c :: rest, acc => splitDash rest (c :: acc)
  | [], acc => [acc.reverse]

/-- What `dispersion.py` takes from scipy: the Faddeeva function `scipy.special.wofz`
(/repo/meent/dispersion.py:110-118) and the quadrature
`scipy.integrate.quad(f, 0, 1000, points=[p], limit=400)[0]` (line 197), as a function of the
integrand and the break point.  Nothing is assumed about either here. -/
structure SciPy where
  /-- `wofz` -/
  wofz : ℂ → ℂ
  /-- `quad` -/
  quad : (ℝ → ℝ) → ℝ → ℝ

/-- The `'formula'` entry of a spec: a number or a name.
dispersion.py:82, 214-220, 258-260 -/
inductive FormulaKey
  | num (n : ℤ)
  | name (s : Str)
  deriving DecidableEq

/-- A closed-form material: the dict with the keys `'formula'`, `'coefficients'` and
`'wavelength_range'`; `none` marks a missing key of a dict written by the user.
dispersion.py:81-88, 266-270 -/
structure FSpec where
  /-- `'formula'` -/
  formula : Option FormulaKey
  /-- `'coefficients'` -/
  coefficients : Option (List ℝ)
  /-- `'wavelength_range'` -/
  range : Option (EReal × EReal)

/-! ### Constants (/repo/meent/dispersion.py:38-48) -/

/-- `WAVENUMBER_PER_EV`
dispersion.py:38 -/
noncomputable def wavenumberPerEv : ℝ := 8065.54429
/-- `ELEMENTARY_CHARGE`
dispersion.py:42 -/
noncomputable def elementaryCharge : ℝ := 1.6021773349e-19
/-- `BOLTZMANN`
dispersion.py:43 -/
noncomputable def boltzmann : ℝ := 1.38064852e-23
/-- `HBAR`
dispersion.py:44 -/
noncomputable def hbar : ℝ := 1.0545718e-34
/-- `VACUUM_PERMITTIVITY`
dispersion.py:45 -/
noncomputable def vacuumPermittivity : ℝ := 8.85418781762039e-12
/-- `FERMI_VELOCITY`
dispersion.py:46 -/
noncomputable def fermiVelocity : ℝ := 1e6
/-- `LIGHT_SPEED`
dispersion.py:47 -/
noncomputable def lightSpeed : ℝ := 299792458
/-- `GRAPHENE_THICKNESS`
dispersion.py:48 -/
noncomputable def grapheneThickness : ℝ := 0.34e-9

/-- An argument of `graphene_falkovsky`: a Python int, a finite float (or something `float`
converts to one), an infinite or undefined float, or a value `float` rejects.
dispersion.py:72-79 -/
inductive ScalarArg
  | int (z : ℤ)
  | finite (x : ℝ)
  | nonFinite
  | notScalar

/-- The smallest positive int that `float` cannot convert: it rounds to `2^1024`.
dispersion.py:74 -/
def floatLimit : ℤ := 2 ^ 1024 - 2 ^ 970

/-- One turn of the validation loop, /repo/meent/dispersion.py:70-79.  `float` of an int that is
too large raises `OverflowError`, which the `except` clause does not catch.  Rounding of ints to
floats is not modelled. -/
noncomputable def normalizeArg : ScalarArg → Res ℝ
  | .int z => if floatLimit ≤ |z| then .error .overflow
      else if (z : ℝ) ≤ 0 then .error .valueError else .ok z
  | .finite x => if x ≤ 0 then .error .valueError else .ok x
  | .nonFinite => .error .valueError
  | .notScalar => .error .typeError

/-- `graphene_falkovsky`, /repo/meent/dispersion.py:51-88. -/
noncomputable def graphene_falkovsky (fermi_level : ScalarArg)
    (mobility : ScalarArg := .finite 10000) (temperature : ScalarArg := .finite 300)
    (thickness : ScalarArg := .finite grapheneThickness) : Res FSpec := do
  let f ← normalizeArg fermi_level
  let m ← normalizeArg mobility
  let t ← normalizeArg temperature
  let d ← normalizeArg thickness
  .ok { formula := some (.name "graphene-falkovsky".toList)
        coefficients := some [f, m, t, d]
        range := some (0, ⊤) }

/-- The loop over the Sellmeier terms, /repo/meent/dispersion.py:95-96 and 105-106, as a function
of the wavelength; `pole` is the square in `formula_1` and the identity in `formula_2`.  A missing
`coefficients[i + 1]` raises `IndexError`; a zero denominator gives `inf` or `nan`. -/
noncomputable def sellmeierLoop (pole : ℝ → ℝ) :
    List ℝ → (ℝ → Option ℝ) → Res (ℝ → Option ℝ)
  | [], n2 => .ok n2
  | [_], _ => .error .indexError
  | b :: c :: rest, n2 => sellmeierLoop pole rest fun wl => do
      let a ← n2 wl
      if wl ^ 2 - pole c = 0 then none else some (a + b * wl ^ 2 / (wl ^ 2 - pole c))

/-- `xp.sqrt` of a real number: `nan` for negative ones.
dispersion.py:97, 107 -/
noncomputable def realSqrt (x : ℝ) : Option ℝ := if x < 0 then none else some (Real.sqrt x)

/-- The body shared by `formula_1` and `formula_2`.
dispersion.py:91-107 -/
noncomputable def sellmeier (pole : ℝ → ℝ) (cs : List ℝ) (wl : List ℝ) :
    Res (List (Option ℂ)) :=
  match cs with
  | [] => .error .indexError
  | c0 :: terms => do
      let n2 ← sellmeierLoop pole terms (fun _ => some (1 + c0))
      .ok (wl.map fun w => ((n2 w).bind realSqrt).map fun n : ℝ => (n : ℂ))

/-- `formula_1`, /repo/meent/dispersion.py:91-97. -/
noncomputable def formula_1 (cs wl : List ℝ) : Res (List (Option ℂ)) :=
  sellmeier (fun c => c ^ 2) cs wl

/-- `formula_2`, /repo/meent/dispersion.py:100-107. -/
noncomputable def formula_2 (cs wl : List ℝ) : Res (List (Option ℂ)) :=
  sellmeier (fun c => c) cs wl

/-- `a / b` on complex arrays: non-finite when `b = 0`.
dispersion.py:129, 133-135, 150-152 -/
noncomputable def cdiv (a b : ℂ) : Option ℂ := if b = 0 then none else some (a / b)

/-- `coefficients[i:i + 4]` unpacked in a loop; a short tail raises `ValueError`.
dispersion.py:130-131, 147-148 -/
def chunks4 : List ℝ → Res (List (ℝ × ℝ × ℝ × ℝ))
  | [] => .ok []
  | a :: b :: c :: d :: rest => do
      let r ← chunks4 rest
      .ok ((a, b, c, d) :: r)
  | _ => .error .valueError

/-- The two Faddeeva terms of one oscillator,
`_faddeeva((a - centre) / (sqrt(2) sigma)) + _faddeeva((a + centre) / (sqrt(2) sigma))`.
dispersion.py:134-135, 151-152 -/
noncomputable def faddeevaPair (sp : SciPy) (a : ℂ) (centre sigma : ℝ) : Option ℂ := do
  let u ← cdiv (a - centre) (Real.sqrt 2 * sigma : ℝ)
  let v ← cdiv (a + centre) (Real.sqrt 2 * sigma : ℝ)
  some (sp.wofz u + sp.wofz v)

/-- `model_brendel_bormann_ev`, /repo/meent/dispersion.py:121-136, at one wavelength; the
coefficients are already unpacked. -/
noncomputable def bbEvAt (sp : SciPy) (plasma strength damping : ℝ)
    (osc : List (ℝ × ℝ × ℝ × ℝ)) (wl : ℝ) : Option ℂ :=
  if wl = 0 then none else
    let omega : ℝ := 1e-2 / wl / wavenumberPerEv
    do
      let drude ← cdiv (strength * plasma ^ 2 : ℝ)
        ((omega : ℂ) * (omega + Complex.I * damping))
      let eps ← osc.foldlM (fun eps (o : ℝ × ℝ × ℝ × ℝ) => do
        let (f, gamma, centre, sigma) := o
        let a := csqrt ((omega : ℂ) ^ 2 + Complex.I * omega * gamma)
        let pre ← cdiv (Complex.I * Real.sqrt Real.pi * f * plasma ^ 2)
          (((2 : ℝ) ^ (1.5 : ℝ) : ℝ) * a * sigma)
        let w ← faddeevaPair sp a centre sigma
        some (eps + pre * w)) (1 - drude)
      some (csqrt eps)

/-- `model_brendel_bormann_ev`, /repo/meent/dispersion.py:121-136. -/
noncomputable def model_brendel_bormann_ev (sp : SciPy) (cs wl : List ℝ) :
    Res (List (Option ℂ)) :=
  match cs with
  | plasma :: strength :: damping :: rest => do
      let osc ← chunks4 rest
      .ok (wl.map (bbEvAt sp plasma strength damping osc))
  | _ => .error .valueError

/-- `model_brendel_bormann_cm`, /repo/meent/dispersion.py:139-153, at one wavelength.  Without
oscillators `permittivity` is a real number and `xp.sqrt` the real square root. -/
noncomputable def bbCmAt (sp : SciPy) (eps_inf : ℝ) (osc : List (ℝ × ℝ × ℝ × ℝ)) (wl : ℝ) :
    Option ℂ :=
  if osc = [] then (realSqrt eps_inf).map fun n : ℝ => (n : ℂ) else
  if wl = 0 then none else
    let omega : ℝ := 1e-2 / wl
    do
      let eps ← osc.foldlM (fun eps (o : ℝ × ℝ × ℝ × ℝ) => do
        let (strength, gamma, sigma, centre) := o
        let a := csqrt ((omega : ℂ) ^ 2 + Complex.I * gamma * omega)
        let pre ← cdiv (Complex.I * Real.sqrt Real.pi * strength)
          (((2 * Real.sqrt 2 : ℝ) : ℂ) * sigma * a)
        let w ← faddeevaPair sp a centre sigma
        some (eps + pre * w)) (eps_inf : ℂ)
      some (csqrt eps)

/-- `model_brendel_bormann_cm`, /repo/meent/dispersion.py:139-153.  Without oscillators the code
returns one number instead of an array; the model repeats it for every wavelength. -/
noncomputable def model_brendel_bormann_cm (sp : SciPy) (cs wl : List ℝ) :
    Res (List (Option ℂ)) :=
  match cs with
  | [] => .error .indexError
  | eps_inf :: rest => do
      let osc ← chunks4 rest
      .ok (wl.map (bbCmAt sp eps_inf osc))

/-- `np.logaddexp(a, b)`
dispersion.py:158-159, 200 -/
noncomputable def logaddexp (a b : ℝ) : ℝ := Real.log (Real.exp a + Real.exp b)

/-- `_cosh_ratio`, /repo/meent/dispersion.py:156-162. -/
noncomputable def coshRatio (a b : ℝ) : ℝ :=
  let la := logaddexp a (-a) - Real.log 2
  let lb := logaddexp b (-b) - Real.log 2
  Real.exp (max (-745) (min (la - lb) 709))

/-- `occupation`, /repo/meent/dispersion.py:186-189. -/
noncomputable def occupation (fermi_level temperature_ev energy : ℝ) : ℝ :=
  Real.tanh (energy / temperature_ev) /
    (coshRatio (fermi_level / temperature_ev) (energy / temperature_ev) + 1)

/-- `conductivity[index]` at photon energy `energy`, /repo/meent/dispersion.py:193-203. -/
noncomputable def conductivity (sp : SciPy) (fermi_level temperature_ev scattering energy : ℝ) :
    ℂ :=
  let half := occupation fermi_level temperature_ev (energy / 2)
  let interband := sp.quad
    (fun z => (occupation fermi_level temperature_ev z - half) / (energy ^ 2 - 4 * z * z))
    (energy / 2)
  let intraband : ℂ :=
    (2 * Complex.I * elementaryCharge ^ 2 * temperature_ev)
      / (Real.pi * hbar * (energy + Complex.I * scattering))
      * logaddexp (fermi_level / (2 * temperature_ev)) (-fermi_level / (2 * temperature_ev))
  intraband + (elementaryCharge ^ 2 / (4 * hbar)) *
    (half + (4 * Complex.I * energy / Real.pi) * interband)

/-- `model_graphene_falkovsky` at one wavelength, /repo/meent/dispersion.py:181-211. -/
noncomputable def grapheneAt (sp : SciPy)
    (fermi_level mobility temperature thickness wavelength : ℝ) : Option ℂ :=
  let temperature_ev := temperature * boltzmann / elementaryCharge
  let mobility_si := mobility * 1e-4
  let photon_ev := hbar * (2 * Real.pi * lightSpeed / wavelength) / elementaryCharge
  let scattering := |hbar * fermiVelocity ^ 2 / (mobility_si * elementaryCharge * fermi_level)|
  let sigma := conductivity sp fermi_level temperature_ev scattering photon_ev
  let angular_frequency := elementaryCharge * photon_ev / hbar
  do
    let t ← cdiv (Complex.I * sigma)
      ((angular_frequency : ℂ) * thickness * vacuumPermittivity)
    some (csqrt (1 + t))

open Classical in
/-- `model_graphene_falkovsky`, /repo/meent/dispersion.py:165-211.  The divisions of Python floats
by zero mobility, Fermi level or temperature raise `ZeroDivisionError`. -/
noncomputable def model_graphene_falkovsky (sp : SciPy) (cs wl : List ℝ) :
    Res (List (Option ℂ)) :=
  match cs with
  | [fermi_level, mobility, temperature, thickness] =>
      if ∃ w ∈ wl, w ≤ 0 then .error .valueError
      else if mobility * fermi_level = 0 then .error .zeroDivision
      else if temperature = 0 ∧ wl ≠ [] then .error .zeroDivision
      else .ok (wl.map (grapheneAt sp fermi_level mobility temperature thickness))
  | _ => .error .valueError

/-- `FORMULAS.get(key)`, /repo/meent/dispersion.py:214-220. -/
noncomputable def FORMULAS (sp : SciPy) :
    FormulaKey → Option (List ℝ → List ℝ → Res (List (Option ℂ)))
  | .num n => if n = 1 then some formula_1 else if n = 2 then some formula_2 else none
  | .name s =>
      if s = "brendel-bormann-ev".toList then some (model_brendel_bormann_ev sp)
      else if s = "brendel-bormann-cm".toList then some (model_brendel_bormann_cm sp)
      else if s = "graphene-falkovsky".toList then some (model_graphene_falkovsky sp)
      else none

/-- `evaluate`, /repo/meent/dispersion.py:223-232.  A missing key raises `KeyError`. -/
noncomputable def evaluate (sp : SciPy) (spec : FSpec) (wl : List ℝ) : Res (List (Option ℂ)) :=
  match spec.formula with
  | none => .error .keyError
  | some key =>
    match FORMULAS sp key with
    | none => .error .notImplemented
    | some formula =>
      match spec.coefficients with
      | none => .error .keyError
      | some cs => formula cs wl

/-! ### Header parsing -/

/-- Python's `int(s)` and `float(s)` on strings; `none` means `ValueError`.  The strings for
infinite and undefined floats are not modelled.
dispersion.py:258, 268-269 -/
structure PyNum where
  /-- `int` -/
  toInt : Str → Option ℤ
  /-- `float` -/
  toFloat : Str → Option ℝ

/-- `.error .valueError` for a string that is not a number.
dispersion.py:258, 268-269 -/
def orValueError {α : Type} : Option α → Res α
  | some a => .ok a
  | none => .error .valueError

/-- The loop over the lines after the first, /repo/meent/dispersion.py:248-252 (and
/repo/meent/on_numpy/modeler/modeling.py:798-802).  Later entries come first in the list, so
`List.lookup` finds the value the Python dict holds in the end. -/
def readComments : List Str → List (Str × Str) → List (Str × Str)
  | [], d => d
  | line :: rest, d =>
    match line with
    | '#' :: body =>
        readComments rest ((strip (body.takeWhile (· ≠ ':')),
          strip ((body.dropWhile (· ≠ ':')).drop 1)) :: d)
    | _ => d

/-- `kind.split(None, 1)[1].strip()`: what follows the first word.
dispersion.py:260 -/
def afterFirstWord (kind : Str) : Res Str :=
  let rest := ((kind.dropWhile isSpace).dropWhile (fun c => !isSpace c)).dropWhile isSpace
  if rest = [] then .error .indexError else .ok (strip rest)

/-- The end of `parse_header`, /repo/meent/dispersion.py:264-270. -/
noncomputable def headerSpec (pn : PyNum) (entry : List (Str × Str)) (coefs : Str)
    (name : FormulaKey) : Res FSpec :=
  match entry.lookup "range".toList with
  | none => .error .keyError
  | some range =>
    match splitDash range [] with
    | [low, high] => do
        let cs ← (splitWs coefs).mapM fun v => orValueError (pn.toFloat v)
        let lo ← orValueError (pn.toFloat low)
        let hiWord ← getIdx (splitWs high) 0
        let hi ← orValueError (pn.toFloat hiWord)
        .ok { formula := some name, coefficients := some cs, range := some ((lo : EReal), (hi : EReal)) }
    | _ => .error .valueError

/-- `parse_header`, /repo/meent/dispersion.py:235-270, as a function of the lines of the file. -/
noncomputable def parse_header (pn : PyNum) (lines : List Str) : Res (Option FSpec) :=
  let entry := readComments (lines.drop 1) []
  let kind := (entry.lookup "type".toList).getD []
  match entry.lookup "coefficients".toList with
  | none => .ok none
  | some coefs =>
    if "formula".toList.isPrefixOf kind then do
      let word ← getIdx (splitWs kind) 1
      let n ← orValueError (pn.toInt word)
      let s ← headerSpec pn entry coefs (.num n)
      .ok (some s)
    else if "model".toList.isPrefixOf kind then do
      let name ← afterFirstWord kind
      let s ← headerSpec pn entry coefs (.name name)
      .ok (some s)
    else .ok none

end Meent
