import Verif.Model.Dispersion

/-!
# Model of the material tables in `on_numpy/modeler/modeling.py`

The PyTorch and JAX files carry the same functions (`on_torch/modeler/modeling.py:565-708`,
`on_jax/modeler/modeling.py:672-768`; JAX has no `put_refractive_index_in_ucell`).
-/

namespace Meent

/-- An entry of the material table: a two-dimensional array with the columns wavelength, `n`, `k`;
a one-dimensional array, which is what `np.loadtxt` makes of a file with a single data row or
none; or a closed-form material.
on_numpy/modeler/modeling.py:751-782 -/
inductive MatData
  | table (rows : List (ℝ × ℝ × ℝ))
  | flat
  | spec (s : FSpec)

/-- `mat_table`: a dict from names to data.  Names are unique, see `Table.set`.
on_numpy/modeler/modeling.py:759 -/
abbrev Table := List (Str × MatData)

/-- `mat_table[key] = data`
on_numpy/modeler/modeling.py:760-782 -/
def Table.set (t : Table) (key : Str) (data : MatData) : Table :=
  (key, data) :: t.filter (fun e => e.1 ≠ key)

/-- `s.upper()`; only the letters `a`–`z` change.  Names with other letters are not modelled.
on_numpy/modeler/modeling.py:718, 722 -/
def upper (s : Str) : Str := s.map Char.toUpper

/-- The interval `low, high` of `warn_if_out_of_range` and `list_materials`:
/repo/meent/on_numpy/modeler/modeling.py:698-701 and 823-827. -/
noncomputable def MatData.range : MatData → Res (EReal × EReal)
  | .spec s => match s.range with
    | some r => .ok r
    | none => .error .keyError
  | .flat => .error .indexError
  | .table rows => match ((rows.map (·.1)).min? : Option ℝ), ((rows.map (·.1)).max? : Option ℝ) with
    | some lo, some hi => .ok ((lo : EReal), (hi : EReal))
    | _, _ => .error .valueError

open Classical in
/-- `warn_if_out_of_range`, /repo/meent/on_numpy/modeler/modeling.py:686-707: whether it warns.
Wavelengths are a list of real numbers; with none of them `np.min` raises and the function returns
without looking at the table. -/
noncomputable def warn_if_out_of_range (mat_data : MatData) (wl : List ℝ) : Res Bool :=
  match (wl.min? : Option ℝ), (wl.max? : Option ℝ) with
  | some wl_min, some wl_max => do
      let r ← mat_data.range
      .ok (decide ((wl_min : EReal) < r.1 ∨ r.2 < (wl_max : EReal)))
  | _, _ => .ok false

/-- The part of `np.interp` at and after the point `p`, for `x ≥ p.1`.
on_numpy/modeler/modeling.py:737, 742 -/
noncomputable def interpFrom (p : ℝ × ℝ) : List (ℝ × ℝ) → ℝ → ℝ
  | [], _ => p.2
  | q :: rest, x =>
      if q.1 ≤ x then interpFrom q rest x
      else (q.2 - p.2) / (q.1 - p.1) * (x - p.1) + p.2

/-- `np.interp(x, xp, fp)` for points in ascending order: the last point at or before `x` and the
next one are joined by a line; outside the end values are used.  (numpy finds the point by
bisection, which gives the same one on ascending data.)
on_numpy/modeler/modeling.py:737, 742 -/
noncomputable def npInterp (pts : List (ℝ × ℝ)) (x : ℝ) : Res ℝ :=
  match pts with
  | [] => .error .valueError
  | p :: rest => .ok (if x < p.1 then p.2 else interpFrom p rest x)

/-- A material given to the lookup: a name or a closed-form dict.
on_numpy/modeler/modeling.py:710-723 -/
inductive MatArg
  | name (s : Str)
  | spec (s : FSpec)

/-- What a lookup shows to the caller: whether it warned, and the value or the exception.
on_numpy/modeler/modeling.py:686-748 -/
structure Lookup where
  /-- a warning was issued -/
  warned : Bool
  /-- the returned array, one entry per wavelength -/
  value : Res (List (Option ℂ))

/-- The first part of `find_nk_index`, /repo/meent/on_numpy/modeler/modeling.py:711-723: the data
and `n_only`. -/
def selectMaterial (m : MatArg) (t : Table) : Res (MatData × Bool) :=
  match m with
  | .spec s => .ok (.spec s, false)
  | .name s =>
    if s.drop (s.length - 6) = "__real".toList then
      match t.lookup (upper (s.take (s.length - 6))) with
      | some d => .ok (d, true)
      | none => .error .keyError
    else
      match t.lookup (upper s) with
      | some d => .ok (d, false)
      | none => .error .keyError

/-- The second part of `find_nk_index`, /repo/meent/on_numpy/modeler/modeling.py:726-748. -/
noncomputable def indexOf (sp : SciPy) (mat_data : MatData) (n_only : Bool) (wl : List ℝ) :
    Res (List (Option ℂ)) :=
  match mat_data with
  | .spec s => do
      let n ← evaluate sp s wl
      .ok (if n_only then n.map (Option.map fun z => (z.re : ℂ))
        else n.map (Option.map fun z => star z))
  | .flat => .error .indexError
  | .table rows => do
      let n ← wl.mapM (npInterp (rows.map fun r => (r.1, r.2.1)))
      if n_only then .ok (n.map fun a : ℝ => some (a : ℂ))
      else do
        let k ← wl.mapM (npInterp (rows.map fun r => (r.1, r.2.2)))
        .ok (List.zipWith (fun (a b : ℝ) => some ((a : ℂ) - Complex.I * b)) n k)

/-- `find_nk_index`, /repo/meent/on_numpy/modeler/modeling.py:710-748. -/
noncomputable def find_nk_index (sp : SciPy) (material : MatArg) (mat_table : Table)
    (wl : List ℝ) : Lookup :=
  match selectMaterial material mat_table with
  | .error e => ⟨false, .error e⟩
  | .ok (d, n_only) =>
    match warn_if_out_of_range d wl with
    | .error e => ⟨false, .error e⟩
    | .ok w => ⟨w, indexOf sp d n_only wl⟩

/-- A file found by `walk(nk_path)`: its name, its lines, and what `np.loadtxt` (or `loadmat`)
makes of it.
on_numpy/modeler/modeling.py:751-805 -/
structure MatFile where
  /-- file name without directory -/
  name : Str
  /-- lines of the file -/
  lines : List Str
  /-- the loaded array -/
  data : Res MatData

/-- One turn of the loop of `read_material_table`,
/repo/meent/on_numpy/modeler/modeling.py:766-781. -/
noncomputable def readFile (pn : PyNum) (t : Table) (f : MatFile) : Res Table :=
  if f.name.drop (f.name.length - 3) = "txt".toList then do
    match ← parse_header pn f.lines with
    | some s => .ok (Table.set t (upper (f.name.take (f.name.length - 4))) (.spec s))
    | none => do
        let d ← f.data
        .ok (Table.set t (upper (f.name.take (f.name.length - 4))) d)
  else if f.name.drop (f.name.length - 3) = "mat".toList then do
    let d ← f.data
    .ok (Table.set t (upper (f.name.take (f.name.length - 4))) d)
  else .ok t

/-- `read_material_table`, /repo/meent/on_numpy/modeler/modeling.py:751-782, for the files in the
order `os.walk` lists them.  `okType` tells whether `type_complex` is one of the two complex
dtypes; rounding to `float32` is not modelled. -/
noncomputable def read_material_table (pn : PyNum) (files : List MatFile)
    (okType : Bool := true) : Res Table :=
  if okType then files.foldlM (readFile pn) [] else .error .valueError

/-- `read_table_comments`, /repo/meent/on_numpy/modeler/modeling.py:785-804: the entries of each
text file; a later file of the same name comes first. -/
def read_table_comments (files : List MatFile) : List (Str × List (Str × Str)) :=
  files.foldl (fun c f =>
    if f.name.drop (f.name.length - 3) = "txt".toList then
      (upper (f.name.take (f.name.length - 4)), readComments (f.lines.drop 1) []) :: c
    else c) []

/-- A row of `list_materials`.
on_numpy/modeler/modeling.py:807-834 -/
structure Listed where
  /-- `'name'` -/
  name : Str
  /-- `'wl_min'` and `'wl_max'` -/
  range : EReal × EReal
  /-- `'source'` -/
  source : Str
  /-- `'conditions'` -/
  conditions : Str

/-- `list_materials`, /repo/meent/on_numpy/modeler/modeling.py:807-834. -/
noncomputable def list_materials (pn : PyNum) (files : List MatFile) : Res (List Listed) := do
  let t ← read_material_table pn files
  let comments := read_table_comments files
  (t.mergeSort (fun a b => decide (a.1 ≤ b.1))).mapM fun e => do
    let r ← e.2.range
    let entry := (comments.lookup e.1).getD []
    .ok { name := e.1, range := r
          source := (entry.lookup "source".toList).getD []
          conditions := (entry.lookup "conditions".toList).getD [] }

/-- A material in `mat_list`: something looked up, or a number.
on_numpy/modeler/modeling.py:654-663 -/
inductive Material
  | lookup (m : MatArg)
  | value (z : ℂ)

/-- The value assigned for one material and the material table afterwards,
/repo/meent/on_numpy/modeler/modeling.py:657-663.  `disk` is what `read_material_table()` returns;
it is read when a name is looked up and the cached table is empty.  The wavelength is one
number. -/
noncomputable def assignValue (sp : SciPy) (disk : Res Table) (cache : Table) (wl : ℝ) :
    Material → Table × Res (Option ℂ)
  | .value z => (cache, .ok (some z))
  | .lookup (.spec s) => (cache, do
      let v ← (find_nk_index sp (.spec s) cache [wl]).value
      getIdx v 0)
  | .lookup (.name s) =>
    if cache = [] then
      match disk with
      | .error e => (cache, .error e)
      | .ok t => (t, do
          let v ← (find_nk_index sp (.name s) t [wl]).value
          getIdx v 0)
    else (cache, do
      let v ← (find_nk_index sp (.name s) cache [wl]).value
      getIdx v 0)

open Classical in
/-- The loop of `put_refractive_index_in_ucell` from material number `i` on.
on_numpy/modeler/modeling.py:654-664 -/
noncomputable def putLoop {ι : Type} (sp : SciPy) (disk : Res Table) (ucell : ι → ℂ) (wl : ℝ) :
    ℕ → List Material → Table → (ι → Option ℂ) → Table × Res (ι → Option ℂ)
  | _, [], cache, res => (cache, .ok res)
  | i, m :: rest, cache, res =>
    match assignValue sp disk cache wl m with
    | (cache', .error e) => (cache', .error e)
    | (cache', .ok v) =>
        putLoop sp disk ucell wl (i + 1) rest cache'
          fun p => if ucell p = (i : ℂ) then v else res p

/-- `put_refractive_index_in_ucell`, /repo/meent/on_numpy/modeler/modeling.py:651-666: the cached
table afterwards, and the array or the exception.  `ι` is the set of pixels. -/
noncomputable def put_refractive_index_in_ucell {ι : Type} (sp : SciPy) (disk : Res Table)
    (cache : Table) (ucell : ι → ℂ) (mat_list : List Material) (wl : ℝ) :
    Table × Res (ι → Option ℂ) :=
  putLoop sp disk ucell wl 0 mat_list cache fun _ => some 0

end Meent
