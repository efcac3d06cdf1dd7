import Verif.Model.Materials

/-!
# Material lookup in the JAX and PyTorch backends
-/

namespace Meent

namespace Jax

open Classical in
/-- `jnp.interp(x, xp, fp)` of JAX, for points in ascending order: `i = clip(searchsorted(xp, x, side='right'), 1, len(xp) - 1)`;
between the points `i - 1` and `i` a line, or the value of point `i - 1` if their distance is at most `eps`
(`np.spacing(np.finfo(xp.dtype).eps)`); the end values outside.  With one point `i` is `0` and `i - 1` wraps around to the same
point.  JAX is a dependency: this follows its documented source, not a file in /repo.
on_jax/modeler/modeling.py:723, 728 -/
noncomputable def interp (eps : ℝ) (pts : List (ℝ × ℝ)) (x : ℝ) : Res ℝ :=
  match pts with
  | [] => .error .indexError
  | p :: rest =>
      let i := min (max (pts.countP fun q => decide (q.1 ≤ x)) 1) (pts.length - 1)
      let a := pts.getD (i - 1) p
      let b := pts.getD i p
      let last := rest.getLastD p
      let f := if |b.1 - a.1| ≤ eps then a.2 else a.2 + (x - a.1) / (b.1 - a.1) * (b.2 - a.2)
      let f := if x < p.1 then p.2 else f
      .ok (if last.1 < x then last.2 else f)

/-- The second part of JAX's `find_nk_index`, /repo/meent/on_jax/modeler/modeling.py:712-734. -/
noncomputable def indexOf (eps : ℝ) (sp : SciPy) (mat_data : MatData) (n_only : Bool) (wl : List ℝ) :
    Res (List (Option ℂ)) :=
  match mat_data with
  | .spec s => do
      let n ← evaluate sp s wl
      .ok (if n_only then n.map (Option.map fun z => (z.re : ℂ))
        else n.map (Option.map fun z => star z))
  | .flat => .error .indexError
  | .table rows => do
      let n ← wl.mapM (interp eps (rows.map fun r => (r.1, r.2.1)))
      if n_only then .ok (n.map fun a : ℝ => some (a : ℂ))
      else do
        let k ← wl.mapM (interp eps (rows.map fun r => (r.1, r.2.2)))
        .ok (List.zipWith (fun (a b : ℝ) => some ((a : ℂ) - Complex.I * b)) n k)

/-- JAX's `find_nk_index`, /repo/meent/on_jax/modeler/modeling.py:696-734, for wavelengths that are numbers (not traced).  Its first
part, lines 697-709, and `warn_if_out_of_range`, lines 672-693, read as in the NumPy backend. -/
noncomputable def find_nk_index (eps : ℝ) (sp : SciPy) (material : MatArg) (mat_table : Table)
    (wl : List ℝ) : Lookup :=
  match selectMaterial material mat_table with
  | .error e => ⟨false, .error e⟩
  | .ok (d, n_only) =>
    match warn_if_out_of_range d wl with
    | .error e => ⟨false, .error e⟩
    | .ok w => ⟨w, indexOf eps sp d n_only wl⟩

/-- `mee.put_refractive_index_in_ucell` on a JAX object: `ModelingJax` has no such method, nor have the other parents of `MeeJax`.
/repo/meent/on_jax/mee.py:6-11, /repo/meent/on_jax/modeler/modeling.py:13-669 -/
def put_refractive_index_in_ucell {ι : Type} (_labels : ι → ℂ) (_mat_list : List Material) (_wl : ℝ) :
    Res (ι → Option ℂ) :=
  .error .attributeError

end Jax

/-- PyTorch's `find_nk_index`, /repo/meent/on_torch/modeler/modeling.py:636-674; it calls NumPy and reads as in the NumPy
backend. -/
noncomputable def tFind_nk_index (sp : SciPy) (material : MatArg) (mat_table : Table)
    (wl : List ℝ) : Lookup :=
  match selectMaterial material mat_table with
  | .error e => ⟨false, .error e⟩
  | .ok (d, n_only) =>
    match warn_if_out_of_range d wl with
    | .error e => ⟨false, .error e⟩
    | .ok w => ⟨w, Meent.indexOf sp d n_only wl⟩

/-- The value PyTorch assigns for one material and the material table afterwards,
/repo/meent/on_torch/modeler/modeling.py:571-578, for a wavelength that is one number. -/
noncomputable def tAssignValue (sp : SciPy) (disk : Res Table) (cache : Table) (wl : ℝ) :
    Material → Table × Res (Option ℂ)
  | .value z => (cache, .ok (some z))
  | .lookup (.spec s) => (cache, do
      let v ← (tFind_nk_index sp (.spec s) cache [wl]).value
      getIdx v 0)
  | .lookup (.name s) =>
    if cache = [] then
      match disk with
      | .error e => (cache, .error e)
      | .ok t => (t, do
          let v ← (tFind_nk_index sp (.name s) t [wl]).value
          getIdx v 0)
    else (cache, do
      let v ← (tFind_nk_index sp (.name s) cache [wl]).value
      getIdx v 0)

open Classical in
/-- The loop of PyTorch's `put_refractive_index_in_ucell` from material number `i` on.
on_torch/modeler/modeling.py:568-579 -/
noncomputable def tPutLoop {ι : Type} (sp : SciPy) (disk : Res Table) (ucell : ι → ℂ) (wl : ℝ) :
    ℕ → List Material → Table → (ι → Option ℂ) → Table × Res (ι → Option ℂ)
  | _, [], cache, res => (cache, .ok res)
  | i, m :: rest, cache, res =>
    match tAssignValue sp disk cache wl m with
    | (cache', .error e) => (cache', .error e)
    | (cache', .ok v) =>
        tPutLoop sp disk ucell wl (i + 1) rest cache'
          fun p => if ucell p = (i : ℂ) then v else res p

/-- PyTorch's `put_refractive_index_in_ucell`, /repo/meent/on_torch/modeler/modeling.py:565-581. -/
noncomputable def tPut_refractive_index_in_ucell {ι : Type} (sp : SciPy) (disk : Res Table)
    (cache : Table) (ucell : ι → ℂ) (mat_list : List Material) (wl : ℝ) :
    Table × Res (ι → Option ℂ) :=
  tPutLoop sp disk ucell wl 0 mat_list cache fun _ => some 0

end Meent
