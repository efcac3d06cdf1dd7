import Verif.Lemmas.JaxKwargs
import Verif.Lemmas.ObjectExample

/-!
# C59: parameters passed to `conv_solve`

`conv_solve(**kwargs)` solves the problem in which the named parameters are replaced.

* `C59_jax`: in JAX this is so: the outcome is that of a solver constructed with the replaced parameters.
* `C59_jax_persists`: the replacement is permanent.
* `C59_numpy_negation`: NumPy accepts the arguments and ignores them.
-/

namespace Meent

/-- **C59, JAX.**  A solver constructed from `k` is asked to solve with the arguments `kws`; `k'` is `k` with these parameters
replaced.  If all the values are accepted, constructing from `k'` succeeds, and `conv_solve(**kws)` on the old solver and
`conv_solve()` on the new one return the same or raise the same. -/
theorem C59_jax (env : Jax.Env) (k k' : Kwargs) (kws : List Op) (o : Obj) (h : Jax.init k = .ok o)
    (hk : Spec.overrides kws k = some k') (hok : (Jax.setAttrs env o kws).2 = .ok ()) :
    ∃ o', Jax.init k' = .ok o' ∧ (Jax.convSolveKw env o kws).2 = (Jax.convSolve env o').2 := by
  refine ⟨(Jax.setAttrs env o kws).1, Jax.init_overrides h hk (Prod.ext rfl hok), ?_⟩
  unfold Jax.convSolveKw
  rcases hs : Jax.setAttrs env o kws with ⟨o', r⟩
  rw [hs] at hok
  cases hok
  rfl

/-- **C59, JAX.**  The replaced parameters stay: a later `conv_solve()` without arguments has the same outcome. -/
theorem C59_jax_persists (env : Jax.Env) (kws : List Op) (o : Obj) (hok : (Jax.setAttrs env o kws).2 = .ok ()) :
    (Jax.convSolve env (Jax.convSolveKw env o kws).1).2 = (Jax.convSolveKw env o kws).2 := by
  unfold Jax.convSolveKw
  rcases hs : Jax.setAttrs env o kws with ⟨o', r⟩
  rw [hs] at hok
  cases hok
  dsimp only
  obtain ⟨g, st, hf⟩ := Jax.convSolve_frame env o'
  rw [hf]
  exact Jax.convSolve_congr env o' g st o'.perturbation

/-- The example grating with the wavelength, the polarization and the number of orders replaced. -/
example (env : Jax.Env) (o : Obj) (h : Jax.init (exKwargs 0 none) = .ok o) : ∃ o',
    Jax.init { exKwargs 0 none with wavelength := 2, pol := 1, fto := .seq [.int 3, .int 0] } = .ok o' ∧
    (Jax.convSolveKw env o [.setWavelength 2, .setPol 1, .setFto (.seq [.int 3, .int 0])]).2 = (Jax.convSolve env o').2 := by
  refine C59_jax env _ _ _ o h rfl ?_
  simp only [Jax.setAttrs, Jax.step, Meent.step, Jax.setPol_in (v := 1) ⟨zero_le_one, le_rfl⟩, setFto, Out.ofSetter]

/-- **C59, NumPy.**  `conv_solve(fto=(1, 0))` returns the result of the solver's own `fto = (0, 0)`.  It is not the one that a
solver constructed with `fto=(1, 0)` returns. -/
theorem C59_numpy_negation : ∃ la o o' r, init (exKwargs 0 none) = .ok o ∧
    init { exKwargs 0 none with fto := .seq [.int 1, .int 0] } = .ok o' ∧
    (convSolveKw la o [.setFto (.seq [.int 1, .int 0])]).2 = .ok r ∧ (r.fx, r.fy) = (0, 0) ∧ (convSolve la o').2 ≠ .ok r := by
  obtain ⟨out, h⟩ := exObj_te
  have hi : init { exKwargs 0 none with fto := .seq [.int 1, .int 0] } = .ok { exObj 0 none with fto := .pair 1 0 } := by
    unfold init initFrom andThen
    simp only [exKwargs, setTheta, setPhi, setPol_ok (v := 0) ⟨le_rfl, zero_le_one⟩, setPsi, setFto, setPeriod, setThickness,
      setUcell, if_neg exTheta_ne, Num.toInt]
    rfl
  refine ⟨exLA, _, _, _, exObj_init ⟨le_rfl, zero_le_one⟩ none, hi, congrArg Prod.snd h, rfl, fun hne => ?_⟩
  obtain ⟨u, fx, fy, sol, -, ho, -, -, -, hr⟩ := convSolve_ok (Prod.ext rfl hne)
  have ho' : Obj.orders { exObj 0 none with fto := .pair 1 0 } = .ok (1, 0) := by simp [Obj.orders, exObj]
  rw [ho'] at ho
  cases ho
  exact absurd (congrArg AnyResult.fx hr) (by simp)

#print axioms C59_jax
#print axioms C59_jax_persists
#print axioms C59_numpy_negation

end Meent
