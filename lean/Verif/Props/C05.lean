import Verif.Props.C06

/-!
# C05: a zero-thickness layer is invisible
-/

open Matrix

namespace Meent

/-- **C05.** Take any stack and insert, at any position `k`, a layer with any pattern and thickness 0. Whenever the solver
returns for the longer stack, it also returns for the original one, with the same result object: all amplitudes and
efficiencies of `res`, `res_te_inc` and `res_tm_inc` agree. -/
theorem C05_zero_thickness (la : LinAlg) (s : Settings) (hp : s.p.use_pinv = false) (k : ℕ) (u u' : Structure)
    (hu : Spec.Inserted k u u') (t1 t2 : List ℝ) (hk : t1.length = k) (sol' : Solved s.p.fto.1 s.p.fto.2)
    (h : conv_solve la (Spec.withStack s u' (t1 ++ 0 :: t2)) = .ok sol') :
    ∃ sol : Solved s.p.fto.1 s.p.fto.2,
      conv_solve la (Spec.withStack s u (t1 ++ t2)) = .ok sol ∧ sol.result = sol'.result := by
  refine conv_solve_sim hp (gratingType_inserted hu) (fun cs' hc => ?_) h
  obtain ⟨pre, c, post, rfl, hlen, hc'⟩ := convMats_inserted (th := t1 ++ t2) hu hc
  refine ⟨_, hc', fun hl => ⟨by simp at hl ⊢; omega, ?_⟩⟩
  rw [List.zip_append (by omega), List.zip_append (by omega), List.zip_cons_cons]
  exact (RunSim.zero c _).append _

/-- A two-layer stack whose upper layer has thickness 0 is solved. -/
example : ∃ sol, conv_solve exLA (Spec.withStack (exSettings 0 none) exDouble ([] ++ 0 :: [1 / 3])) = .ok sol := by
  obtain ⟨sol, h, -⟩ := C06_split_ok exLA (exSettings 0 none) rfl 0 _ exDouble exDoubled [] [] rfl 0 (1 / 3) _
    (by rw [show (0 : ℝ) + 1 / 3 = 1 / 3 by norm_num]; exact exTE_split)
  exact ⟨sol, h⟩

/-- … and it is an insertion. -/
example : Spec.Inserted 0 (exSettings 0 none).ucell exDouble := .raster [] _ _

#print axioms C05_zero_thickness

end Meent
