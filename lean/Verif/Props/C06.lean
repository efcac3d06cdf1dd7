import Verif.Lemmas.Stacks
import Verif.Lemmas.Example1D

/-!
# C06: splitting a layer changes nothing
-/

open Matrix

namespace Meent

/-- **C06.** Replace the layer at position `k`, of thickness `d1 + d2`, by two consecutive layers of the same pattern with
thicknesses `d1` and `d2`. Whenever the solver returns for the split stack, it also returns for the original one, with the
same result object (`res`, `res_te_inc`, `res_tm_inc`). -/
theorem C06_split (la : LinAlg) (s : Settings) (hp : s.p.use_pinv = false) (k : ℕ) (u u' : Structure)
    (hu : Spec.Doubled k u u') (t1 t2 : List ℝ) (hk : t1.length = k) (d1 d2 : ℝ) (sol' : Solved s.p.fto.1 s.p.fto.2)
    (h : conv_solve la (Spec.withStack s u' (t1 ++ d1 :: d2 :: t2)) = .ok sol') :
    ∃ sol : Solved s.p.fto.1 s.p.fto.2,
      conv_solve la (Spec.withStack s u (t1 ++ (d1 + d2) :: t2)) = .ok sol ∧ sol.result = sol'.result := by
  refine conv_solve_sim hp (gratingType_doubled hu) (fun cs' hc => ?_) h
  obtain ⟨pre, c, post, rfl, hlen, hc'⟩ := convMats_doubled (th := t1 ++ (d1 + d2) :: t2) hu hc
  refine ⟨_, hc', fun hl => ⟨by simp at hl ⊢; omega, ?_⟩⟩
  rw [List.zip_append (by omega), List.zip_append (by omega)]
  simp only [List.zip_cons_cons]
  exact (RunSim.merge c d1 d2 _).append _

/-- **C06, converse.** The split stack is solved whenever the original one is. -/
theorem C06_split_ok (la : LinAlg) (s : Settings) (hp : s.p.use_pinv = false) (k : ℕ) (u u' : Structure)
    (hu : Spec.Doubled k u u') (t1 t2 : List ℝ) (hk : t1.length = k) (d1 d2 : ℝ) (sol : Solved s.p.fto.1 s.p.fto.2)
    (h : conv_solve la (Spec.withStack s u (t1 ++ (d1 + d2) :: t2)) = .ok sol) :
    ∃ sol' : Solved s.p.fto.1 s.p.fto.2,
      conv_solve la (Spec.withStack s u' (t1 ++ d1 :: d2 :: t2)) = .ok sol' ∧ sol'.result = sol.result := by
  refine conv_solve_sim hp (gratingType_doubled hu).symm (fun cs' hc => ?_) h
  obtain ⟨pre, c, post, rfl, hlen, hc'⟩ := convMats_undoubled (th' := t1 ++ d1 :: d2 :: t2) hu hc
  refine ⟨_, hc', fun hl => ⟨by simp at hl ⊢; omega, ?_⟩⟩
  rw [List.zip_append (by omega), List.zip_append (by omega)]
  simp only [List.zip_cons_cons]
  exact (RunSim.split c d1 d2 _).append _

/-- The example layer twice. -/
noncomputable def exDouble : Structure := .raster ⟨1, 2, [fun _ j => if j = 0 then 1 else 2, fun _ j => if j = 0 then 1 else 2]⟩

theorem exDoubled : Spec.Doubled 0 (exSettings 0 none).ucell exDouble := .raster [] [] _

theorem exTE_split : conv_solve exLA (Spec.withStack (exSettings 0 none) (exSettings 0 none).ucell ([] ++ 1 / 3 :: []))
    = .ok (.tetm exTE_ok.choose) := exTE_ok.choose_spec

/-- The split of the example layer into 1/12 and 1/4 is solved, so the hypotheses are met. -/
example : ∃ sol, conv_solve exLA (Spec.withStack (exSettings 0 none) exDouble ([] ++ (1 / 12) :: (1 / 4) :: [])) = .ok sol := by
  obtain ⟨sol, h, -⟩ := C06_split_ok exLA (exSettings 0 none) rfl 0 _ exDouble exDoubled [] [] rfl (1 / 12) (1 / 4) _
    (by rw [show (1 / 12 : ℝ) + 1 / 4 = 1 / 3 by norm_num]; exact exTE_split)
  exact ⟨sol, h⟩

#print axioms C06_split
#print axioms C06_split_ok

end Meent
