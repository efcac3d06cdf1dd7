import Verif.Lemmas.FieldStack
import Verif.Props.C05
import Verif.Props.C06
import Verif.Props.C27
import Verif.Props.C57

/-!
# C88: the fields do not depend on how the stack is cut into layers

A layer may be listed in two parts, and layers of thickness zero may be listed. The fields at a point stay the same.
-/

open Matrix

namespace Meent

private theorem tetm_rows {la : LinAlg} {s : Settings} {r : Solved s.p.fto.1 s.p.fto.2} (h : conv_solve la s = .ok r) (o) (hr : r = .tetm o) :
    s.p.fto.2 = 0 := by
  subst hr
  obtain ⟨-, -, hg, -, -⟩ := conv_solve_tetm.mp h
  obtain ⟨-, -, -, -, -, h2⟩ := gratingType_zero hg
  exact h2

/-- **C88, cut layers.**  When a layer is listed as two layers of the same pattern, whose thicknesses add up to the original one, the fields stay the same:
all arrays for the original stack, and all arrays for the new one, hold samples of the same functions of position. The upper part of the layer is found in
the new layer `k` and the lower part in the new layer `k + 1`. -/
theorem C88_cut (la la' : LinAlg) (s : Settings) (hp : s.p.use_pinv = false) (hn : s.p.n_top ≠ 0) (hw : s.p.wavelength ≠ 0) (k : ℕ) (u u' : Structure)
    (hu : Spec.Doubled k u u') (t1 t2 : List ℝ) (hk : t1.length = k) (d1 d2 : ℝ) (h1 : 0 ≤ d1) (h2 : 0 ≤ d2) (h12 : 0 < d1 + d2)
    (r r' : Solved s.p.fto.1 s.p.fto.2) (h : conv_solve la (Spec.withStack s u (t1 ++ (d1 + d2) :: t2)) = .ok r)
    (h' : conv_solve la' (Spec.withStack s u' (t1 ++ d1 :: d2 :: t2)) = .ok r') (hr : r ≠ .conicalSmm) :
    ∃ fields : Spec.Fields Field3, Spec.AlwaysSampled (Spec.withStack s u (t1 ++ (d1 + d2) :: t2)).p r fields ∧
      Spec.AlwaysSampled (Spec.withStack s u' (t1 ++ d1 :: d2 :: t2)).p r' (fields.relayer (Spec.cutLayer k d1 d2)) := by
  obtain ⟨cs, hc, -⟩ := conv_solve_ok.mp h
  obtain ⟨pre, c, post, rfl, hlen, hc'⟩ := convMats_undoubled (th' := t1 ++ d1 :: d2 :: t2) hu hc
  obtain ⟨fields, hf⟩ := problem_fields (s := Spec.withStack s u (t1 ++ (d1 + d2) :: t2)) hp hn h hr hc
  obtain ⟨r₂, h₂, e₂⟩ := C06_split la' s hp k u u' hu t1 t2 hk d1 d2 r' h'
  have e := (e₂.symm.trans (conv_solve_agree (s := Spec.withStack s u (t1 ++ (d1 + d2) :: t2)) hp h h₂))
  have hf' := problem_relisted (p := (Spec.withStack s u (t1 ++ (d1 + d2) :: t2)).p) (th' := t1 ++ d1 :: d2 :: t2) (w := Spec.cutLayer k d1 d2)
    (cs' := pre ++ c :: c :: post) (fun m _ _ g => by
      simp only [List.map_append, List.map_cons]
      rw [← hk]
      exact relisted_cut (by rw [List.length_map, hlen, hk]) h1 h2 h12)
    (problem_congr (tetm_rows h) e hf)
  refine ⟨fields, problem_sampled (s := Spec.withStack s u (t1 ++ (d1 + d2) :: t2)) hp hn hw h hc hf,
    problem_sampled (s := Spec.withStack s u' (t1 ++ d1 :: d2 :: t2)) hp hn hw h' (cs := pre ++ c :: c :: post) ?_ hf'⟩
  rw [convMats_la la' la (s := Spec.withStack s u' (t1 ++ d1 :: d2 :: t2)) hp]
  exact hc'

/-- **C88, layers of thickness zero.**  A layer of thickness zero, whatever its pattern, leaves the fields in the other layers as they are: all arrays for the
stack with it, and all arrays for the stack without it, hold samples of the same functions of position. -/
theorem C88_zero (la la' : LinAlg) (s : Settings) (hp : s.p.use_pinv = false) (hn : s.p.n_top ≠ 0) (hw : s.p.wavelength ≠ 0) (k : ℕ) (u u' : Structure)
    (hu : Spec.Inserted k u u') (t1 t2 : List ℝ) (hk : t1.length = k) (r r' : Solved s.p.fto.1 s.p.fto.2)
    (h : conv_solve la (Spec.withStack s u (t1 ++ t2)) = .ok r)
    (h' : conv_solve la' (Spec.withStack s u' (t1 ++ 0 :: t2)) = .ok r') (hr : r' ≠ .conicalSmm) :
    ∃ fields : Spec.Fields Field3, Spec.AlwaysSampled (Spec.withStack s u' (t1 ++ 0 :: t2)).p r' fields ∧
      Spec.AlwaysSampled (Spec.withStack s u (t1 ++ t2)).p r (fields.relayer (Spec.dropLayer k)) := by
  obtain ⟨cs, hc, -⟩ := conv_solve_ok.mp h'
  obtain ⟨pre, c, post, rfl, hlen, hc'⟩ := convMats_inserted (th := t1 ++ t2) hu hc
  obtain ⟨fields, hf⟩ := problem_fields (s := Spec.withStack s u' (t1 ++ 0 :: t2)) hp hn h' hr hc
  obtain ⟨r₂, h₂, e₂⟩ := C05_zero_thickness la' s hp k u u' hu t1 t2 hk r' h'
  have e := (conv_solve_agree (s := Spec.withStack s u (t1 ++ t2)) hp h₂ h).trans e₂
  have hf' := problem_relisted (p := (Spec.withStack s u' (t1 ++ 0 :: t2)).p) (th' := t1 ++ t2) (w := Spec.dropLayer k)
    (cs' := pre ++ post) (fun m _ _ g => by
      simp only [List.map_append, List.map_cons]
      rw [← hk]
      exact relisted_drop (by rw [List.length_map, hlen, hk]))
    (problem_congr (tetm_rows h') e hf)
  refine ⟨fields, problem_sampled (s := Spec.withStack s u' (t1 ++ 0 :: t2)) hp hn hw h' hc hf,
    problem_sampled (s := Spec.withStack s u (t1 ++ t2)) hp hn hw h (cs := pre ++ post) ?_ hf'⟩
  rw [convMats_la la la' (s := Spec.withStack s u (t1 ++ t2)) hp]
  exact hc'

/-- Not vacuous: a conical problem with two materials at 30° and its layer cut into parts of thickness 1/12 and 1/4. -/
example (pol : ℝ) : ∃ sol sol', conv_solve exLA (Spec.withStack (exSettings pol (some 0)) (exSettings pol (some 0)).ucell ([] ++ (1 / 12 + 1 / 4) :: [])) = .ok sol ∧
    conv_solve exLA (Spec.withStack (exSettings pol (some 0)) exDouble ([] ++ (1 / 12) :: (1 / 4) :: [])) = .ok sol' ∧
    ∃ fields : Spec.Fields Field3,
      Spec.AlwaysSampled (Spec.withStack (exSettings pol (some 0)) (exSettings pol (some 0)).ucell ([] ++ (1 / 12 + 1 / 4) :: [])).p sol fields ∧
      Spec.AlwaysSampled (Spec.withStack (exSettings pol (some 0)) exDouble ([] ++ (1 / 12) :: (1 / 4) :: [])).p sol'
        (fields.relayer (Spec.cutLayer 0 (1 / 12) (1 / 4))) := by
  obtain ⟨o, ho⟩ := exCon_ok pol
  have h : conv_solve exLA (Spec.withStack (exSettings pol (some 0)) (exSettings pol (some 0)).ucell ([] ++ (1 / 12 + 1 / 4) :: [])) = .ok (.conical o) := by
    rw [show (1 / 12 : ℝ) + 1 / 4 = 1 / 3 by norm_num]
    exact ho
  obtain ⟨sol', h', -⟩ := C06_split_ok exLA (exSettings pol (some 0)) rfl 0 _ exDouble (.raster [] [] _) [] [] rfl (1 / 12) (1 / 4) _ h
  exact ⟨_, sol', h, h', C88_cut exLA exLA (exSettings pol (some 0)) rfl (by simp [exSettings, exParams]) (by simp [exSettings, exParams]) 0 _ exDouble
    (.raster [] [] _) [] [] rfl (1 / 12) (1 / 4) (by norm_num) (by norm_num) (by norm_num) _ _ h h' (by simp)⟩

/-- Not vacuous: the same problem with a further layer of thickness zero on top. -/
example (pol : ℝ) : ∃ sol sol', conv_solve exLA (Spec.withStack (exSettings pol (some 0)) (exSettings pol (some 0)).ucell ([] ++ [1 / 3])) = .ok sol ∧
    conv_solve exLA (Spec.withStack (exSettings pol (some 0)) exDouble ([] ++ 0 :: [1 / 3])) = .ok sol' ∧
    ∃ fields : Spec.Fields Field3, Spec.AlwaysSampled (Spec.withStack (exSettings pol (some 0)) exDouble ([] ++ 0 :: [1 / 3])).p sol' fields ∧
      Spec.AlwaysSampled (Spec.withStack (exSettings pol (some 0)) (exSettings pol (some 0)).ucell ([] ++ [1 / 3])).p sol (fields.relayer (Spec.dropLayer 0)) := by
  obtain ⟨o, ho⟩ := exCon_ok pol
  obtain ⟨sol', h', e⟩ := C06_split_ok exLA (exSettings pol (some 0)) rfl 0 _ exDouble (.raster [] [] _) [] [] rfl 0 (1 / 3) (.conical o)
    (by rw [show (0 : ℝ) + 1 / 3 = 1 / 3 by norm_num]; exact ho)
  refine ⟨_, sol', ho, h', C88_zero exLA exLA (exSettings pol (some 0)) rfl (by simp [exSettings, exParams]) (by simp [exSettings, exParams]) 0 _ exDouble
    (.raster [] _ _) [] [1 / 3] rfl _ _ ho h' ?_⟩
  rintro rfl
  cases congrArg Result.res e

end Meent

#print axioms Meent.C88_cut
#print axioms Meent.C88_zero
