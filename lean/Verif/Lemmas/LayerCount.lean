import Verif.Lemmas.Pinv
import Verif.Lemmas.DiscreteConv

/-!
# Number of layers against number of thicknesses (helper lemmas)
-/

open Matrix

namespace Meent

theorem convMats_length {la : LinAlg} {s : Settings} {cs : List (Conv (FlatIdx s.p.fto.1 s.p.fto.2))}
    (h : convMats la s = .ok cs) : cs.length = Spec.layerCount s.ucell := by
  rcases hu : s.ucell with u | ls
  · obtain ⟨-, hm⟩ := (convMats_raster hu).mp h
    have := mapM_length hm
    simpa [Ucell.rasters, Spec.layerCount] using this
  · have := mapM_length ((convMats_vector hu).mp h)
    simpa [Spec.layerCount] using this

theorem convMats_extended {la : LinAlg} {s : Settings} {u u' : Structure} {th : List ℝ}
    (h : Spec.Extended u u') {cs' : List (Conv (FlatIdx s.p.fto.1 s.p.fto.2))}
    (hc : convMats la (Spec.withStack s u' th) = .ok cs') :
    ∃ pre post, cs' = pre ++ post ∧ pre.length = Spec.layerCount u ∧ convMats la (Spec.withStack s u th) = .ok pre := by
  cases h with
  | raster ls more =>
    obtain ⟨hf, hm⟩ := (convMats_raster rfl).mp hc
    simp only [Ucell.rasters, List.map_append] at hm
    obtain ⟨a, e, ha, he, rfl⟩ := mapM_append_ok.mp hm
    refine ⟨a, e, rfl, by simpa [Spec.layerCount] using mapM_length ha,
      (convMats_raster (u := ⟨_, _, ls⟩) rfl).mpr ⟨hf, ha⟩⟩
  | vector ls more =>
    obtain ⟨a, e, ha, he, rfl⟩ := mapM_append_ok.mp ((convMats_vector rfl).mp hc)
    exact ⟨a, e, rfl, by simpa [Spec.layerCount] using mapM_length ha, (convMats_vector rfl).mpr ha⟩

theorem gratingType_extended {s : Settings} {u u' : Structure} {th : List ℝ}
    (h : Spec.Extended u u') :
    gratingType (Spec.withStack s u th) = gratingType (Spec.withStack s u' th) := by
  cases h <;> rfl

theorem zip_append_right {α β : Type} (a b : List α) (c : List β) (h : c.length ≤ a.length) :
    (a ++ b).zip c = a.zip c := by
  induction a generalizing c with
  | nil => cases c with
    | nil => simp
    | cons => simp at h
  | cons x a ih =>
    cases c with
    | nil => simp
    | cons y c => simp only [List.cons_append, List.zip_cons_cons]; rw [ih]; simpa using h

end Meent
