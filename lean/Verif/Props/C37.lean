import Verif.Lemmas.RotatedCover

/-!
# C37: rotated rectangles are sliced completely
-/

namespace Meent

open Spec

/-- **C37 (partial: the triangles get at least as many splits as the parallelogram).** Every height
at which there is a point of the rectangle lies in one of the slices. -/
theorem C37_cover_partial (cx cy lx ly : ℝ) (n : ℂ) (angle : ℝ) (nt np : ℕ) (objs : List VObj)
    (hx : 0 < lx) (hy : 0 < ly) (ht : Tilted angle)
    (h : rectangle cx cy lx ly n angle nt np = .ok objs) (hle : np ≤ nt) (x y : ℝ)
    (hin : InRect cx cy lx ly angle x y) : ∃ o ∈ objs, o.r0 ≤ y ∧ y ≤ o.r1 := by
  obtain ⟨-, hp, α, lx', ly', a0, a1, l0, l1, hr, rfl⟩ := rectangle_tilted ht hx hy h
  obtain ⟨-, -, h34, e1, e4⟩ := quad_heights (cx := cx) (cy := cy) a0 a1 l0 l1
  have he := inRect_extent a0 a1 ((hr x y).mp hin)
  exact outline_cover hp hle n h34.le (by rw [e4]; exact he.1) (by rw [e1]; exact he.2) _

/-- **C37 fails when the triangles get fewer splits.** Then, for every rectangle, there is a band of
heights at which the rectangle has points and that lies below all slices. -/
theorem C37_negation (cx cy lx ly : ℝ) (n : ℂ) (angle : ℝ) (nt np : ℕ) (objs : List VObj)
    (hx : 0 < lx) (hy : 0 < ly) (ht : Tilted angle)
    (h : rectangle cx cy lx ly n angle nt np = .ok objs) (hlt : nt < np) :
    ∃ y₁ y₂, y₁ < y₂ ∧ ∀ y, y₁ ≤ y → y < y₂ →
      (∃ x, InRect cx cy lx ly angle x y) ∧ ∀ o ∈ objs, y < o.r0 ∧ y < o.r1 := by
  obtain ⟨-, hp, α, lx', ly', a0, a1, l0, l1, hr, rfl⟩ := rectangle_tilted ht hx hy h
  obtain ⟨h12, h23, h34, e1, e4⟩ := quad_heights (cx := cx) (cy := cy) a0 a1 l0 l1
  obtain ⟨y0, g1, g2, g3⟩ := outline_short hlt h12 h23 h34
  refine ⟨_, y0, g1, fun y k1 k2 => ⟨?_, ?_⟩⟩
  · obtain ⟨x, hxy⟩ := extent_inRect (y := y) a0 a1 l0 l1 (by rw [← e4]; exact k1)
      (by rw [← e1]; exact k2.le.trans g2)
    exact ⟨x, (hr x y).mpr hxy⟩
  · intro o ho
    obtain ⟨a, ha, b, hb, r0, r1⟩ := slices_heights ho
    rw [r0, r1]
    exact ⟨k2.trans_le (g3 b hb), k2.trans_le (g3 a ha)⟩

/-- A rectangle turned by an eighth of a full turn, with the default split counts and with fewer
splits of the triangles, meets the hypotheses. -/
example : Tilted (Real.pi / 4) ∧ (∃ objs, rectangle 0 0 2 1 3 (Real.pi / 4) 2 2 = .ok objs) ∧
    ∃ objs, rectangle 0 0 2 1 3 (Real.pi / 4) 1 2 = .ok objs :=
  ⟨tilted_eighth, rectangle_eighth 2 2 (by norm_num) (by norm_num),
    rectangle_eighth 1 2 (by norm_num) (by norm_num)⟩

#print axioms C37_cover_partial
#print axioms C37_negation

end Meent
