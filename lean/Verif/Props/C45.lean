import Verif.Lemmas.RotatedCover

/-!
# C45: every slice of a rotated rectangle is a piece of it
-/

namespace Meent

open Spec

/-- **C45 (partial: equal split counts).** No slice is upside down, and every slice spans, from left
to right, exactly what the rectangle contains at the height of the middle of the slice. -/
theorem C45_chord_partial (cx cy lx ly : ℝ) (n : ℂ) (angle : ℝ) (k : ℕ) (objs : List VObj)
    (hx : 0 < lx) (hy : 0 < ly) (ht : Tilted angle)
    (h : rectangle cx cy lx ly n angle k k = .ok objs) :
    ∀ o ∈ objs, o.n = n ∧ o.r0 ≤ o.r1 ∧
      ∀ x, (o.c0 ≤ x ∧ x ≤ o.c1) ↔ InRect cx cy lx ly angle x ((o.r0 + o.r1) / 2) := by
  obtain ⟨hk, -, α, lx', ly', a0, a1, l0, l1, hr, rfl⟩ := rectangle_tilted ht hx hy h
  intro o ho
  by_cases hb : (corner cx cy α (-lx' / 2) (ly' / 2)).2 > (corner cx cy α (lx' / 2) (-ly' / 2)).2
  · obtain ⟨a, b, ⟨hab, tl, tr, h1, h2⟩, -, -, rfl⟩ :=
      mem_slices (chain_left a0 a1 l0 l1 hb hk) o ho
    have hl : (quadInfo cx cy lx' ly' α).top2_left = true := by
      rw [show quadInfo cx cy lx' ly' α = _ from if_pos hb]
    simp only [hl, if_true] at h1 h2 ⊢
    refine ⟨trivial, hab, fun x => ?_⟩
    rw [hr, add_comm b.y]
    exact (h1.mid h2).chord a0 a1 x
  · obtain ⟨a, b, ⟨hab, tl, tr, h1, h2⟩, -, -, rfl⟩ :=
      mem_slices (chain_right a0 a1 l0 l1 hb hk) o ho
    have hl : (quadInfo cx cy lx' ly' α).top2_left = false := by
      rw [show quadInfo cx cy lx' ly' α = _ from if_neg hb]
    simp only [hl, Bool.false_eq_true, if_false] at h1 h2 ⊢
    refine ⟨trivial, hab, fun x => ?_⟩
    rw [hr, add_comm b.y]
    exact (h1.mid h2).chord a0 a1 x

/-- **C45 fails when the triangles get more splits.** Then, for every rectangle, some slice lies
below it: it is not empty, and the rectangle has no point at any height inside it. -/
theorem C45_negation (cx cy lx ly : ℝ) (n : ℂ) (angle : ℝ) (nt np : ℕ) (objs : List VObj)
    (hx : 0 < lx) (hy : 0 < ly) (ht : Tilted angle)
    (h : rectangle cx cy lx ly n angle nt np = .ok objs) (hlt : np < nt) :
    ∃ o ∈ objs, o.r0 < o.r1 ∧
      ∀ y, o.r0 < y → y < o.r1 → ¬ ∃ x, InRect cx cy lx ly angle x y := by
  obtain ⟨-, hp, α, lx', ly', a0, a1, l0, l1, hr, rfl⟩ := rectangle_tilted ht hx hy h
  obtain ⟨-, -, h34, e1, e4⟩ := quad_heights (cx := cx) (cy := cy) a0 a1 l0 l1
  obtain ⟨o, ho, g1, g2⟩ := outline_long hp hlt h34
    (quadInfo cx cy lx' ly' α).top2_left n
  refine ⟨o, ho, g1, ?_⟩
  rintro y - k2 ⟨x, hxy⟩
  have := (inRect_extent a0 a1 ((hr x y).mp hxy)).1
  rw [e4] at g2
  linarith

/-- The hypotheses of both theorems are met. -/
example : Tilted (Real.pi / 4) ∧ (∃ objs, rectangle 0 0 2 1 3 (Real.pi / 4) 2 2 = .ok objs) ∧
    ∃ objs, rectangle 0 0 2 1 3 (Real.pi / 4) 3 2 = .ok objs :=
  ⟨tilted_eighth, rectangle_eighth 2 2 (by norm_num) (by norm_num),
    rectangle_eighth 3 2 (by norm_num) (by norm_num)⟩

#print axioms C45_chord_partial
#print axioms C45_negation

end Meent
