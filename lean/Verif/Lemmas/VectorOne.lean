import Verif.Lemmas.Edges

/-!
# One axis-aligned box on a vector layer (helper lemmas)
-/

open Matrix

namespace Meent

set_option linter.unusedSimpArgs false

theorem bisectLeft_empty (l : List ℝ) (x : ℝ) (lo : ℕ) : bisectLeft l x lo lo = lo := by
  unfold bisectLeft; simp

theorem bisectLeft_one (a x : ℝ) : bisectLeft [a] x 0 1 = if a < x then 1 else 0 := by
  unfold bisectLeft
  simp [bisectLeft_empty]

theorem insertTop_nil (p v : ℝ) : insertTop [] p v = ([v], p, v) := by
  simp [insertTop, bisectLeft_empty]

theorem insertBot_one (a p v : ℝ) (h : a < v) : insertBot [a] p v = ([a, v], p, v) := by
  simp [insertBot, bisectLeft_one, h]

theorem gridLayer_one {r0 r1 c0 c1 : ℝ} {n : ℂ} (hr : r0 < r1) (hc : c0 < c1) :
    gridLayer [⟨r0, c0, r1, c1, n⟩] = ⟨[r0, r1], [c0, c1], 0, [⟨r0, c0, r1, c1, n⟩]⟩ := by
  simp [gridLayer, gridStep, insertTop_nil, insertBot_one _ _ _ hr, insertBot_one _ _ _ hc]

theorem finishEdges_two {a b p : ℝ} (ha : 0 < a) (hb : b < p) : finishEdges [a, b] p = [a, b, p] := by
  simp [finishEdges, ha.ne', hb.ne]

/-- Drawing one box strictly inside the period. -/
theorem drawLayer_one_eq {px py r0 r1 c0 c1 : ℝ} {base n : ℂ} (h1 : 0 < r0) (h2 : r0 < r1) (h3 : r1 < py)
    (h4 : 0 < c0) (h5 : c0 < c1) (h6 : c1 < px) :
    vectorPerLayer (px, py) base [⟨r0, c0, r1, c1, n⟩]
      = .ok ([r0, r1, py], [c0, c1, px], paintSlice (fun _ _ => base) 1 2 1 2 n) := by
  have lt1 := h2.ne'
  have lt2 := h5.ne'
  simp [vectorPerLayer, gridLayer_one h2 h5, finishEdges_two h1 h3, finishEdges_two h4 h6, paintAll,
    beginIdx, endIdx, listIndex, h1.ne', h4.ne', List.findIdx?_cons, bind, Except.bind, h2.ne, h5.ne]

theorem drawLayer_one {px py r0 r1 c0 c1 : ℝ} {base n : ℂ} (h1 : 0 < r0) (h2 : r0 < r1) (h3 : r1 < py)
    (h4 : 0 < c0) (h5 : c0 < c1) (h6 : c1 < px) :
    ∃ c, drawLayer (px, py) base [⟨r0, c0, r1, c1, n⟩] = .ok c := by
  unfold drawLayer
  rw [drawLayer_one_eq h1 h2 h3 h4 h5 h6]
  simp [toVCell, bind, Except.bind]

theorem rectangle_angle_zero (cx cy lx ly : ℝ) (n : ℂ) (nt np : ℕ) :
    rectangle cx cy lx ly n 0 nt np = .ok (rectNoApprox cx cy lx ly n) := by
  have : pyMod 0 (2 * Real.pi) = 0 := by simp [pyMod]
  simp [rectangle, this]

end Meent
