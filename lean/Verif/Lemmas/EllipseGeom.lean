import Verif.Lemmas.Ellipse
import Verif.Spec.Ellipse
import Mathlib.Analysis.SpecialFunctions.Trigonometric.Basic
import Mathlib.Analysis.SpecialFunctions.Complex.Arg
import Mathlib.Analysis.SpecialFunctions.Trigonometric.Bounds
import Mathlib.Analysis.Real.Pi.Bounds

/-!
# The strips of an ellipse (helper lemmas)
-/

set_option linter.unusedVariables false
set_option linter.unusedSimpArgs false

namespace Meent

open Real

/-! ### Turning the parameter to the top -/

/-- The curve in the form used here: height `cy + R cos z`, with `z = 0` at the top. -/
noncomputable def topPt (cx cy X Y R z : ℝ) : Pt := (cx + X * cos z + Y * sin z, cy + R * cos z)

theorem exists_top_form (cx cy lx ly a : ℝ) : ∃ R t0 X Y : ℝ, 0 ≤ R ∧ (∀ t, Spec.ellipseCurve cx cy lx ly a t = topPt cx cy X Y R (t - t0)) ∧
    R * Y = - (lx / 2) * (ly / 2) ∧ R ^ 2 = (lx / 2 * sin a) ^ 2 + (ly / 2 * cos a) ^ 2 ∧
    R ^ 2 + X ^ 2 + Y ^ 2 = (lx / 2) ^ 2 + (ly / 2) ^ 2 := by
  let w : ℂ := ⟨lx / 2 * sin a, ly / 2 * cos a⟩
  have h1 : ‖w‖ * cos w.arg = lx / 2 * sin a := Complex.norm_mul_cos_arg w
  have h2 : ‖w‖ * sin w.arg = ly / 2 * cos a := Complex.norm_mul_sin_arg w
  refine ⟨‖w‖, w.arg, lx / 2 * cos a * cos w.arg - ly / 2 * sin a * sin w.arg,
    -(lx / 2 * cos a * sin w.arg) - ly / 2 * sin a * cos w.arg, norm_nonneg _, fun t => ?_, ?_, ?_, ?_⟩
  · unfold Spec.ellipseCurve topPt
    have hs := sin_sq_add_cos_sq w.arg
    refine Prod.ext ?_ ?_
    · simp only [cos_sub, sin_sub]
      linear_combination (- lx / 2 * cos t * cos a + ly / 2 * sin t * sin a) * hs
    · simp only [cos_sub]
      linear_combination (- cos t) * h1 - sin t * h2
  · linear_combination (-(lx / 2) * cos a) * h2 - (ly / 2 * sin a) * h1 - (lx / 2) * (ly / 2) * sin_sq_add_cos_sq a
  · rw [← h1, ← h2]
    linear_combination (-‖w‖ ^ 2) * sin_sq_add_cos_sq w.arg
  · have h3 : ‖w‖ ^ 2 = (lx / 2 * sin a) ^ 2 + (ly / 2 * cos a) ^ 2 := by
      rw [← h1, ← h2]
      linear_combination (-‖w‖ ^ 2) * sin_sq_add_cos_sq w.arg
    rw [h3]
    linear_combination ((lx / 2 * cos a) ^ 2 + (ly / 2 * sin a) ^ 2) * sin_sq_add_cos_sq w.arg
      + ((lx / 2) ^ 2 + (ly / 2) ^ 2) * sin_sq_add_cos_sq a

theorem curve_pyMod (cx cy lx ly a t : ℝ) :
    corner cx cy (pyMod a (2 * π)) (lx / 2 * cos t) (ly / 2 * sin t) = Spec.ellipseCurve cx cy lx ly a t := by
  have e : pyMod a (2 * π) = a - ⌊a / (2 * π)⌋ * (2 * π) := by unfold pyMod; ring
  unfold corner Spec.ellipseCurve
  rw [e, cos_sub_int_mul_two_pi, sin_sub_int_mul_two_pi]
  refine Prod.ext ?_ ?_ <;> simp only <;> ring

theorem ellipsePt_eq (cx cy lx ly a : ℝ) (n k : ℕ) :
    ellipsePt cx cy lx ly a n k = Spec.ellipseCurve cx cy lx ly a (Spec.sample (n - 1) k) := by
  unfold ellipsePt
  dsimp only
  rw [curve_pyMod]
  congr 1
  unfold Spec.sample
  ring

theorem topPt_int (cx cy X Y R z : ℝ) (k : ℤ) : topPt cx cy X Y R (z + k * (2 * π)) = topPt cx cy X Y R z := by
  unfold topPt
  rw [cos_add_int_mul_two_pi, sin_add_int_mul_two_pi]

/-- The points around number `h`, in terms of its distance `u` from the top. -/
theorem rolled_points {cx cy lx ly a R t0 X Y : ℝ}
    (hf : ∀ t, Spec.ellipseCurve cx cy lx ly a t = topPt cx cy X Y R (t - t0)) {n h0 h : ℕ} (hN : 0 < n - 1) :
    ∃ u, |u| ≤ π ∧ (∀ (m : ℕ) (z c : ℤ), (m : ℤ) = h + z + (n - 1 : ℕ) * c →
      rollTo (n - 1) h0 (ellipsePt cx cy lx ly a n) (m % (n - 1)) = topPt cx cy X Y R (u + z * (2 * π / (n - 1 : ℕ)))) ∧
      ∃ s : ℤ, ∀ (k : ℕ) (z c : ℤ), (k : ℤ) = s + z + (n - 1 : ℕ) * c →
        Spec.ellipseCurve cx cy lx ly a (Spec.sample (n - 1) k) = topPt cx cy X Y R (u + z * (2 * π / (n - 1 : ℕ))) := by
  set N := n - 1 with hNdef
  set s := h0 + (N - N / 2) with hs
  have hN' : (0 : ℝ) < N := by exact_mod_cast hN
  let z0 : ℝ := Spec.sample N (h + s) - t0
  have key : ∀ (k : ℕ) (z c : ℤ), (k : ℤ) = (h + s : ℕ) + z + N * c →
      Spec.ellipseCurve cx cy lx ly a (Spec.sample N k) =
        topPt cx cy X Y R (z0 - round (z0 / (2 * π)) * (2 * π) + z * (2 * π / N)) := by
    intro k z c hk
    rw [hf]
    have e3 : (k : ℝ) = h + s + z + N * c := by exact_mod_cast hk
    have e4 : Spec.sample N k - t0 =
        z0 - round (z0 / (2 * π)) * (2 * π) + z * (2 * π / N) + ((c + round (z0 / (2 * π)) : ℤ) : ℝ) * (2 * π) := by
      simp only [z0]
      unfold Spec.sample
      rw [e3]
      push_cast
      field_simp
      ring
    rw [e4, topPt_int]
  refine ⟨z0 - round (z0 / (2 * π)) * (2 * π), ?_, ?_, ((h + s : ℕ) : ℤ), key⟩
  · have h1 := abs_sub_round (z0 / (2 * π))
    have h2 : z0 - round (z0 / (2 * π)) * (2 * π) = (z0 / (2 * π) - round (z0 / (2 * π))) * (2 * π) := by
      field_simp
    rw [h2, abs_mul, abs_of_pos two_pi_pos]
    nlinarith [pi_pos]
  · intro m z c hz
    unfold rollTo
    rw [ellipsePt_eq, ← hNdef]
    have e1 : m % N + h0 + (N - N / 2) = m % N + s := by omega
    rw [e1, Nat.mod_add_mod]
    obtain ⟨D, hD⟩ : ∃ D, D = (m + s) / N := ⟨_, rfl⟩
    refine key _ z (c - D) ?_
    have h3 : (((m + s) % N + N * ((m + s) / N) : ℕ) : ℤ) = ((m + s : ℕ) : ℤ) := by rw [Nat.mod_add_div (m + s) N]
    rw [← hD] at h3
    rw [Nat.cast_add, Nat.cast_add, Nat.cast_mul] at h3
    rw [Nat.cast_add, mul_sub]
    linarith

/-- If neither neighbour is higher, the highest point is at most half a step from the top. -/
theorem near_top {u δ : ℝ} (hu : |u| ≤ π) (hδ : 0 < δ) (hδ' : δ < 2 * π) (h1 : cos (u + δ) ≤ cos u) (h2 : cos (u - δ) ≤ cos u) :
    |u| ≤ δ / 2 := by
  rw [abs_le] at hu ⊢
  have hs : 0 < sin (δ / 2) := sin_pos_of_pos_of_lt_pi (by linarith) (by linarith)
  constructor
  · by_contra hlt
    push Not at hlt
    have e : cos (u + δ) - cos u = 2 * sin (-(u + δ / 2)) * sin (δ / 2) := by
      have := cos_sub_cos (u + δ) u
      rw [this, sin_neg]
      have e1 : (u + δ + u) / 2 = u + δ / 2 := by ring
      have e2 : (u + δ - u) / 2 = δ / 2 := by ring
      rw [e1, e2]; ring
    have : 0 < sin (-(u + δ / 2)) := sin_pos_of_pos_of_lt_pi (by linarith) (by linarith)
    nlinarith
  · by_contra hlt
    push Not at hlt
    have e : cos (u - δ) - cos u = 2 * sin (u - δ / 2) * sin (δ / 2) := by
      have := cos_sub_cos (u - δ) u
      rw [this]
      have e1 : (u - δ + u) / 2 = u - δ / 2 := by ring
      have e2 : (u - δ - u) / 2 = -(δ / 2) := by ring
      rw [e1, e2, sin_neg]; ring
    have : 0 < sin (u - δ / 2) := sin_pos_of_pos_of_lt_pi (by linarith) (by linarith)
    nlinarith

theorem cos_zig (u x : ℝ) : cos (u + x) - cos (u - x) = -2 * sin u * sin x := by
  rw [cos_add, cos_sub]; ring

theorem cos_zag (u δ x : ℝ) : cos (u - x) - cos (u + (x + δ)) = 2 * sin (u + δ / 2) * sin (x + δ / 2) := by
  rw [cos_sub_cos]
  have e1 : (u - x + (u + (x + δ))) / 2 = u + δ / 2 := by ring
  have e2 : (u - x - (u + (x + δ))) / 2 = -(x + δ / 2) := by ring
  rw [e1, e2, sin_neg]; ring

/-- A sample within half a step of the top is the highest of all. -/
theorem near_top_max {N : ℕ} (hN : 0 < N) {v : ℝ} (hv : |v| ≤ 2 * π / N / 2) (z : ℤ) : cos (v + z * (2 * π / N)) ≤ cos v := by
  have hN' : (0 : ℝ) < N := by exact_mod_cast hN
  have hNz : (0 : ℤ) < N := by exact_mod_cast hN
  obtain ⟨j, c, hj0, hj1, hz⟩ : ∃ j c : ℤ, 0 ≤ j ∧ j < N ∧ z = j + N * c :=
    ⟨z % N, z / N, Int.emod_nonneg _ hNz.ne', Int.emod_lt_of_pos _ hNz, (Int.emod_add_mul_ediv z N).symm⟩
  have e : v + z * (2 * π / N) = v + j * (2 * π / N) + c * (2 * π) := by
    rw [hz]; push_cast; field_simp; ring
  rw [e, cos_add_int_mul_two_pi]
  rcases hj0.eq_or_lt with h | h
  · rw [← h]; simp
  have hj : (1 : ℝ) ≤ j := by exact_mod_cast h
  have hj' : (j : ℝ) ≤ N - 1 := by
    have : j ≤ N - 1 := by omega
    exact_mod_cast this
  set δ := 2 * π / N with hδ
  have hδ0 : 0 < δ := by positivity
  have hNδ : N * δ = 2 * π := by rw [hδ]; field_simp
  rw [abs_le] at hv
  have e2 : cos v - cos (v + j * δ) = 2 * sin (v + j * δ / 2) * sin (j * δ / 2) := by
    rw [cos_sub_cos]
    have e1 : (v + (v + j * δ)) / 2 = v + j * δ / 2 := by ring
    have e2 : (v - (v + j * δ)) / 2 = -(j * δ / 2) := by ring
    rw [e1, e2, sin_neg]; ring
  have h1 : 0 ≤ sin (v + j * δ / 2) := sin_nonneg_of_nonneg_of_le_pi (by nlinarith) (by nlinarith)
  have h2 : 0 ≤ sin (j * δ / 2) := sin_nonneg_of_nonneg_of_le_pi (by positivity) (by nlinarith)
  nlinarith [mul_nonneg h1 h2]

/-! ### The boxes of a zigzag -/

/-- The box of two points. -/
noncomputable def boxOf (n : ℂ) (a b : Pt) : VObj :=
  { r0 := min a.2 b.2, c0 := min a.1 b.1, r1 := max a.2 b.2, c1 := max a.1 b.1, n := n }

theorem pairBoxes_zigzag (n : ℂ) (m : ℕ) : ∀ r l : ℕ → Pt,
    pairBoxes n (r 0 :: (List.range m).flatMap fun i => [l i, r (i + 1)]) =
      (List.range m).flatMap fun i => [boxOf n (r i) (l i), boxOf n (l i) (r (i + 1))] := by
  induction m with
  | zero => intro r l; rfl
  | succ m ih =>
    intro r l
    rw [List.range_succ_eq_map]
    simp only [List.flatMap_cons, List.flatMap_map, List.cons_append, List.nil_append]
    have h := ih (fun i => r (i + 1)) (fun i => l (i + 1))
    simp only [Nat.succ_eq_add_one, pairBoxes] at h ⊢
    rw [h]
    rfl

theorem stackedDown_zigzag (n : ℂ) (m : ℕ) : ∀ r l : ℕ → Pt, (∀ i < m, (l i).2 ≤ (r i).2) → (∀ i < m, (r (i + 1)).2 ≤ (l i).2) →
    Spec.StackedDown (r 0).2 ((List.range m).flatMap fun i => [boxOf n (r i) (l i), boxOf n (l i) (r (i + 1))]) (r m).2 := by
  induction m with
  | zero => intro r l _ _; rfl
  | succ m ih =>
    intro r l h1 h2
    rw [List.range_succ_eq_map]
    simp only [List.flatMap_cons, List.flatMap_map, List.cons_append, List.nil_append]
    have h := ih (fun i => r (i + 1)) (fun i => l (i + 1)) (fun i hi => h1 (i + 1) (by omega)) (fun i hi => h2 (i + 1) (by omega))
    have a1 := h1 0 (by omega)
    have a2 : (r 1).2 ≤ (l 0).2 := h2 0 (by omega)
    refine ⟨?_, ?_, ?_, ?_, ?_⟩
    · simp [boxOf, a1]
    · simp [boxOf]
    · simp [boxOf, a1, a2]
    · simp [boxOf]
    · have : (boxOf n (l 0) (r (0 + 1))).r0 = (r 1).2 := by simp [boxOf, a2]
      rw [this]
      exact h

/-! ### What `ellipse` returns -/

theorem ellipse_run (cx cy lx ly : ℝ) (n : ℂ) (a : ℝ) {nw : ℕ} (hw : 4 ≤ nw) : ∃ h0 h,
    argmaxY (nw - 1) (ellipsePt cx cy lx ly a nw) = some h0 ∧
    argmaxY (nw - 1) (rollTo (nw - 1) h0 (ellipsePt cx cy lx ly a nw)) = some h ∧ h + 1 < nw - 1 ∧
    ellipse cx cy lx ly n a nw nw = .ok (pairBoxes n (ellipseArr (nw - 1) (rollTo (nw - 1) h0 (ellipsePt cx cy lx ly a nw)) h
      (rollTo (nw - 1) h0 (ellipsePt cx cy lx ly a nw) (h + 1)))) := by
  obtain ⟨h0, e0⟩ := argmaxY_isSome (N := nw - 1) (by omega) (ellipsePt cx cy lx ly a nw)
  obtain ⟨h, e⟩ := argmaxY_isSome (N := nw - 1) (by omega) (rollTo (nw - 1) h0 (ellipsePt cx cy lx ly a nw))
  have hk : h + 1 < nw - 1 := by
    have := rolled_top e0 e
    omega
  refine ⟨h0, h, e0, e, hk, ?_⟩
  unfold ellipse
  rw [if_neg (by simp)]
  dsimp only
  rw [e0]
  dsimp only
  rw [e]
  dsimp only
  rw [if_pos hk]

theorem topPt_neg (cx cy X Y R z : ℝ) : topPt cx cy X Y R (-z) = topPt cx cy X (-Y) R z := by
  unfold topPt
  rw [cos_neg, sin_neg]
  refine Prod.ext ?_ rfl
  simp only
  ring

/-- The strips of an ellipse: `v` is minus the distance of the highest sample from the top. -/
theorem ellipse_form {cx cy lx ly : ℝ} (hx : 0 < lx) (hy : 0 < ly) (n : ℂ) (a : ℝ) {nw : ℕ} (hw : 4 ≤ nw) :
    ∃ R X Y t0 ε v : ℝ, 0 < R ∧ R * |Y| = lx / 2 * (ly / 2) ∧ R ^ 2 + X ^ 2 + Y ^ 2 = (lx / 2) ^ 2 + (ly / 2) ^ 2 ∧ (ε = 1 ∨ ε = -1) ∧
      (∀ t, Spec.ellipseCurve cx cy lx ly a t = topPt cx cy X Y R (ε * (t - t0))) ∧
      -(2 * π / (nw - 1 : ℕ) / 2) ≤ v ∧ v ≤ 0 ∧
      (∀ z : ℤ, ∃ k < nw - 1, Spec.ellipseCurve cx cy lx ly a (Spec.sample (nw - 1) k) =
        topPt cx cy X Y R (v + z * (2 * π / (nw - 1 : ℕ)))) ∧
      (∀ k < nw - 1, ∃ z : ℤ, Spec.ellipseCurve cx cy lx ly a (Spec.sample (nw - 1) k) =
        topPt cx cy X Y R (v + z * (2 * π / (nw - 1 : ℕ)))) ∧
      (v = 0 → ellipse cx cy lx ly n a nw nw = .ok (pairBoxes n (List.replicate (2 * ((nw - 1) / 2)) (0, 0)))) ∧
      (v < 0 → ellipse cx cy lx ly n a nw nw = .ok ((List.range ((nw - 1) / 2)).flatMap fun i : ℕ =>
        [boxOf n (topPt cx cy X Y R (v - i * (2 * π / (nw - 1 : ℕ)))) (topPt cx cy X Y R (v + (i + 1) * (2 * π / (nw - 1 : ℕ)))),
         boxOf n (topPt cx cy X Y R (v + (i + 1) * (2 * π / (nw - 1 : ℕ))))
          (topPt cx cy X Y R (v - ((i + 1 : ℕ) : ℝ) * (2 * π / (nw - 1 : ℕ))))])) := by
  obtain ⟨R, t0, X, Y, hR0, hf, hRY, hR2, hXY⟩ := exists_top_form cx cy lx ly a
  have hR : 0 < R := by
    refine hR0.lt_of_ne fun h => ?_
    have h1 : (lx / 2 * sin a) ^ 2 + (ly / 2 * cos a) ^ 2 = 0 := by rw [← hR2, ← h]; ring
    have h2 : lx / 2 * sin a = 0 := by nlinarith [sq_nonneg (lx / 2 * sin a), sq_nonneg (ly / 2 * cos a)]
    have h3 : ly / 2 * cos a = 0 := by nlinarith [sq_nonneg (lx / 2 * sin a), sq_nonneg (ly / 2 * cos a)]
    have h4 : sin a = 0 := (mul_eq_zero.mp h2).resolve_left (by positivity)
    have h5 : cos a = 0 := (mul_eq_zero.mp h3).resolve_left (by positivity)
    have := sin_sq_add_cos_sq a
    rw [h4, h5] at this
    norm_num at this
  obtain ⟨h0, h, e0, e, hk, hE⟩ := ellipse_run cx cy lx ly n a hw
  obtain ⟨u, hu, hq, s, hs⟩ := rolled_points (h0 := h0) (h := h) hf (n := nw) (by omega)
  have hN3 : 3 ≤ nw - 1 := by omega
  generalize nw - 1 = N at *
  set q := rollTo N h0 (ellipsePt cx cy lx ly a nw) with hqdef
  have hN' : (3 : ℝ) ≤ N := by exact_mod_cast hN3
  set δ : ℝ := 2 * π / N with hδ
  have hNδ : N * δ = 2 * π := by rw [hδ]; field_simp
  have hδ0 : 0 < δ := by positivity
  have hδ2 : δ < π := by nlinarith [pi_pos]
  have htop : q h = topPt cx cy X Y R u := by
    have := hq h 0 0 (by simp)
    rw [Nat.mod_eq_of_lt (by omega)] at this
    simpa using this
  have hL : ∀ i : ℕ, q ((h + i + 1) % N) = topPt cx cy X Y R (u + (i + 1) * δ) := by
    intro i
    have := hq (h + i + 1) (i + 1) 0 (by push_cast; ring)
    push_cast at this
    exact this
  have hRt : ∀ i : ℕ, i < N → q ((h + (N - (i + 1))) % N) = topPt cx cy X Y R (u - (i + 1) * δ) := by
    intro i hi
    have := hq (h + (N - (i + 1))) (-(i + 1)) 1 (by rw [Nat.cast_add, Nat.cast_sub (by omega)]; push_cast; ring)
    push_cast at this
    rw [this]
    congr 1
    ring
  have hleft : q (h + 1) = topPt cx cy X Y R (u + δ) := by
    have := hL 0
    rw [Nat.mod_eq_of_lt (by omega)] at this
    simpa using this
  have hright : q ((h + (N - 1)) % N) = topPt cx cy X Y R (u - δ) := by
    have := hRt 0 (by omega)
    simpa using this
  have hmax : ∀ m < N, (q m).2 ≤ (q h).2 := fun m hm => argmaxY_le e hm
  have c1 : cos (u + δ) ≤ cos u := by
    have := hmax (h + 1) hk
    rw [hleft, htop] at this
    simp only [topPt] at this
    nlinarith
  have c2 : cos (u - δ) ≤ cos u := by
    have := hmax ((h + (N - 1)) % N) (Nat.mod_lt _ (by omega))
    rw [hright, htop] at this
    simp only [topPt] at this
    nlinarith
  have hu2 := near_top hu hδ0 (by linarith [pi_pos]) c1 c2
  have hsδ : 0 < sin δ := sin_pos_of_pos_of_lt_pi hδ0 hδ2
  have hdiff : (q (h + 1)).2 - (q ((h + (N - 1)) % N)).2 = -2 * R * sin u * sin δ := by
    rw [hleft, hright]
    simp only [topPt]
    have := cos_zig u δ
    linear_combination R * this
  have habs := abs_le.mp hu2
  have hk1 : ∀ z : ℤ, ∃ k < N, Spec.ellipseCurve cx cy lx ly a (Spec.sample N k) = topPt cx cy X Y R (u + z * δ) := by
    intro z
    have hNz : (0 : ℤ) < N := by omega
    have a1 := Int.emod_nonneg (s + z) hNz.ne'
    have a2 := Int.emod_lt_of_pos (s + z) hNz
    refine ⟨((s + z) % N).toNat, by omega, hs _ z (-((s + z) / N)) ?_⟩
    rw [Int.toNat_of_nonneg a1]
    linarith [Int.emod_add_mul_ediv (s + z) N]
  have hk2 : ∀ k < N, ∃ z : ℤ, Spec.ellipseCurve cx cy lx ly a (Spec.sample N k) = topPt cx cy X Y R (u + z * δ) := by
    intro k _
    exact ⟨k - s, hs k (k - s) 0 (by ring)⟩
  have hRY' : R * |Y| = lx / 2 * (ly / 2) := by
    rw [show R * |Y| = |R * Y| by rw [abs_mul, abs_of_pos hR], hRY, neg_mul, abs_neg, abs_of_pos (by positivity)]
  rcases lt_trichotomy u 0 with h1 | h1 | h1
  · refine ⟨R, X, Y, t0, 1, u, hR, hRY', hXY, .inl rfl, fun t => by rw [one_mul, hf], by linarith, h1.le, hk1, hk2,
      fun h => absurd h h1.ne, fun _ => ?_⟩
    rw [hE]
    have hs0 : sin u < 0 := sin_neg_of_neg_of_neg_pi_lt h1 (by linarith [pi_pos])
    have hgt : (q (h + 1)).2 > (q ((h + (N - 1)) % N)).2 := by
      have : 0 < -2 * R * sin u * sin δ := by
        have : 0 < R * -sin u * sin δ := by have := neg_pos.mpr hs0; positivity
        linarith
      linarith
    congr 1
    unfold ellipseArr
    dsimp only
    rw [if_pos hgt]
    have := pairBoxes_zigzag n (N / 2) (fun i => topPt cx cy X Y R (u - i * δ)) (fun i => topPt cx cy X Y R (u + (i + 1) * δ))
    rw [← this]
    congr 1
    refine List.cons_eq_cons.mpr ⟨by simp [htop], List.flatMap_congr fun i hi => ?_⟩
    have hi' : i < N := by have := List.mem_range.mp hi; omega
    rw [hL i, hRt i hi']
    push_cast
    rfl
  · refine ⟨R, X, Y, t0, 1, u, hR, hRY', hXY, .inl rfl, fun t => by rw [one_mul, hf], by linarith, h1.le, hk1, hk2,
      fun _ => ?_, fun h => absurd h1 h.ne⟩
    rw [hE]
    have h0' : (q (h + 1)).2 = (q ((h + (N - 1)) % N)).2 := by
      rw [h1, sin_zero] at hdiff
      linarith
    congr 1
    unfold ellipseArr
    dsimp only
    rw [if_neg (by rw [h0']; exact lt_irrefl _), if_neg (by rw [h0']; exact lt_irrefl _)]
  · refine ⟨R, X, -Y, t0, -1, -u, hR, by rw [abs_neg]; exact hRY', by rw [neg_sq]; exact hXY, .inr rfl,
      fun t => by rw [neg_one_mul, topPt_neg, neg_neg, hf], by linarith, by linarith, fun z => ?_, fun k hk => ?_,
      fun h => by linarith, fun _ => ?_⟩
    · obtain ⟨k, hk, e⟩ := hk1 (-z)
      refine ⟨k, hk, ?_⟩
      rw [e, ← topPt_neg]
      congr 1
      push_cast
      ring
    · obtain ⟨z, e⟩ := hk2 k hk
      refine ⟨-z, ?_⟩
      rw [e, ← topPt_neg]
      congr 1
      push_cast
      ring
    rw [hE]
    have hs0 : 0 < sin u := sin_pos_of_pos_of_lt_pi h1 (by linarith [pi_pos])
    have hlt : (q (h + 1)).2 < (q ((h + (N - 1)) % N)).2 := by
      have : 0 < R * sin u * sin δ := by positivity
      linarith
    congr 1
    unfold ellipseArr
    dsimp only
    rw [if_neg (not_lt.mpr hlt.le), if_pos hlt]
    have := pairBoxes_zigzag n (N / 2) (fun i => topPt cx cy X (-Y) R (-u - i * δ)) (fun i => topPt cx cy X (-Y) R (-u + (i + 1) * δ))
    rw [← this]
    congr 1
    refine List.cons_eq_cons.mpr ⟨by simp only [← topPt_neg]; simp [htop], List.flatMap_congr fun i hi => ?_⟩
    have hi' : i < N := by have := List.mem_range.mp hi; omega
    rw [hL i, hRt i hi', ← topPt_neg, ← topPt_neg]
    push_cast
    have e1 : -(-u + (i + 1) * δ) = u - (i + 1) * δ := by ring
    have e2 : -(-u - (i + 1) * δ) = u + (i + 1) * δ := by ring
    rw [e1, e2]

/-! ### The area of the strips -/

theorem sum_cos_odd (δ : ℝ) (m : ℕ) : (∑ i ∈ Finset.range m, cos ((2 * i + 1) * δ)) * (2 * sin δ) = sin (2 * m * δ) := by
  induction m with
  | zero => simp
  | succ m ih =>
    rw [Finset.sum_range_succ, add_mul, ih]
    have e1 : 2 * ((m + 1 : ℕ) : ℝ) * δ = (2 * m + 1) * δ + δ := by push_cast; ring
    have e2 : 2 * (m : ℝ) * δ = (2 * m + 1) * δ - δ := by ring
    rw [e1, e2, sin_add, sin_sub]
    ring

theorem sum_cos_even (δ : ℝ) (m : ℕ) :
    (∑ i ∈ Finset.range m, cos (2 * (i + 1) * δ)) * (2 * sin δ) = sin ((2 * m + 1) * δ) - sin δ := by
  induction m with
  | zero => simp
  | succ m ih =>
    rw [Finset.sum_range_succ, add_mul, ih]
    have e1 : (2 * ((m + 1 : ℕ) : ℝ) + 1) * δ = 2 * (m + 1) * δ + δ := by push_cast; ring
    have e2 : (2 * (m : ℝ) + 1) * δ = 2 * (m + 1) * δ - δ := by ring
    rw [e1, e2, sin_add, sin_sub]
    ring

theorem sum_sin_sq {N : ℕ} (hN : 3 ≤ N) :
    ∑ i ∈ Finset.range (N / 2), sin (i * (2 * π / N) + 2 * π / N / 2) ^ 2 = N / 4 ∧
    ∑ i ∈ Finset.range (N / 2), sin ((i + 1) * (2 * π / N)) ^ 2 = N / 4 := by
  have hN' : (3 : ℝ) ≤ N := by exact_mod_cast hN
  set δ : ℝ := 2 * π / N with hδ
  have hNδ : N * δ = 2 * π := by rw [hδ]; field_simp
  have hδ0 : 0 < δ := by positivity
  have hsδ : 0 < sin δ := sin_pos_of_pos_of_lt_pi hδ0 (by nlinarith [pi_pos])
  have s1 : ∑ i ∈ Finset.range (N / 2), sin (i * δ + δ / 2) ^ 2 =
      ((N / 2 : ℕ) : ℝ) / 2 - (∑ i ∈ Finset.range (N / 2), cos ((2 * i + 1) * δ)) / 2 := by
    rw [Finset.sum_div]
    have : ((N / 2 : ℕ) : ℝ) / 2 = ∑ i ∈ Finset.range (N / 2), (1 / 2 : ℝ) := by
      rw [Finset.sum_const, Finset.card_range, nsmul_eq_mul]; ring
    rw [this, ← Finset.sum_sub_distrib]
    refine Finset.sum_congr rfl fun i _ => ?_
    have e : ((2 * i + 1) * δ : ℝ) = 2 * (i * δ + δ / 2) := by ring
    rw [e, cos_two_mul, cos_sq']
    ring
  have s2 : ∑ i ∈ Finset.range (N / 2), sin ((i + 1) * δ) ^ 2 =
      ((N / 2 : ℕ) : ℝ) / 2 - (∑ i ∈ Finset.range (N / 2), cos (2 * (i + 1) * δ)) / 2 := by
    rw [Finset.sum_div]
    have : ((N / 2 : ℕ) : ℝ) / 2 = ∑ i ∈ Finset.range (N / 2), (1 / 2 : ℝ) := by
      rw [Finset.sum_const, Finset.card_range, nsmul_eq_mul]; ring
    rw [this, ← Finset.sum_sub_distrib]
    refine Finset.sum_congr rfl fun i _ => ?_
    have e : (2 * (i + 1) * δ : ℝ) = 2 * ((i + 1) * δ) := by ring
    rw [e, cos_two_mul, cos_sq']
    ring
  have c1 := sum_cos_odd δ (N / 2)
  have c2 := sum_cos_even δ (N / 2)
  rw [s1, s2]
  generalize (∑ i ∈ Finset.range (N / 2), cos ((2 * i + 1) * δ)) = S1 at c1 ⊢
  generalize (∑ i ∈ Finset.range (N / 2), cos (2 * (i + 1) * δ)) = S2 at c2 ⊢
  rcases Nat.even_or_odd N with ⟨k, hk⟩ | ⟨k, hk⟩
  · have e : N / 2 = k := by omega
    have e' : (N : ℝ) = 2 * k := by rw [hk]; push_cast; ring
    rw [e] at c1 c2 ⊢
    have a1 : 2 * (k : ℝ) * δ = 2 * π := by rw [← e', hNδ]
    have a2 : (2 * (k : ℝ) + 1) * δ = δ + 2 * π := by rw [← e']; linarith
    rw [a1, sin_two_pi] at c1
    rw [a2, sin_add_two_pi, sub_self] at c2
    have b1 : S1 = 0 := (mul_eq_zero.mp c1).resolve_right (by positivity)
    have b2 : S2 = 0 := (mul_eq_zero.mp c2).resolve_right (by positivity)
    rw [b1, b2, e']
    constructor <;> ring
  · have e : N / 2 = k := by omega
    have e' : (N : ℝ) = 2 * k + 1 := by rw [hk]; push_cast; ring
    rw [e] at c1 c2 ⊢
    have a1 : 2 * (k : ℝ) * δ = 2 * π - δ := by
      rw [e'] at hNδ
      linarith
    have a2 : (2 * (k : ℝ) + 1) * δ = 2 * π := by rw [← e', hNδ]
    rw [a1, sin_two_pi_sub] at c1
    rw [a2, sin_two_pi, zero_sub] at c2
    have b1 : S1 = -1 / 2 := by
      apply mul_right_cancel₀ (b := 2 * sin δ) (by positivity)
      rw [c1]; ring
    have b2 : S2 = -1 / 2 := by
      apply mul_right_cancel₀ (b := 2 * sin δ) (by positivity)
      rw [c2]; ring
    rw [b1, b2, e']
    constructor <;> ring

theorem totalArea_flatMap (m : ℕ) (f : ℕ → List VObj) :
    Spec.totalArea ((List.range m).flatMap f) = ∑ i ∈ Finset.range m, Spec.totalArea (f i) := by
  induction m with
  | zero => rfl
  | succ m ih =>
    rw [List.range_succ, List.flatMap_append, Finset.sum_range_succ, ← ih]
    simp [Spec.totalArea]

theorem boxOf_area (n : ℂ) (P Q : Pt) :
    ((boxOf n P Q).r1 - (boxOf n P Q).r0) * ((boxOf n P Q).c1 - (boxOf n P Q).c0) = |P.2 - Q.2| * |P.1 - Q.1| := by
  simp only [boxOf, max_sub_min_eq_abs']

/-- The area between two samples: half their sum `w` is the distance to the top, half their difference the width. -/
theorem topPt_area (n : ℂ) (cx cy X Y : ℝ) {R : ℝ} (hR : 0 ≤ R) {w : ℝ} (y : ℝ) :
    |(topPt cx cy X Y R (w - y)).2 - (topPt cx cy X Y R (w + y)).2| * |(topPt cx cy X Y R (w - y)).1 - (topPt cx cy X Y R (w + y)).1|
      = 4 * R * |sin w| * |X * sin w - Y * cos w| * sin y ^ 2 := by
  have e1 : (topPt cx cy X Y R (w - y)).2 - (topPt cx cy X Y R (w + y)).2 = 2 * R * sin w * sin y := by
    simp only [topPt, cos_sub, cos_add]; ring
  have e2 : (topPt cx cy X Y R (w - y)).1 - (topPt cx cy X Y R (w + y)).1 = 2 * (X * sin w - Y * cos w) * sin y := by
    simp only [topPt, cos_sub, cos_add, sin_sub, sin_add]; ring
  rw [e1, e2]
  simp only [abs_mul, abs_two, abs_of_nonneg hR]
  have : |sin y| * |sin y| = sin y ^ 2 := by rw [abs_mul_abs_self]; ring
  linear_combination (4 * R * |sin w| * |X * sin w - Y * cos w|) * this

/-- The exact area of the strips. -/
theorem strips_area (n : ℂ) (cx cy X Y : ℝ) {R : ℝ} (hR : 0 ≤ R) (v : ℝ) {N : ℕ} (hN : 3 ≤ N) :
    Spec.totalArea ((List.range (N / 2)).flatMap fun i : ℕ =>
        [boxOf n (topPt cx cy X Y R (v - i * (2 * π / N))) (topPt cx cy X Y R (v + (i + 1) * (2 * π / N))),
         boxOf n (topPt cx cy X Y R (v + (i + 1) * (2 * π / N))) (topPt cx cy X Y R (v - ((i + 1 : ℕ) : ℝ) * (2 * π / N)))])
      = R * N * (|sin (v + 2 * π / N / 2)| * |X * sin (v + 2 * π / N / 2) - Y * cos (v + 2 * π / N / 2)|
        + |sin v| * |X * sin v - Y * cos v|) := by
  obtain ⟨h1, h2⟩ := sum_sin_sq hN
  set δ : ℝ := 2 * π / N with hδ
  rw [totalArea_flatMap]
  have : ∀ i : ℕ, Spec.totalArea [boxOf n (topPt cx cy X Y R (v - i * δ)) (topPt cx cy X Y R (v + (i + 1) * δ)),
         boxOf n (topPt cx cy X Y R (v + (i + 1) * δ)) (topPt cx cy X Y R (v - ((i + 1 : ℕ) : ℝ) * δ))]
      = 4 * R * |sin (v + δ / 2)| * |X * sin (v + δ / 2) - Y * cos (v + δ / 2)| * sin (i * δ + δ / 2) ^ 2
        + 4 * R * |sin v| * |X * sin v - Y * cos v| * sin ((i + 1) * δ) ^ 2 := by
    intro i
    simp only [Spec.totalArea, List.map_cons, List.map_nil, List.sum_cons, List.sum_nil, add_zero, boxOf_area]
    have a1 := topPt_area n cx cy X Y hR (w := v + δ / 2) (i * δ + δ / 2)
    have e1 : v + δ / 2 - (i * δ + δ / 2) = v - i * δ := by ring
    have e2 : v + δ / 2 + (i * δ + δ / 2) = v + (i + 1) * δ := by ring
    rw [e1, e2] at a1
    have a2 := topPt_area n cx cy X Y hR (w := v) ((i + 1) * δ)
    rw [abs_sub_comm (topPt cx cy X Y R (v - (i + 1) * δ)).2, abs_sub_comm (topPt cx cy X Y R (v - (i + 1) * δ)).1] at a2
    push_cast
    rw [a1, a2]
  rw [Finset.sum_congr rfl fun i _ => this i, Finset.sum_add_distrib, ← Finset.mul_sum, ← Finset.mul_sum, h1, h2]
  ring

/-- One term of the area against its limit. -/
theorem area_term {X Y x : ℝ} (hx : |x| ≤ π / 3) :
    abs (|sin x| * |X * sin x - Y * cos x| - |x| * |Y|) ≤ x ^ 2 * (2 * (|X| + |Y|)) := by
  wlog h0 : 0 ≤ x generalizing x X with H
  · have := H (X := -X) (x := -x) (by rwa [abs_neg]) (by linarith)
    simpa [abs_neg, neg_sq] using this
  rw [abs_of_nonneg h0] at hx ⊢
  have hpi : x < π / 2 := by linarith [pi_pos]
  have hs0 : 0 ≤ sin x := sin_nonneg_of_nonneg_of_le_pi h0 (by linarith [pi_pos])
  have hsx : sin x ≤ x := sin_le h0
  have hcos := one_sub_sq_div_two_le_cos (x := x)
  have hcos1 := cos_le_one x
  have hc0 : 0 ≤ cos x := cos_nonneg_of_neg_pi_div_two_le_of_le (by linarith) hpi.le
  have hxs : x - sin x ≤ x ^ 3 / 2 := by
    rcases h0.eq_or_lt with h | h
    · rw [← h]; simp
    · have h1 := lt_tan h hpi
      have hcp : 0 < cos x := cos_pos_of_mem_Ioo ⟨by linarith, hpi⟩
      rw [tan_eq_sin_div_cos, lt_div_iff₀ hcp] at h1
      nlinarith
  rw [abs_of_nonneg hs0]
  have hA1 : |X * sin x - Y * cos x| ≤ |X| * x + |Y| := by
    calc |X * sin x - Y * cos x| ≤ |X * sin x| + |Y * cos x| := abs_sub _ _
      _ = |X| * sin x + |Y| * cos x := by rw [abs_mul, abs_mul, abs_of_nonneg hs0, abs_of_nonneg hc0]
      _ ≤ _ := by nlinarith [abs_nonneg X, abs_nonneg Y]
  have hA2 : |Y| - |Y| * (x ^ 2 / 2) - |X| * x ≤ |X * sin x - Y * cos x| := by
    have : |Y * cos x| - |X * sin x| ≤ |X * sin x - Y * cos x| := by
      rw [abs_sub_comm]; exact abs_sub_abs_le_abs_sub _ _
    rw [abs_mul, abs_mul, abs_of_nonneg hs0, abs_of_nonneg hc0] at this
    nlinarith [abs_nonneg X, abs_nonneg Y]
  have hA0 := abs_nonneg (X * sin x - Y * cos x)
  generalize |X * sin x - Y * cos x| = A at *
  have hX := abs_nonneg X
  have hY := abs_nonneg Y
  generalize |X| = X' at *
  generalize |Y| = Y' at *
  have hx1 : x ≤ 11 / 10 := by linarith [pi_lt_d2]
  rw [abs_le]
  constructor
  · -- x Y' - sin x A ≤ (x - sin x) A + x (Y' - A)
    have b1 : (x - sin x) * A ≤ x ^ 3 / 2 * (X' * x + Y') := mul_le_mul hxs hA1 hA0 (by positivity)
    have b2 : x * (Y' - A) ≤ x * (Y' * (x ^ 2 / 2) + X' * x) := mul_le_mul_of_nonneg_left (by linarith) h0
    have b3 : x ^ 3 / 2 * (X' * x + Y') + x * (Y' * (x ^ 2 / 2) + X' * x) ≤ x ^ 2 * (2 * (X' + Y')) := by
      have c0 : x ^ 2 ≤ 2 := by nlinarith
      have c1 : x ^ 2 * X' ≤ 2 * X' := mul_le_mul_of_nonneg_right c0 hX
      have c2 : x * Y' ≤ 2 * Y' := mul_le_mul_of_nonneg_right (by linarith) hY
      nlinarith [sq_nonneg x, mul_le_mul_of_nonneg_left c1 (sq_nonneg x), mul_le_mul_of_nonneg_left c2 (sq_nonneg x)]
    linarith
  · have b1 : sin x * A ≤ x * (X' * x + Y') := mul_le_mul hsx hA1 hA0 h0
    nlinarith [mul_nonneg (sq_nonneg x) hX, mul_nonneg (sq_nonneg x) hY]

end Meent
