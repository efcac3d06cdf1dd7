import Verif.Lemmas.EllipseGeom
import Verif.Lemmas.ConvMats
import Verif.Lemmas.Jax

/-!
# C66: what an ellipse instruction draws

* `C66_strips`: with at least three samples of the contour, none of them exactly at the top of the ellipse, the boxes are strips
  stacked from the highest to the lowest sample.
* `C66_boxes`: every box is the box of two points of the contour and has the given index.
* `C66_area`, `C66_area_tendsto`: their total area tends to that of the ellipse.
* `C66_top_negation`: if a sample is exactly at the top, the ellipse is not drawn at all.
* `C66_default_negation`: with the default number of samples the call fails, or on JAX draws nothing.
* `C66_samples`: different numbers of samples for the two axes are refused.
-/

open Real

namespace Meent

/-- **C66, strips.**  No gap and no overlap between the strips, which reach from the highest to the lowest sample. -/
theorem C66_strips {cx cy lx ly : ℝ} (hx : 0 < lx) (hy : 0 < ly) (n : ℂ) (angle : ℝ) {N : ℕ} (hN : 3 ≤ N)
    (htop : ∀ k < N, ¬ Spec.EllipseTop cx cy lx ly angle (Spec.sample N k)) :
    ∃ os top bottom, ellipse cx cy lx ly n angle (N + 1) (N + 1) = .ok os ∧ Spec.Highest cx cy lx ly angle N top ∧
      Spec.Lowest cx cy lx ly angle N bottom ∧ Spec.StackedDown top os bottom := by
  obtain ⟨R, X, Y, t0, ε, v, hR, -, -, -, hf, hv1, hv2, hk1, hk2, -, hE⟩ := ellipse_form (cx := cx) (cy := cy) hx hy n angle
    (nw := N + 1) (by omega)
  simp only [Nat.add_sub_cancel] at *
  have hN' : (3 : ℝ) ≤ N := by exact_mod_cast hN
  have hv0 : v < 0 := by
    refine hv2.lt_of_ne fun h => ?_
    obtain ⟨k, hk, e⟩ := hk1 0
    refine htop k hk fun t' => ?_
    rw [e, hf, h]
    simp only [topPt, Int.cast_zero, zero_mul, add_zero, cos_zero, mul_one]
    nlinarith [cos_le_one (ε * (t' - t0))]
  set δ : ℝ := 2 * π / N with hδ
  have hNδ : N * δ = 2 * π := by rw [hδ]; field_simp
  have hδ0 : 0 < δ := by positivity
  have habs : |v| ≤ δ / 2 := abs_le.mpr ⟨hv1, by linarith⟩
  have hsv : sin v ≤ 0 := sin_nonpos_of_nonpos_of_neg_pi_le hv0.le (by nlinarith [pi_pos])
  have hsw : 0 ≤ sin (v + δ / 2) := sin_nonneg_of_nonneg_of_le_pi (by linarith) (by nlinarith [pi_pos])
  have hm : ∀ i < N / 2, ((i : ℝ) + 1) * δ ≤ π := by
    intro i hi
    have : (2 : ℝ) * (i + 1) ≤ N := by
      have : 2 * (i + 1) ≤ N := by omega
      exact_mod_cast this
    nlinarith
  refine ⟨_, (topPt cx cy X Y R v).2, (topPt cx cy X Y R (v - ((N / 2 : ℕ) : ℝ) * δ)).2, hE hv0, ?_, ?_, ?_⟩
  · constructor
    · obtain ⟨k, hk, e⟩ := hk1 0
      exact ⟨k, hk, by rw [e]; simp⟩
    · intro k hk
      obtain ⟨z, e⟩ := hk2 k hk
      rw [e]
      have := near_top_max (N := N) (by omega) habs z
      simp only [topPt]
      nlinarith
  · constructor
    · obtain ⟨k, hk, e⟩ := hk1 (-((N / 2 : ℕ) : ℤ))
      refine ⟨k, hk, ?_⟩
      rw [e]
      congr 2
      rw [Int.cast_neg, Int.cast_natCast]
      ring
    · intro k hk
      obtain ⟨z, e⟩ := hk2 k hk
      rw [e]
      simp only [topPt]
      have : cos (v - ((N / 2 : ℕ) : ℝ) * δ) ≤ cos (v + z * δ) := by
        rcases Nat.even_or_odd N with ⟨m, hm⟩ | ⟨m, hm⟩
        · have e1 : N / 2 = m := by omega
          have e2 : (m : ℝ) * δ = π := by
            have : (N : ℝ) = 2 * m := by rw [hm]; push_cast; ring
            rw [this] at hNδ
            linarith
          have h1 := near_top_max (N := N) (by omega) habs (z + m)
          have e3 : v + ((z + m : ℤ) : ℝ) * (2 * π / N) = v + z * δ + π := by
            rw [← hδ, ← e2]; push_cast; ring
          rw [e3, cos_add_pi] at h1
          rw [e1, e2, cos_sub_pi]
          linarith
        · have e1 : N / 2 = m := by omega
          have e2 : (m : ℝ) * δ = π - δ / 2 := by
            have : (N : ℝ) = 2 * m + 1 := by rw [hm]; push_cast; ring
            rw [this] at hNδ
            linarith
          have hw : |v + δ / 2| ≤ 2 * π / N / 2 := abs_le.mpr ⟨by rw [← hδ]; linarith, by rw [← hδ]; linarith⟩
          have h1 := near_top_max (N := N) (by omega) hw (z + m)
          have e3 : v + δ / 2 + ((z + m : ℤ) : ℝ) * (2 * π / N) = v + z * δ + π := by
            rw [← hδ]; push_cast; linear_combination e2
          rw [e3, cos_add_pi] at h1
          have e4 : v - (π - δ / 2) = v + δ / 2 - π := by ring
          rw [e1, e2, e4, cos_sub_pi]
          linarith
      nlinarith
  · have h := stackedDown_zigzag n (N / 2) (fun i => topPt cx cy X Y R (v - i * δ)) (fun i => topPt cx cy X Y R (v + (i + 1) * δ)) ?_ ?_
    · simpa using h
    · intro i hi
      have h1 := cos_zag v δ (i * δ)
      have h2 : 0 ≤ sin (i * δ + δ / 2) := sin_nonneg_of_nonneg_of_le_pi (by positivity) (by nlinarith [hm i hi])
      have e1 : v + (i * δ + δ) = v + (i + 1) * δ := by ring
      rw [e1] at h1
      have := mul_nonneg hsw h2
      simp only [topPt]
      nlinarith
    · intro i hi
      have h1 := cos_zig v ((i + 1) * δ)
      have h2 : 0 ≤ sin ((i + 1) * δ) := sin_nonneg_of_nonneg_of_le_pi (by positivity) (hm i hi)
      have := mul_nonneg (neg_nonneg.mpr hsv) h2
      simp only [topPt]
      push_cast
      nlinarith

/-- **C66, boxes.**  Each box is that of two points of the curve, with the index of the instruction. -/
theorem C66_boxes {cx cy lx ly : ℝ} (hx : 0 < lx) (hy : 0 < ly) (n : ℂ) (angle : ℝ) {N : ℕ} (hN : 3 ≤ N)
    (htop : ∀ k < N, ¬ Spec.EllipseTop cx cy lx ly angle (Spec.sample N k))
    (os : List VObj) (hos : ellipse cx cy lx ly n angle (N + 1) (N + 1) = .ok os) :
    os.length = 2 * (N / 2) ∧ ∀ o ∈ os, o.n = n ∧ ∃ j < N, ∃ k < N, Spec.BoxOf o (Spec.ellipseCurve cx cy lx ly angle (Spec.sample N j))
      (Spec.ellipseCurve cx cy lx ly angle (Spec.sample N k)) := by
  obtain ⟨R, X, Y, t0, ε, v, hR, -, -, -, hf, hv1, hv2, hk1, hk2, -, hE⟩ := ellipse_form (cx := cx) (cy := cy) hx hy n angle
    (nw := N + 1) (by omega)
  simp only [Nat.add_sub_cancel] at *
  have hv0 : v < 0 := by
    refine hv2.lt_of_ne fun h => ?_
    obtain ⟨k, hk, e⟩ := hk1 0
    refine htop k hk fun t' => ?_
    rw [e, hf, h]
    simp only [topPt, Int.cast_zero, zero_mul, add_zero, cos_zero, mul_one]
    nlinarith [cos_le_one (ε * (t' - t0))]
  rw [hE hv0] at hos
  obtain rfl := Except.ok.inj hos
  refine ⟨by simp [List.length_flatMap, mul_comm], fun o ho => ?_⟩
  obtain ⟨i, -, ho⟩ := List.mem_flatMap.mp ho
  have key : ∀ x : ℝ, (∃ z : ℤ, x = v + z * (2 * π / N)) →
      ∃ k < N, topPt cx cy X Y R x = Spec.ellipseCurve cx cy lx ly angle (Spec.sample N k) := by
    rintro x ⟨z, rfl⟩
    obtain ⟨k, hk, e⟩ := hk1 z
    exact ⟨k, hk, e.symm⟩
  obtain ⟨a, ha, ea⟩ := key (v - i * (2 * π / N)) ⟨-i, by push_cast; ring⟩
  obtain ⟨b, hb, eb⟩ := key (v + (i + 1) * (2 * π / N)) ⟨i + 1, by push_cast; ring⟩
  obtain ⟨c, hc, ec⟩ := key (v - ((i + 1 : ℕ) : ℝ) * (2 * π / N)) ⟨-(i + 1), by push_cast; ring⟩
  rw [ea, eb, ec] at ho
  rcases List.mem_cons.mp ho with rfl | ho
  · exact ⟨rfl, a, ha, b, hb, rfl, rfl, rfl, rfl⟩
  · obtain rfl := List.mem_singleton.mp ho
    exact ⟨rfl, b, hb, c, hc, rfl, rfl, rfl, rfl⟩

/-- **C66, area.**  The total area of the strips differs from that of the ellipse, `π lx ly / 4`, by at most a constant over
the number of samples. -/
theorem C66_area {cx cy lx ly : ℝ} (hx : 0 < lx) (hy : 0 < ly) (n : ℂ) (angle : ℝ) {N : ℕ} (hN : 3 ≤ N)
    (htop : ∀ k < N, ¬ Spec.EllipseTop cx cy lx ly angle (Spec.sample N k))
    (os : List VObj) (hos : ellipse cx cy lx ly n angle (N + 1) (N + 1) = .ok os) :
    |Spec.totalArea os - π * lx * ly / 4| ≤ π ^ 2 * (lx ^ 2 + ly ^ 2) / (2 * N) := by
  obtain ⟨R, X, Y, t0, ε, v, hR, hRY, hXY, -, hf, hv1, hv2, hk1, hk2, -, hE⟩ := ellipse_form (cx := cx) (cy := cy) hx hy n angle
    (nw := N + 1) (by omega)
  simp only [Nat.add_sub_cancel] at *
  have hv0 : v < 0 := by
    refine hv2.lt_of_ne fun h => ?_
    obtain ⟨k, hk, e⟩ := hk1 0
    refine htop k hk fun t' => ?_
    rw [e, hf, h]
    simp only [topPt, Int.cast_zero, zero_mul, add_zero, cos_zero, mul_one]
    nlinarith [cos_le_one (ε * (t' - t0))]
  rw [hE hv0] at hos
  obtain rfl := Except.ok.inj hos
  rw [strips_area n cx cy X Y hR.le v hN]
  have hN' : (3 : ℝ) ≤ N := by exact_mod_cast hN
  set δ : ℝ := 2 * π / N with hδ
  have hNδ : N * δ = 2 * π := by rw [hδ]; field_simp
  have hδ0 : 0 < δ := by positivity
  have hδ3 : δ / 2 ≤ π / 3 := by nlinarith [pi_pos]
  have t1 := area_term (X := X) (Y := Y) (x := v + δ / 2) (abs_le.mpr ⟨by linarith [pi_pos], by linarith⟩)
  have t2 := area_term (X := X) (Y := Y) (x := v) (abs_le.mpr ⟨by linarith, by linarith [pi_pos]⟩)
  rw [abs_of_nonneg (a := v + δ / 2) (by linarith)] at t1
  rw [abs_of_neg hv0] at t2
  generalize |sin (v + δ / 2)| * |X * sin (v + δ / 2) - Y * cos (v + δ / 2)| = A1 at *
  generalize |sin v| * |X * sin v - Y * cos v| = A2 at *
  have e : π * lx * ly / 4 = R * N * ((v + δ / 2) * |Y| + -v * |Y|) := by
    linear_combination (-π) * hRY - R * |Y| / 2 * hNδ
  have hsum : abs (A1 + A2 - ((v + δ / 2) * |Y| + -v * |Y|)) ≤ ((v + δ / 2) ^ 2 + v ^ 2) * (2 * (|X| + |Y|)) := by
    have h1 := abs_le.mp t1
    have h2 := abs_le.mp t2
    rw [abs_le]
    constructor <;> nlinarith
  rw [e, ← mul_sub, abs_mul, abs_of_nonneg (by positivity)]
  have hsq : (v + δ / 2) ^ 2 + v ^ 2 ≤ δ ^ 2 / 4 := by nlinarith
  have hRX : R * (|X| + |Y|) ≤ (lx ^ 2 + ly ^ 2) / 4 := by
    have h1 : R * |X| ≤ (R ^ 2 + X ^ 2 + Y ^ 2) / 2 := by
      nlinarith [sq_nonneg (R - |X|), sq_abs X, sq_nonneg Y]
    have h2 : R * |Y| ≤ (lx ^ 2 + ly ^ 2) / 8 := by rw [hRY]; nlinarith [sq_nonneg (lx - ly)]
    rw [hXY] at h1
    nlinarith
  have hRX0 : 0 ≤ R * (|X| + |Y|) := by positivity
  calc R * N * abs (A1 + A2 - ((v + δ / 2) * |Y| + -v * |Y|))
      ≤ R * N * (((v + δ / 2) ^ 2 + v ^ 2) * (2 * (|X| + |Y|))) := mul_le_mul_of_nonneg_left hsum (by positivity)
    _ = 2 * N * (R * (|X| + |Y|)) * ((v + δ / 2) ^ 2 + v ^ 2) := by ring
    _ ≤ 2 * N * (R * (|X| + |Y|)) * (δ ^ 2 / 4) := mul_le_mul_of_nonneg_left hsq (by positivity)
    _ = π * δ * (R * (|X| + |Y|)) := by linear_combination (δ * (R * (|X| + |Y|)) / 2) * hNδ
    _ ≤ π * δ * ((lx ^ 2 + ly ^ 2) / 4) := mul_le_mul_of_nonneg_left hRX (by positivity)
    _ = π ^ 2 * (lx ^ 2 + ly ^ 2) / (2 * N) := by rw [hδ]; field_simp; ring

/-- **C66, limit of the area.**  With more and more samples the area drawn tends to that of the ellipse. -/
theorem C66_area_tendsto {cx cy lx ly : ℝ} (hx : 0 < lx) (hy : 0 < ly) (n : ℂ) (angle : ℝ) {ε : ℝ} (hε : 0 < ε) :
    ∃ N₀, ∀ N ≥ N₀, (∀ k < N, ¬ Spec.EllipseTop cx cy lx ly angle (Spec.sample N k)) →
      ∃ os, ellipse cx cy lx ly n angle (N + 1) (N + 1) = .ok os ∧ |Spec.totalArea os - π * lx * ly / 4| < ε := by
  obtain ⟨m, hm⟩ := exists_nat_gt (π ^ 2 * (lx ^ 2 + ly ^ 2) / (2 * ε))
  refine ⟨max 3 m, fun N hN htop => ?_⟩
  have h3 : 3 ≤ N := le_trans (le_max_left _ _) hN
  have hmN : (m : ℝ) ≤ N := by exact_mod_cast le_trans (le_max_right _ _) hN
  obtain ⟨os, top, bottom, h, -⟩ := C66_strips (cx := cx) (cy := cy) hx hy n angle h3 htop
  refine ⟨os, h, (C66_area hx hy n angle h3 htop os h).trans_lt ?_⟩
  have hN' : (3 : ℝ) ≤ N := by exact_mod_cast h3
  rw [div_lt_iff₀ (by positivity)] at hm ⊢
  nlinarith

/-- **C66, violated when a sample is exactly at the top.**  Then its two neighbours have the same height, neither branch of the
code stores the points, and all boxes are the single point at the origin: nothing of the ellipse is drawn. -/
theorem C66_top_negation {cx cy lx ly : ℝ} (hx : 0 < lx) (hy : 0 < ly) (n : ℂ) (angle : ℝ) {N : ℕ} (hN : 3 ≤ N)
    (htop : ∃ k < N, Spec.EllipseTop cx cy lx ly angle (Spec.sample N k)) :
    ∃ os, ellipse cx cy lx ly n angle (N + 1) (N + 1) = .ok os ∧ os.length = 2 * (N / 2) - 1 ∧
      (∀ o ∈ os, o.r0 = 0 ∧ o.r1 = 0 ∧ o.c0 = 0 ∧ o.c1 = 0) ∧ Spec.totalArea os = 0 := by
  obtain ⟨R, X, Y, t0, ε, v, hR, -, -, hε, hf, hv1, hv2, hk1, hk2, hE, -⟩ := ellipse_form (cx := cx) (cy := cy) hx hy n angle
    (nw := N + 1) (by omega)
  simp only [Nat.add_sub_cancel] at *
  have hN' : (3 : ℝ) ≤ N := by exact_mod_cast hN
  have hv0 : v = 0 := by
    obtain ⟨k, hk, ht⟩ := htop
    obtain ⟨z, e⟩ := hk2 k hk
    have h1 := ht t0
    rw [e, hf] at h1
    simp only [topPt, sub_self, mul_zero, cos_zero, mul_one] at h1
    have h2 := near_top_max (N := N) (by omega) (v := v) (abs_le.mpr ⟨hv1, by
      have : 0 < 2 * π / N / 2 := by positivity
      linarith⟩) z
    have h3 : cos v = 1 := le_antisymm (cos_le_one v) (by nlinarith)
    have hlt : 2 * π / N ≤ 2 * π := div_le_self two_pi_pos.le (by linarith)
    exact (cos_eq_one_iff_of_lt_of_lt (by linarith [pi_pos]) (by linarith [pi_pos])).mp h3
  have hall : ∀ m : ℕ, pairBoxes n (List.replicate (m + 1) ((0, 0) : Pt)) = List.replicate m ⟨0, 0, 0, 0, n⟩ := by
    intro m
    induction m with
    | zero => rfl
    | succ m ih =>
      rw [List.replicate_succ, List.replicate_succ, pairBoxes, ← List.replicate_succ, ih, List.replicate_succ]
      simp
  obtain ⟨m, hm⟩ : ∃ m, 2 * (N / 2) = m + 1 := ⟨2 * (N / 2) - 1, by omega⟩
  refine ⟨_, hE hv0, ?_, ?_, ?_⟩
  · rw [hm, hall]; simp
  · rw [hm, hall]
    intro o ho
    obtain rfl := List.eq_of_mem_replicate ho
    exact ⟨rfl, rfl, rfl, rfl⟩
  · rw [hm, hall]
    simp [Spec.totalArea]

/-- **C66, the most common case of it.**  An ellipse that is not turned is missing whenever the number of samples is a multiple
of four. -/
theorem C66_unturned_negation {cx cy lx ly : ℝ} (hx : 0 < lx) (hy : 0 < ly) (n : ℂ) {m : ℕ} (hm : 0 < m) :
    ∃ os, ellipse cx cy lx ly n 0 (4 * m + 1) (4 * m + 1) = .ok os ∧ Spec.totalArea os = 0 := by
  obtain ⟨os, h, -, -, h0⟩ := C66_top_negation (cx := cx) (cy := cy) hx hy n 0 (N := 4 * m) (by omega)
    ⟨3 * m, by omega, fun t' => by
      have e : Spec.sample (4 * m) (3 * m) = π / 2 := by
        unfold Spec.sample
        push_cast
        field_simp
        ring
      rw [e]
      simp only [Spec.ellipseCurve, sin_zero, cos_zero, mul_zero, mul_one, add_zero, sin_pi_div_two]
      nlinarith [sin_le_one t']⟩
  exact ⟨os, h, h0⟩

/-- **C66, violated by the default number of samples.**  `n_split_w = n_split_h = 2` raises, whatever the ellipse; JAX, where
reading past the end gives the last entry, returns no boxes. -/
theorem C66_default_negation (cx cy lx ly : ℝ) (n : ℂ) (angle : ℝ) :
    ellipse cx cy lx ly n angle 2 2 = .error .indexError ∧
      ∀ env : Jax.Env, (∀ (l : List Pt) (i : ℕ) (a : Pt), l.getLast? = some a → env.oob l i = .ok a) →
        Jax.ellipse env cx cy lx ly n angle 2 2 = .ok [] := by
  have a1 : ∀ p : ℕ → Pt, argmaxY (2 - 1) p = some 0 := by
    intro p
    obtain ⟨h, e⟩ := argmaxY_isSome (N := 2 - 1) (by omega) p
    have := argmaxY_lt e
    rw [e]
    congr 1
    omega
  constructor
  · unfold ellipse
    rw [if_neg (by simp)]
    dsimp only
    rw [a1]
    dsimp only
    rw [a1]
    simp
  · intro env henv
    unfold Jax.ellipse
    rw [if_neg (by simp)]
    dsimp only
    rw [a1]
    dsimp only
    rw [a1]
    dsimp only
    rw [if_neg (by simp), henv _ _ (rollTo (2 - 1) 0 (ellipsePt cx cy lx ly angle 2) 0) (by simp [List.range_succ])]
    simp [ellipseArr, pairBoxes, bind, Except.bind]

/-- **C66, violated by three samples per turn, the last being the first again.**  NumPy and PyTorch raise, or all boxes are the
point at the origin. -/
theorem C66_two_negation (cx cy lx ly : ℝ) (n : ℂ) (angle : ℝ) :
    ellipse cx cy lx ly n angle 3 3 = .error .indexError ∨ ∃ o, ellipse cx cy lx ly n angle 3 3 = .ok [o] ∧
      o.r0 = 0 ∧ o.r1 = 0 ∧ o.c0 = 0 ∧ o.c1 = 0 := by
  obtain ⟨h0, e0⟩ := argmaxY_isSome (N := 3 - 1) (by omega) (ellipsePt cx cy lx ly angle 3)
  obtain ⟨h, e⟩ := argmaxY_isSome (N := 3 - 1) (by omega) (rollTo (3 - 1) h0 (ellipsePt cx cy lx ly angle 3))
  have hlt := argmaxY_lt e
  unfold ellipse
  rw [if_neg (by simp)]
  dsimp only
  rw [e0]
  dsimp only
  rw [e]
  dsimp only
  by_cases hh : h + 1 < 3 - 1
  · right
    have h00 : h = 0 := by omega
    subst h00
    rw [if_pos hh]
    exact ⟨⟨0, 0, 0, 0, n⟩, by simp [ellipseArr, pairBoxes], rfl, rfl, rfl, rfl⟩
  · left
    rw [if_neg hh]

/-- **C66, numbers of samples.**  They must be equal, and one is too few. -/
theorem C66_samples (cx cy lx ly : ℝ) (n : ℂ) (angle : ℝ) {nw nh : ℕ} (hw : 1 ≤ nw) (hh : 1 ≤ nh) (hne : nw ≠ nh ∨ nw = 1) :
    ellipse cx cy lx ly n angle nw nh = .error .valueError ∧ ∀ env, ∃ e, Jax.ellipse env cx cy lx ly n angle nw nh = .error e := by
  have a1 : ∀ p : ℕ → Pt, argmaxY (1 - 1) p = none := fun p => by simp [argmaxY]
  by_cases h : nw - 1 ≠ nh - 1
  · refine ⟨by unfold ellipse; rw [if_pos h], fun env => ⟨.typeError, by unfold Jax.ellipse; rw [if_pos h]⟩⟩
  · have h1 : nw = 1 := by omega
    subst h1
    refine ⟨?_, fun env => ⟨.valueError, ?_⟩⟩
    · unfold ellipse
      rw [if_neg h]
      dsimp only
      rw [a1]
    · unfold Jax.ellipse
      rw [if_neg h]
      dsimp only
      rw [a1]

/-- **C66 on JAX.**  With at least three samples of the contour JAX draws the same boxes. -/
theorem C66_jax (env : Jax.Env) (cx cy lx ly : ℝ) (n : ℂ) (angle : ℝ) {N : ℕ} (hN : 3 ≤ N) :
    Jax.ellipse env cx cy lx ly n angle (N + 1) (N + 1) = ellipse cx cy lx ly n angle (N + 1) (N + 1) := by
  obtain ⟨h0, h, e0, e, hk, hE⟩ := ellipse_run cx cy lx ly n angle (nw := N + 1) (by omega)
  rw [hE]
  exact Jax.refines_ellipse env cx cy lx ly n angle (N + 1) (N + 1) _ hE

/-- An ellipse that is not turned, with three samples, meets the hypotheses: no sample is at the top. -/
example : ∃ os top bottom, ellipse 3 3 2 1 (3 / 2) 0 4 4 = .ok os ∧ Spec.Highest 3 3 2 1 0 3 top ∧
    Spec.Lowest 3 3 2 1 0 3 bottom ∧ Spec.StackedDown top os bottom := by
  refine C66_strips two_pos one_pos (3 / 2) 0 (N := 3) le_rfl fun k hk h => ?_
  have h1 := h (π / 2)
  simp only [Spec.ellipseCurve, sin_zero, cos_zero, mul_zero, mul_one, add_zero, sin_pi_div_two] at h1
  have h2 : sin (Spec.sample 3 k) = 1 := le_antisymm (sin_le_one _) (by linarith)
  have h3 : k = 0 ∨ k = 1 ∨ k = 2 := by omega
  unfold Spec.sample at h2
  rcases h3 with rfl | rfl | rfl
  · simp at h2
  · have e : -π + 2 * π * ((1 : ℕ) : ℝ) / ((3 : ℕ) : ℝ) = -(π / 3) := by push_cast; ring
    rw [e, sin_neg, sin_pi_div_three] at h2
    nlinarith [sqrt_nonneg 3]
  · have e : -π + 2 * π * ((2 : ℕ) : ℝ) / ((3 : ℕ) : ℝ) = π / 3 := by push_cast; ring
    rw [e, sin_pi_div_three] at h2
    nlinarith [sq_sqrt (show (0 : ℝ) ≤ 3 by norm_num), sqrt_nonneg 3]

/-- The same ellipse with four samples is not drawn. -/
example : ∃ os, ellipse 3 3 2 1 (3 / 2) 0 5 5 = .ok os ∧ Spec.totalArea os = 0 :=
  C66_unturned_negation (m := 1) two_pos one_pos (3 / 2) one_pos

#print axioms C66_strips
#print axioms C66_boxes
#print axioms C66_area
#print axioms C66_area_tendsto
#print axioms C66_top_negation
#print axioms C66_unturned_negation
#print axioms C66_default_negation
#print axioms C66_two_negation
#print axioms C66_samples
#print axioms C66_jax

end Meent
