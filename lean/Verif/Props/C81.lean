import Verif.Lemmas.Tile
import Verif.Props.C18
import Verif.Props.C56

/-!
# C81: several periods in one cell
-/

open Matrix

namespace Meent

private theorem tetm_tile {la la' : LinAlg} {s : Settings} {u : Ucell} (hu : s.ucell = .raster u) (hnx : 0 < u.nx) (hn : s.p.n_top ≠ 0)
    (hp : s.p.use_pinv = false) {tx ty : ℕ} (htx : 0 < tx) (hty : 0 < ty) {fto' : ℕ × ℕ} (hx : Spec.SameOrders tx s.p.fto.1 fto'.1)
    (hy : Spec.SameOrders ty s.p.fto.2 fto'.2)
    (hft : s.fourier_type = 1 ∨ Spec.EnoughPixels (Spec.supercell s u tx ty fto') (Spec.tileAll tx ty u))
    {o : Out1D (2 * s.p.fto.1 + 1)} {o' : Out1D (2 * fto'.1 + 1)} (h : conv_solve la s = .ok (.tetm o))
    (h' : conv_solve la' (Spec.supercell s u tx ty fto') = .ok (.tetm o')) :
    (∀ j, o'.res.R_s j = place (tileIdx tx _ _ hx) (o.res.R_s 0)) ∧ (∀ j, o'.res.R_p j = place (tileIdx tx _ _ hx) (o.res.R_p 0)) ∧
    (∀ j, o'.res.T_s j = place (tileIdx tx _ _ hx) (o.res.T_s 0)) ∧ ∀ j, o'.res.T_p j = place (tileIdx tx _ _ hx) (o.res.T_p 0) := by
  obtain ⟨-, -, hg, -, -⟩ := conv_solve_tetm.mp h
  obtain ⟨-, -, hg', ha', -⟩ := conv_solve_tetm.mp h'
  obtain ⟨u', hu', hny, -⟩ := gratingType_zero hg
  obtain rfl : u = u' := Structure.raster.inj (hu.symm.trans hu')
  obtain ⟨-, -, -, -, -, hf'⟩ := gratingType_zero hg'
  obtain ⟨cs, hc, fs, hb⟩ := tetm_bvp hp hn h
  obtain ⟨cs', hc', hq⟩ := C49_unique la' (Spec.supercell s u tx ty fto') hp ha' hn _ h'
  obtain ⟨cs1, hc1, E⟩ := convMats_emb (la := la) hp hu (by omega) hnx htx hty hx hy hft hc'
  obtain rfl := Except.ok.inj (hc1.symm.trans hc)
  have E1 : List.Forall₂ (ConvEmb (tileIdx tx _ _ hx)) (cs'.map Conv.row) (cs1.map Conv.row) := by
    rw [List.forall₂_map_left_iff, List.forall₂_map_right_iff]
    exact E.imp fun _ _ => row_emb htx hty hf'
  obtain ⟨r', hd', k1, k2, k3, k4⟩ := tile_core1 (ty := ty) htx E1 hb
  have key := (hq r').mp ⟨_, hd'⟩
  have z : ∀ {v : Fin (2 * s.p.fto.1 + 1) → ℂ} {w : Fin (2 * fto'.1 + 1) → ℂ}, (∀ i, v i = 0) → (∀ i, w i = 0) →
      w = place (tileIdx tx _ _ hx) v := by
    intro v w hv hw
    rw [show v = 0 from funext hv, place_zero]
    exact funext hw
  rcases tetm_other hp h with ⟨h0, a1, a2⟩ | ⟨h0, a1, a2⟩ <;>
  rcases tetm_other (s := Spec.supercell s u tx ty fto') hp h' with ⟨h0', b1, b2⟩ | ⟨h0', b1, b2⟩
  · rw [if_pos h0'] at key
    exact ⟨fun j => by rw [← key.1]; exact k1 j, fun j => z (a1 0) (b1 j), fun j => by rw [← key.2]; exact k3 j, fun j => z (a2 0) (b2 j)⟩
  · exact absurd (h0.symm.trans h0') zero_ne_one
  · exact absurd (h0'.symm.trans h0) zero_ne_one
  · rw [if_neg (by rw [h0']; exact one_ne_zero)] at key
    exact ⟨fun j => z (a1 0) (b1 j), fun j => by rw [← key.1]; exact k2 j, fun j => z (a2 0) (b2 j), fun j => by rw [← key.2]; exact k4 j⟩

/-- **C81.** Describe the same structure with `tx` by `ty` periods in a cell, and keep the same orders.  The larger cell reports the
amplitudes and the efficiencies of the original one at the orders that are multiples of `tx` and `ty`, and exactly nothing at the
others.  TE/TM, conical and 2D solvers, any two eigensolvers, continuous Fourier coefficients, or discrete ones of images with pixels
enough.  The two cells are solved both by the TE/TM solver or both by the others. -/
theorem C81_supercell (la la' : LinAlg) (s : Settings) (u : Ucell) (hu : s.ucell = .raster u) (hny : 0 < u.ny) (hnx : 0 < u.nx)
    (hn : s.p.n_top ≠ 0) (hp : s.p.use_pinv = false) (ha : s.algo = .tmm) (tx ty : ℕ) (htx : 0 < tx) (hty : 0 < ty) (fto' : ℕ × ℕ)
    (hx : Spec.SameOrders tx s.p.fto.1 fto'.1) (hy : Spec.SameOrders ty s.p.fto.2 fto'.2)
    (hft : s.fourier_type = 1 ∨ Spec.EnoughPixels (Spec.supercell s u tx ty fto') (Spec.tileAll tx ty u))
    (hg : gratingType (Spec.supercell s u tx ty fto') = 0 ↔ gratingType s = 0)
    (sol : Solved s.p.fto.1 s.p.fto.2) (sol' : Solved fto'.1 fto'.2) (h : conv_solve la s = .ok sol)
    (h' : conv_solve la' (Spec.supercell s u tx ty fto') = .ok sol') : Spec.SupercellReport tx ty sol.result sol'.result := by
  have W : ∀ k j i (j' : Fin (2 * fto'.2 + 1)) (i' : Fin (2 * fto'.1 + 1)), Spec.rowOrder j' = ty * Spec.rowOrder j → Spec.colOrder i' = tx * Spec.colOrder i →
      weights (Spec.supercell s u tx ty fto') k j' i' = weights s k j i :=
    fun k j i j' i' hj hi => weights_tile (u := u) htx hty hg k hj hi
  by_cases h0 : gratingType s = 0
  · have h0' := hg.mpr h0
    obtain ⟨o, rfl⟩ : ∃ o, sol = .tetm o := by
      cases sol with
      | tetm o => exact ⟨o, rfl⟩
      | conical o => exact absurd ((conv_solve_conical.mp h).choose_spec.2.1.symm.trans h0) one_ne_zero
      | twoD o => exact absurd ((conv_solve_twoD.mp h).choose_spec.2.1.symm.trans h0) two_ne_zero
      | conicalSmm => exact (C49_unique la s hp ha hn _ h).choose_spec.2.elim
    obtain ⟨o', rfl⟩ : ∃ o, sol' = .tetm o := by
      cases sol' with
      | tetm o => exact ⟨o, rfl⟩
      | conical o => exact absurd ((conv_solve_conical.mp h').choose_spec.2.1.symm.trans h0') one_ne_zero
      | twoD o => exact absurd ((conv_solve_twoD.mp h').choose_spec.2.1.symm.trans h0') two_ne_zero
      | conicalSmm => exact (C49_unique la' (Spec.supercell s u tx ty fto') hp ha hn _ h').choose_spec.2.elim
    obtain ⟨-, -, -, -, -, hf'⟩ := gratingType_zero h0'
    have hf' : fto'.2 = 0 := hf'
    obtain ⟨k1, k2, k3, k4⟩ := tetm_tile hu hnx hn hp htx hty hx hy hft h h'
    have M : ∀ {v : Fin (2 * s.p.fto.1 + 1) → ℂ} {w : Fin (2 * fto'.1 + 1) → ℂ}, w = place (tileIdx tx _ _ hx) v →
        Spec.AtMultiples (fy := s.p.fto.2) (fy' := fto'.2) tx ty (fun _ => v) (fun _ => w) := by
      rintro v _ rfl
      refine ⟨fun j i j' i' _ hi => ?_, fun j' i' hn' => ?_⟩
      · simp only
        rw [tileIdx_of_order (h := hx) hi, place_in (tileIdx_inj htx)]
      · refine place_out _ fun hr => hn' ⟨?_, (tileIdx_range htx _).mp hr⟩
        have : Spec.rowOrder j' = 0 := by
          unfold Spec.rowOrder
          have := j'.isLt
          omega
        rw [this]
        exact dvd_zero _
    exact ⟨.some (supercell_eff ⟨M (k1 0), M (k2 0), M (k3 0), M (k4 0)⟩ W (conv_solve_eff h (x := o.res.row1 s.p.fto.2) (.inl rfl))
      (conv_solve_eff h' (x := o'.res.row1 fto'.2) (.inl rfl))), .none, .none⟩
  · have h0' : gratingType (Spec.supercell s u tx ty fto') ≠ 0 := fun e => h0 (hg.mp e)
    obtain ⟨cs, y, te, tm, hc, er, ⟨f1, d1⟩, ⟨f2, d2⟩, ⟨f3, d3⟩⟩ := solved_bvp hp ha hn h0 h
    obtain ⟨cs', y', te', tm', hc', er', q1, q2, q3⟩ := solved_unique (s := Spec.supercell s u tx ty fto') hp ha hn h0' h'
    obtain ⟨cs1, hc1, E⟩ := convMats_emb (la := la) hp hu hny hnx htx hty hx hy hft hc'
    obtain rfl := Except.ok.inj (hc1.symm.trans hc)
    have K : ∀ {ψ : ℂ} {r : SubRes (2 * s.p.fto.2 + 1) (2 * s.p.fto.1 + 1)} {r1 : SubRes (2 * fto'.2 + 1) (2 * fto'.1 + 1)} {fs},
        Spec.Diffraction s.p cs1 ψ r fs →
        (∀ r, (∃ fs, Spec.Diffraction (Spec.supercell s u tx ty fto').p cs' ψ r fs) → Spec.SameAmplitudes r r1) →
        Spec.Reports sol.result r → Spec.Reports sol'.result r1 → Spec.SupercellResult tx ty r r1 := by
      intro ψ r r1 fs hd1 hq hr hr1
      obtain ⟨r', hd', a1, a2, a3, a4⟩ := tile_core htx hty E hd1
      obtain ⟨e1, e2, e3, e4⟩ := hq r' ⟨_, hd'⟩
      rw [e1] at a1; rw [e2] at a2; rw [e3] at a3; rw [e4] at a4
      exact supercell_eff ⟨a1, a2, a3, a4⟩ W (conv_solve_eff h hr) (conv_solve_eff h' hr1)
    unfold Spec.SupercellReport
    rw [er, er']
    exact ⟨.some (K d1 q1 (by rw [er]; exact .inl rfl) (by rw [er']; exact .inl rfl)),
      .some (K d2 q2 (by rw [er]; exact .inr (.inl rfl)) (by rw [er']; exact .inr (.inl rfl))),
      .some (K d3 q3 (by rw [er]; exact .inr (.inr rfl)) (by rw [er']; exact .inr (.inr rfl)))⟩

/-! ### A concrete case -/

theorem C81.lossy_super (t : ℕ) (ht : 0 < t) (f : ℕ) :
    ∃ o, conv_solve exLA (Spec.supercell (lossySettings 0 none 1) ⟨1, 2, [fun _ j => if j = 0 then 1 - 2 * Complex.I else 2 - Complex.I]⟩ t 1 (f, 0))
      = .ok (.tetm o) := by
  have A := lossySettings_absorbing 0 none (by simp) 1
  have I := lossy_illumination 0 none (by simp) 1 0
  have T : (0 : ℝ) < t := Nat.cast_pos.mpr ht
  have G : gratingType (Spec.supercell (lossySettings 0 none 1) ⟨1, 2, [fun _ j => if j = 0 then 1 - 2 * Complex.I else 2 - Complex.I]⟩ t 1 (f, 0)) = 0 := by
    simp [gratingType, lossySettings, exParams]
  refine C56_te exLA exLA_basis _ rfl rfl
    { n_top_real := I.n_top_real, n_top_pos := I.n_top_pos, theta_real := I.theta_real, theta_lo := I.theta_lo, theta_hi := I.theta_hi
      phi_real := I.phi_real, psi_real := I.psi_real, wavelength_pos := I.wavelength_pos
      period_x_pos := mul_pos T I.period_x_pos
      period_y_pos := mul_pos (by simp) I.period_y_pos
      layers := ⟨Or.inl rfl, ?_⟩
      thickness_pos := A.thickness_pos, thickness_some := A.thickness_some
      layers_enough := by simp [lossySettings, exParams, Spec.layerCount]
      n_bot_real := A.n_bot_real, n_bot_pos := A.n_bot_pos
      not_normal := Or.inl G
      orders := fun _ => rfl } _ rfl G rfl ?_
  · intro l hl
    rw [List.mem_singleton.mp hl]
    refine ⟨fun i j => ?_, ⟨0, by simp⟩, ⟨0, by simpa using ht⟩, ?_⟩
    · simp only [Spec.OrdinaryMedium, Spec.tiled]
      split <;> simp
    · simp only [Spec.AbsorbingMedium, Spec.tiled]
      split <;> simp
  · intro l hl
    rw [List.mem_singleton.mp hl]
    refine ⟨-4, fun i j => ?_⟩
    have h1 : ((1 - 2 * Complex.I) ^ 2).im = -4 := by simp [pow_two]; norm_num
    have h2 : ((2 - Complex.I) ^ 2).im = -4 := by simp [pow_two]; norm_num
    simp only [Spec.tiled]
    split
    · exact h1
    · exact h2

theorem C81.lossy_base : ∃ o, conv_solve exLA (lossySettings 0 none 1) = .ok (.tetm o) := by
  refine C56_te exLA exLA_basis _ rfl rfl (lossySettings_absorbing 0 none (by simp) 1) _ rfl
    (by simp [gratingType, lossySettings, exParams]) rfl ?_
  intro l hl
  rw [List.mem_singleton.mp hl]
  refine ⟨-4, fun i j => ?_⟩
  have h1 : ((1 - 2 * Complex.I) ^ 2).im = -4 := by simp [pow_two]; norm_num
  have h2 : ((2 - Complex.I) ^ 2).im = -4 := by simp [pow_two]; norm_num
  dsimp only
  split
  · exact h1
  · exact h2

/-- The grating of two absorbing media in TE with the orders -1, 0 and 1, and the same with three periods in a cell and the orders
-4 to 4. -/
example : ∃ o o', conv_solve exLA (lossySettings 0 none 1) = .ok (.tetm o) ∧
    conv_solve exLA (Spec.supercell (lossySettings 0 none 1) ⟨1, 2, [fun _ j => if j = 0 then 1 - 2 * Complex.I else 2 - Complex.I]⟩ 3 1 (4, 0))
      = .ok (.tetm o') ∧
    o'.res.de_ri 0 1 = o.res.de_ri 0 0 ∧ o'.res.de_ri 0 2 = 0 := by
  obtain ⟨o', h'⟩ := C81.lossy_super 3 (by norm_num) 4
  obtain ⟨o, h⟩ := C81.lossy_base
  have R := C81_supercell exLA exLA (lossySettings 0 none 1) _ rfl (by norm_num) (by norm_num) (by simp [lossySettings, exParams]) rfl rfl
    3 1 (by norm_num) (by norm_num) (4, 0) (by simp [Spec.SameOrders, lossySettings]) (by simp [Spec.SameOrders, lossySettings]) (.inl rfl)
    (by simp [gratingType, lossySettings, exParams]) _ _ h h'
  obtain ⟨⟨R⟩, -, -⟩ := R
  refine ⟨o, o', h, h', R.de_ri.1 0 0 0 1 (by simp [Spec.rowOrder, lossySettings]) (by simp [Spec.colOrder, lossySettings]), R.de_ri.2 0 2 ?_⟩
  rintro ⟨-, h⟩
  revert h
  simp only [Spec.colOrder]
  decide

/-- An absorbing film with image of `ny` by `nx` pixels. -/
noncomputable def C81.film (pol : ℝ) (ft : ℤ) (fto : ℕ × ℕ) (period : ℝ × ℝ) (ny nx : ℕ) : Settings where
  p := { exParams pol (some 0) with fto := fto, period := period }
  ucell := .raster (Spec.homogeneousRaster ny nx [2 - Complex.I])
  fourier_type := ft
  enhanced_dfs := false
  algo := .tmm

theorem C81.film_solves (pol : ℝ) (fto : ℕ × ℕ) (a b ny nx : ℕ) (ha : a % 2 = 1) (hb : 0 < b) (hy : 1 < ny) (hx : 0 < nx) :
    ∃ sol, conv_solve exLA (C81.film pol 0 fto (a * 1, b * 1) ny nx) = .ok sol := by
  have ha0 : (0 : ℝ) < a := Nat.cast_pos.mpr (by omega)
  have hb0 : (0 : ℝ) < b := Nat.cast_pos.mpr hb
  have I := lossy_illumination pol (some 0) (by intro φ h; cases h; rfl) 1 1
  have A := lossySettings_absorbing pol (some 0) (Or.inr rfl) 1
  have hg : gratingType (C81.film pol 1 fto (a * 1, b * 1) ny nx) = 2 := by
    simp only [gratingType, C81.film, Spec.homogeneousRaster, if_neg hy.ne']
  obtain ⟨sol, h⟩ := C56_films exLA exLA_basis (C81.film pol 1 fto (a * 1, b * 1) ny nx) rfl rfl
    { n_top_real := I.n_top_real, n_top_pos := I.n_top_pos, theta_real := I.theta_real, theta_lo := I.theta_lo, theta_hi := I.theta_hi
      phi_real := I.phi_real, psi_real := I.psi_real, wavelength_pos := I.wavelength_pos
      period_x_pos := mul_pos ha0 one_pos
      period_y_pos := mul_pos hb0 one_pos
      layers := ⟨Or.inl rfl, by
        intro l hl
        rw [List.mem_singleton.mp hl]
        exact ⟨fun i j => by simp [Spec.OrdinaryMedium], ⟨0, by show 0 < ny; omega⟩, ⟨0, hx⟩, by simp [Spec.AbsorbingMedium]⟩⟩
      thickness_pos := A.thickness_pos, thickness_some := A.thickness_some
      layers_enough := by simp [C81.film, exParams, Spec.layerCount, Spec.homogeneousRaster]
      n_bot_real := A.n_bot_real, n_bot_pos := A.n_bot_pos
      not_normal := Or.inr (by
        rintro ⟨m, k, -, -, h⟩
        have := h.1
        simp only [C81.film, exParams, Option.getD_some, Complex.cos_zero] at this
        rw [← Complex.ofReal_sin, Real.sin_pi_div_six] at this
        have h2 : ((1 / 2 + m / a : ℝ) : ℂ) = 0 := by
          push_cast
          push_cast at this
          rw [← this]; ring
        have h3 : (1 / 2 + m / a : ℝ) = 0 := by exact_mod_cast h2
        have h4 : (2 * m + a : ℤ) = 0 := by
          have : (2 * m + a : ℝ) = 0 := by
            field_simp at h3
            linarith
          exact_mod_cast this
        omega)
      orders := fun h => absurd (h.symm.trans hg) (by norm_num) } ny nx [2 - Complex.I] rfl
  have hne : ∀ n ∈ [2 - Complex.I], n ≠ 0 := by
    intro n hn h0
    rw [List.mem_singleton.mp hn] at h0
    have := congrArg Complex.im h0
    simp at this
  have e : convMats exLA (C81.film pol 0 fto (a * 1, b * 1) ny nx) = convMats exLA (C81.film pol 1 fto (a * 1, b * 1) ny nx) := by
    unfold convMats
    simp only [C81.film, if_true, one_ne_zero, if_false]
    rw [C18_homogeneous_discrete _ _ _ (by omega) hx _ hne, C18_homogeneous_continuous _ _ _ (by omega) hx _ hne]
  refine ⟨sol, ?_⟩
  unfold conv_solve at h ⊢
  rw [e]
  exact h

/-- An absorbing film in the 2D formulation with three by two periods in a cell, with discrete coefficients. -/
example (pol : ℝ) : ∃ sol sol', conv_solve exLA (C81.film pol 0 (1, 1) ((1 : ℕ) * 1, (1 : ℕ) * 1) 5 5) = .ok sol ∧
    conv_solve exLA (Spec.supercell (C81.film pol 0 (1, 1) ((1 : ℕ) * 1, (1 : ℕ) * 1) 5 5) (Spec.homogeneousRaster 5 5 [2 - Complex.I]) 3 2 (3, 2))
      = .ok sol' ∧ Spec.SupercellReport 3 2 sol.result sol'.result := by
  obtain ⟨sol, h⟩ := C81.film_solves pol (1, 1) 1 1 5 5 (by norm_num) (by norm_num) (by norm_num) (by norm_num)
  obtain ⟨sol', h'⟩ := C81.film_solves pol (3, 2) 3 2 10 15 (by norm_num) (by norm_num) (by norm_num) (by norm_num)
  have e : Spec.supercell (C81.film pol 0 (1, 1) ((1 : ℕ) * 1, (1 : ℕ) * 1) 5 5) (Spec.homogeneousRaster 5 5 [2 - Complex.I]) 3 2 (3, 2)
      = C81.film pol 0 (3, 2) ((3 : ℕ) * 1, (2 : ℕ) * 1) 10 15 := by
    unfold C81.film
    simp only [Nat.cast_one, one_mul]
    rfl
  have h1 : ∃ sol', conv_solve exLA (Spec.supercell (C81.film pol 0 (1, 1) ((1 : ℕ) * 1, (1 : ℕ) * 1) 5 5) (Spec.homogeneousRaster 5 5 [2 - Complex.I]) 3 2 (3, 2))
      = .ok sol' := by
    rw [e]
    exact ⟨sol', h'⟩
  obtain ⟨sol', h'⟩ := h1
  exact ⟨sol, sol', h, h', C81_supercell exLA exLA _ _ rfl (by simp [Spec.homogeneousRaster]) (by simp [Spec.homogeneousRaster])
    (by simp [C81.film, exParams]) rfl rfl 3 2
    (by norm_num) (by norm_num) (3, 2) (by simp [Spec.SameOrders, C81.film]) (by simp [Spec.SameOrders, C81.film])
    (.inr ⟨rfl, by simp [Spec.homogeneousRaster], by simp [Spec.homogeneousRaster]⟩) (by simp [gratingType, C81.film, Spec.homogeneousRaster]) sol sol' h h'⟩

end Meent

#print axioms Meent.C81_supercell
