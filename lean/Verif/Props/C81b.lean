import Verif.Props.C69
import Verif.Props.C72
import Verif.Props.C81

/-!
# C81: several periods in one cell on JAX and PyTorch
-/

namespace Meent

private theorem supercell_ready {s : Settings} {u : Ucell} (hu : s.ucell = .raster u) {tx ty : ℕ} (htx : 0 < tx) (hty : 0 < ty) (fto' : ℕ × ℕ)
    (hr : Spec.JaxReady s) : Spec.JaxReady (Spec.supercell s u tx ty fto') where
  pixels := fun v hv => by cases hv; exact ⟨Nat.mul_pos hty (hr.pixels u hu).1, Nat.mul_pos htx (hr.pixels u hu).2⟩
  ellipses := fun ls h => by cases h
  layers := by have := hr.layers; rw [hu] at this; simpa [Spec.layerCount] using this

private theorem supercellEff_of_same {tx ty fx fy fx' fy' : ℕ} {r r₁ : SubRes (2 * fy + 1) (2 * fx + 1)} {r' r₁' : SubRes (2 * fy' + 1) (2 * fx' + 1)}
    (h : Spec.SupercellEff tx ty r r') (e : Spec.SameEff r r₁) (e' : Spec.SameEff r' r₁') : Spec.SupercellEff tx ty r₁ r₁' := by
  constructor
  · rw [e.de_ri_s, e'.de_ri_s]; exact h.de_ri_s
  · rw [e.de_ri_p, e'.de_ri_p]; exact h.de_ri_p
  · rw [e.de_ri, e'.de_ri]; exact h.de_ri
  · rw [e.de_ti_s, e'.de_ti_s]; exact h.de_ti_s
  · rw [e.de_ti_p, e'.de_ti_p]; exact h.de_ti_p
  · rw [e.de_ti, e'.de_ti]; exact h.de_ti

private theorem supercellRel_of_same {tx ty fx fy fx' fy' : ℕ} {r r₁ : Option (SubRes (2 * fy + 1) (2 * fx + 1))}
    {r' r₁' : Option (SubRes (2 * fy' + 1) (2 * fx' + 1))} (h : Option.Rel (Spec.SupercellResult tx ty) r r')
    (e : Option.Rel Spec.SameEff r r₁) (e' : Option.Rel Spec.SameEff r' r₁') : Option.Rel (Spec.SupercellEff tx ty) r₁ r₁' := by
  cases h with
  | none => cases e; cases e'; exact .none
  | some h =>
    cases e with
    | some e => cases e' with
      | some e' => exact .some (supercellEff_of_same h.toSupercellEff e e')

/-- **C81, JAX.** `C81_supercell` holds for JAX solves. -/
theorem C81_jax (env env' : Jax.Env) (s : Settings) (hr : Spec.JaxReady s) (u : Ucell) (hu : s.ucell = .raster u)
    (hn : s.p.n_top ≠ 0) (hp : s.p.use_pinv = false) (ha : s.algo = .tmm) (tx ty : ℕ) (htx : 0 < tx) (hty : 0 < ty) (fto' : ℕ × ℕ)
    (hx : Spec.SameOrders tx s.p.fto.1 fto'.1) (hy : Spec.SameOrders ty s.p.fto.2 fto'.2)
    (hft : s.fourier_type = 1 ∨ Spec.EnoughPixels (Spec.supercell s u tx ty fto') (Spec.tileAll tx ty u))
    (hg : gratingType (Spec.supercell s u tx ty fto') = 0 ↔ gratingType s = 0)
    (sol : Solved s.p.fto.1 s.p.fto.2) (sol' : Solved fto'.1 fto'.2) (h : Jax.conv_solve env s = .ok sol)
    (h' : Jax.conv_solve env' (Spec.supercell s u tx ty fto') = .ok sol') : Spec.SupercellReport tx ty sol.result sol'.result := by
  have hr' := supercell_ready hu htx hty fto' hr
  exact C81_supercell env.la env'.la s u hu (hr.pixels u hu).1 (hr.pixels u hu).2 hn hp ha tx ty htx hty fto' hx hy hft hg sol sol'
    (C57_jax_to_numpy env s hr.pixels hr.ellipses hr.layers sol h)
    (C57_jax_to_numpy env' (Spec.supercell s u tx ty fto') hr'.pixels hr'.ellipses hr'.layers sol' h')

/-- **C81, PyTorch.** For problems that NumPy solves, in 2D with modes away from zero (see C40), PyTorch solves both problems and the
larger cell has the efficiencies of the original one at the multiples, and zero elsewhere. -/
theorem C81_torch (la la' : LinAlg) (s : Settings) (u : Ucell) (hu : s.ucell = .raster u) (hny : 0 < u.ny) (hnx : 0 < u.nx)
    (hp : s.p.use_pinv = false) (ha : s.algo = .tmm) (tx ty : ℕ) (htx : 0 < tx) (hty : 0 < ty) (fto' : ℕ × ℕ)
    (hx : Spec.SameOrders tx s.p.fto.1 fto'.1) (hy : Spec.SameOrders ty s.p.fto.2 fto'.2)
    (hft : s.fourier_type = 1 ∨ Spec.EnoughPixels (Spec.supercell s u tx ty fto') (Spec.tileAll tx ty u))
    (hg : gratingType (Spec.supercell s u tx ty fto') = 0 ↔ gratingType s = 0)
    (sol : Solved s.p.fto.1 s.p.fto.2) (sol' : Solved fto'.1 fto'.2) (h : conv_solve la s = .ok sol)
    (h' : conv_solve la' (Spec.supercell s u tx ty fto') = .ok sol') (hr : Spec.TorchReady s sol)
    (hr' : Spec.TorchReady (Spec.supercell s u tx ty fto') sol') :
    ∃ (t : Solved s.p.fto.1 s.p.fto.2) (t' : Solved fto'.1 fto'.2), tConv_solve la s.torch = .ok t ∧
      tConv_solve la' (Spec.supercell s u tx ty fto').torch = .ok t' ∧ Spec.SupercellEffs tx ty t.result t'.result := by
  obtain ⟨n, t, hn, ht, e⟩ := torch_runs hr.claddings ha hr.azimuth h hr.modes
  obtain ⟨n', t', hn', ht', e'⟩ := torch_runs (s := Spec.supercell s u tx ty fto') hr'.claddings ha hr'.azimuth h' hr'.modes
  have eψ : torchPsi (Spec.supercell s u tx ty fto') s.p.psi = torchPsi s s.p.psi := by
    unfold torchPsi
    exact if_congr hg rfl rfl
  have hn' : conv_solve la' (Spec.supercell (Spec.withPsi s (torchPsi s s.p.psi)) u tx ty fto') = .ok n' := by
    have : conv_solve la' (Spec.supercell (Spec.withPsi s (torchPsi (Spec.supercell s u tx ty fto') s.p.psi)) u tx ty fto') = .ok n' := hn'
    rwa [eψ] at this
  obtain ⟨k1, k2, k3⟩ := C81_supercell la la' (Spec.withPsi s (torchPsi s s.p.psi)) u hu hny hnx
    (RealIllumination.n_top_ne (p := s.p) hr.claddings.toRealIllumination) hp ha tx ty htx hty fto' hx hy hft hg n n' hn hn'
  exact ⟨t, t', ht, ht', supercellRel_of_same k1 e.1 e'.1, supercellRel_of_same k2 e.2.1 e'.2.1, supercellRel_of_same k3 e.2.2 e'.2.2⟩

/-- The grating of C81 with three periods in a cell, on JAX with any eigensolver that returns a basis. -/
example (env : Jax.Env) (hb : Spec.ReturnsBasis env.la) : ∃ (sol : Solved 1 0) (sol' : Solved 4 0), Jax.conv_solve env (lossySettings 0 none 1) = .ok sol ∧
    Jax.conv_solve env (Spec.supercell (lossySettings 0 none 1) ⟨1, 2, [fun _ j => if j = 0 then 1 - 2 * Complex.I else 2 - Complex.I]⟩ 3 1 (4, 0))
      = .ok sol' ∧ Spec.SupercellReport 3 1 sol.result sol'.result := by
  obtain ⟨o, ho⟩ := C81.lossy_base
  obtain ⟨o', ho'⟩ := C81.lossy_super 3 (by norm_num) 4
  obtain ⟨sol, h, -⟩ := C57_other_eig exLA env hb _ rfl _ ho
  obtain ⟨sol', h', -⟩ := C57_other_eig exLA env hb _ rfl _ ho'
  exact ⟨sol, sol', h, h', C81_jax env env (lossySettings 0 none 1) ⟨fun u hu => by cases hu; exact ⟨one_pos, two_pos⟩, fun _ h => (by cases h),
      by simp [lossySettings, exParams, Spec.layerCount]⟩ _ rfl (by simp [lossySettings, exParams]) rfl rfl
    3 1 (by norm_num) (by norm_num) (4, 0) (by simp [Spec.SameOrders, lossySettings]) (by simp [Spec.SameOrders, lossySettings]) (.inl rfl)
    (by simp [gratingType, lossySettings, exParams]) _ _ h h'⟩

/-- The same on PyTorch. -/
example : ∃ (t : Solved 1 0) (t' : Solved 4 0), tConv_solve exLA (lossySettings 0 none 1).torch = .ok t ∧
    tConv_solve exLA (Spec.supercell (lossySettings 0 none 1) ⟨1, 2, [fun _ j => if j = 0 then 1 - 2 * Complex.I else 2 - Complex.I]⟩ 3 1 (4, 0)).torch
      = .ok t' ∧ Spec.SupercellEffs 3 1 t.result t'.result := by
  obtain ⟨o, ho⟩ := C81.lossy_base
  obtain ⟨o', ho'⟩ := C81.lossy_super 3 (by norm_num) 4
  have A := lossySettings_absorbing 0 none (by simp) 1
  have I := A.toRealIllumination
  exact C81_torch exLA exLA (lossySettings 0 none 1) _ rfl one_pos two_pos rfl rfl
    3 1 (by norm_num) (by norm_num) (4, 0) (by simp [Spec.SameOrders, lossySettings]) (by simp [Spec.SameOrders, lossySettings]) (.inl rfl)
    (by simp [gratingType, lossySettings, exParams]) _ _ ho ho'
    ⟨{ I with n_bot_real := A.n_bot_real, n_bot_pos := A.n_bot_pos }, fun _ => by simp [lossySettings, exParams], fun o h => by cases h⟩
    ⟨{ n_top_real := I.n_top_real, n_top_pos := I.n_top_pos, theta_real := I.theta_real, theta_lo := I.theta_lo, theta_hi := I.theta_hi
       phi_real := I.phi_real, psi_real := I.psi_real, wavelength_pos := I.wavelength_pos
       period_x_pos := mul_pos (by norm_num) I.period_x_pos
       period_y_pos := mul_pos (by norm_num) I.period_y_pos
       n_bot_real := A.n_bot_real, n_bot_pos := A.n_bot_pos }, fun _ => by simp [lossySettings, exParams], fun o h => by cases h⟩

end Meent

#print axioms Meent.C81_jax
#print axioms Meent.C81_torch
