import Verif.Lemmas.TorchFieldFunction
import Verif.Props.C88
import Verif.Props.C89
import Verif.Props.C90
import Verif.Props.C72

/-!
# C91: the fields of PyTorch and JAX follow the same rules
-/

namespace Meent

private theorem field_of {la : LinAlg} {s : Settings} {sol : Solved s.p.fto.1 s.p.fto.2} (h : conv_solve la s = .ok sol) {rx ry rz : ℕ} {sel : Bool × Bool × Bool}
    {cell : FieldCell rx ry rz} (hc : calculate_field s.p sol rx ry rz sel = .ok cell) : conv_solve_field la s rx ry rz sel = .ok (sol, cell) :=
  Except.bind_ok.mpr ⟨_, h, Except.bind_ok.mpr ⟨_, hc, rfl⟩⟩

/-- **C91, TE and TM.**  If the arrays of NumPy hold samples of `fields`, then PyTorch solves the problem and its arrays hold samples of the same functions of
position, complex conjugated and with the y axis reversed. -/
theorem C91_tetm (la : LinAlg) (s : Settings) (h : Spec.LosslessCladdings s.p) (hg : gratingType s = 0) (sol : Solved s.p.fto.1 s.p.fto.2)
    (hs : conv_solve la s = .ok sol) (fields : Spec.Fields Field3) (hf : Spec.AlwaysSampled s.p sol fields) :
    ∃ sol', tConv_solve la s.torch = .ok sol' ∧ Spec.TorchSampled s.p sol' (fields.torch s.p.pol (if s.p.pol = 0 then -1 else 1)) :=
  torch_sampled_of (S := fun sel cell => calculate_field s.p sol _ _ _ sel = .ok cell) hf
    fun rx ry rz sel cell hc => C50_tetm h hg rx ry rz sel (field_of hs hc)

/-- **C91, conical and 2D.**  The same for the conical and the 2D solver, where PyTorch's polarization angle `ψ` is NumPy's `π - ψ`. -/
theorem C91_vector (la : LinAlg) (s : Settings) (h : Spec.LosslessCladdings s.p) (hg : Spec.TorchComparable s) (sol : Solved s.p.fto.1 s.p.fto.2)
    (hs : conv_solve la (Spec.withPsi s (Real.pi - s.p.psi)) = .ok sol) (hq : Spec.ModesAway sol) (fields : Spec.Fields Field3)
    (hf : Spec.AlwaysSampled (Spec.withPsi s (Real.pi - s.p.psi)).p sol fields) :
    ∃ sol', tConv_solve la s.torch = .ok sol' ∧ Spec.TorchSampled s.p sol' (fields.torch s.p.pol (-1)) :=
  torch_sampled_of (S := fun sel cell => calculate_field (Spec.withPsi s (Real.pi - s.p.psi)).p sol _ _ _ sel = .ok cell) hf
    fun rx ry rz sel cell hc => C50_psi h hg rx ry rz sel (field_of (s := Spec.withPsi s (Real.pi - s.p.psi)) hs hc) hq

private theorem relayer_torch (pol : ℝ) (c : ℂ) (w : ℕ → ℝ → ℕ × ℝ) (fields : Spec.Fields Field3) :
    (fields.relayer w).torch pol c = (fields.torch pol c).relayer w := by
  cases fields <;> rfl

private theorem always_both {la la' : LinAlg} {s : Settings} (hp : s.p.use_pinv = false) (hn : s.p.n_top ≠ 0) (hw : s.p.wavelength ≠ 0)
    {r r' : Solved s.p.fto.1 s.p.fto.2} (h : conv_solve la s = .ok r) (h' : conv_solve la' s = .ok r') (hr : r ≠ .conicalSmm) :
    ∃ fields : Spec.Fields Field3, Spec.AlwaysSampled s.p r fields ∧ Spec.AlwaysSampled s.p r' fields := by
  obtain ⟨cs, hc, -⟩ := conv_solve_ok.mp h
  obtain ⟨fields, hf⟩ := problem_fields hp hn h hr hc
  have hf' := problem_congr (fun o ho => by
    subst ho
    obtain ⟨-, -, hg, -, -⟩ := conv_solve_tetm.mp h
    obtain ⟨-, -, -, -, -, h2⟩ := gratingType_zero hg
    exact h2) (conv_solve_agree hp h h') hf
  exact ⟨fields, problem_sampled hp hn hw h hc hf, problem_sampled hp hn hw h' ((convMats_la la' la hp).trans hc) hf'⟩

/-- **C91, eigensolvers, TE and TM.**  The arrays of PyTorch do not depend on the eigensolver: with two of them they hold samples of the same functions. -/
theorem C91_eigensolver_tetm (la la' : LinAlg) (s : Settings) (h : Spec.LosslessCladdings s.p) (hp : s.p.use_pinv = false) (hg : gratingType s = 0)
    (sol sol' : Solved s.p.fto.1 s.p.fto.2) (hs : conv_solve la s = .ok sol) (hs' : conv_solve la' s = .ok sol') :
    ∃ (fields : Spec.Fields Field6) (r r' : Solved s.p.fto.1 s.p.fto.2), tConv_solve la s.torch = .ok r ∧ tConv_solve la' s.torch = .ok r' ∧
      Spec.TorchSampled s.p r fields ∧ Spec.TorchSampled s.p r' fields := by
  have hr : sol ≠ .conicalSmm := by
    rintro rfl
    rcases conv_solve_cases hs with ⟨-, o, h1⟩ | ⟨h1, -⟩ | ⟨h1, -⟩
    · cases h1
    · omega
    · omega
  obtain ⟨fields, f1, f2⟩ := always_both hp (RealIllumination.n_top_ne h.toRealIllumination) h.wavelength_pos.ne' hs hs' hr
  obtain ⟨r, h1, e1⟩ := C91_tetm la s h hg sol hs fields f1
  obtain ⟨r', h2, e2⟩ := C91_tetm la' s h hg sol' hs' fields f2
  exact ⟨_, r, r', h1, h2, e1, e2⟩

/-- **C91, eigensolvers, conical and 2D.** -/
theorem C91_eigensolver (la la' : LinAlg) (s : Settings) (h : Spec.LosslessCladdings s.p) (hp : s.p.use_pinv = false) (hg : Spec.TorchComparable s)
    (sol sol' : Solved s.p.fto.1 s.p.fto.2) (hs : conv_solve la (Spec.withPsi s (Real.pi - s.p.psi)) = .ok sol)
    (hs' : conv_solve la' (Spec.withPsi s (Real.pi - s.p.psi)) = .ok sol') (hr : sol ≠ .conicalSmm) (hq : Spec.ModesAway sol) (hq' : Spec.ModesAway sol') :
    ∃ (fields : Spec.Fields Field6) (r r' : Solved s.p.fto.1 s.p.fto.2), tConv_solve la s.torch = .ok r ∧ tConv_solve la' s.torch = .ok r' ∧
      Spec.TorchSampled s.p r fields ∧ Spec.TorchSampled s.p r' fields := by
  have hn : s.p.n_top ≠ 0 := RealIllumination.n_top_ne h.toRealIllumination
  obtain ⟨fields, f1, f2⟩ := always_both (s := Spec.withPsi s (Real.pi - s.p.psi)) hp hn h.wavelength_pos.ne' hs hs' hr
  obtain ⟨r, h1, e1⟩ := C91_vector la s h hg sol hs hq fields f1
  obtain ⟨r', h2, e2⟩ := C91_vector la' s h hg sol' hs' hq' fields f2
  exact ⟨_, r, r', h1, h2, e1, e2⟩

/-- **C91, cut layers, TE and TM.**  C88 for PyTorch. -/
theorem C91_cut_tetm (la la' : LinAlg) (s : Settings) (h : Spec.LosslessCladdings s.p) (hp : s.p.use_pinv = false) (k : ℕ) (u u' : Structure)
    (hu : Spec.Doubled k u u') (t1 t2 : List ℝ) (hk : t1.length = k) (d1 d2 : ℝ) (h1 : 0 ≤ d1) (h2 : 0 ≤ d2) (h12 : 0 < d1 + d2)
    (hg : gratingType (Spec.withStack s u (t1 ++ (d1 + d2) :: t2)) = 0) (hg' : gratingType (Spec.withStack s u' (t1 ++ d1 :: d2 :: t2)) = 0)
    (sol sol' : Solved s.p.fto.1 s.p.fto.2) (hs : conv_solve la (Spec.withStack s u (t1 ++ (d1 + d2) :: t2)) = .ok sol)
    (hs' : conv_solve la' (Spec.withStack s u' (t1 ++ d1 :: d2 :: t2)) = .ok sol') :
    ∃ (fields : Spec.Fields Field6) (r r' : Solved s.p.fto.1 s.p.fto.2), tConv_solve la (Spec.withStack s u (t1 ++ (d1 + d2) :: t2)).torch = .ok r ∧
      tConv_solve la' (Spec.withStack s u' (t1 ++ d1 :: d2 :: t2)).torch = .ok r' ∧
      Spec.TorchSampled (Spec.withStack s u (t1 ++ (d1 + d2) :: t2)).p r fields ∧
      Spec.TorchSampled (Spec.withStack s u' (t1 ++ d1 :: d2 :: t2)).p r' (fields.relayer (Spec.cutLayer k d1 d2)) := by
  have hr : sol ≠ .conicalSmm := by
    rintro rfl
    rcases conv_solve_cases hs with ⟨-, o, h1⟩ | ⟨h1, -⟩ | ⟨h1, -⟩
    · cases h1
    · omega
    · omega
  obtain ⟨fields, f1, f2⟩ := C88_cut la la' s hp (RealIllumination.n_top_ne h.toRealIllumination) h.wavelength_pos.ne' k u u' hu t1 t2 hk d1 d2 h1 h2 h12
    sol sol' hs hs' hr
  obtain ⟨r, g1, e1⟩ := C91_tetm la (Spec.withStack s u (t1 ++ (d1 + d2) :: t2)) ⟨⟨h.1.1, h.1.2, h.1.3, h.1.4, h.1.5, h.1.6, h.1.7, h.1.8, h.1.9, h.1.10⟩, h.2, h.3⟩ hg sol hs fields f1
  obtain ⟨r', g2, e2⟩ := C91_tetm la' (Spec.withStack s u' (t1 ++ d1 :: d2 :: t2)) ⟨⟨h.1.1, h.1.2, h.1.3, h.1.4, h.1.5, h.1.6, h.1.7, h.1.8, h.1.9, h.1.10⟩, h.2, h.3⟩ hg' sol' hs' _ f2
  rw [relayer_torch] at e2
  exact ⟨_, r, r', g1, g2, e1, e2⟩

/-- **C91, cut layers, conical and 2D.** -/
theorem C91_cut (la la' : LinAlg) (s : Settings) (h : Spec.LosslessCladdings s.p) (hp : s.p.use_pinv = false) (k : ℕ) (u u' : Structure)
    (hu : Spec.Doubled k u u') (t1 t2 : List ℝ) (hk : t1.length = k) (d1 d2 : ℝ) (h1 : 0 ≤ d1) (h2 : 0 ≤ d2) (h12 : 0 < d1 + d2)
    (hg : Spec.TorchComparable (Spec.withStack s u (t1 ++ (d1 + d2) :: t2))) (hg' : Spec.TorchComparable (Spec.withStack s u' (t1 ++ d1 :: d2 :: t2)))
    (sol sol' : Solved s.p.fto.1 s.p.fto.2) (hs : conv_solve la (Spec.withStack (Spec.withPsi s (Real.pi - s.p.psi)) u (t1 ++ (d1 + d2) :: t2)) = .ok sol)
    (hs' : conv_solve la' (Spec.withStack (Spec.withPsi s (Real.pi - s.p.psi)) u' (t1 ++ d1 :: d2 :: t2)) = .ok sol') (hr : sol ≠ .conicalSmm)
    (hq : Spec.ModesAway sol) (hq' : Spec.ModesAway sol') :
    ∃ (fields : Spec.Fields Field6) (r r' : Solved s.p.fto.1 s.p.fto.2), tConv_solve la (Spec.withStack s u (t1 ++ (d1 + d2) :: t2)).torch = .ok r ∧
      tConv_solve la' (Spec.withStack s u' (t1 ++ d1 :: d2 :: t2)).torch = .ok r' ∧
      Spec.TorchSampled (Spec.withStack s u (t1 ++ (d1 + d2) :: t2)).p r fields ∧
      Spec.TorchSampled (Spec.withStack s u' (t1 ++ d1 :: d2 :: t2)).p r' (fields.relayer (Spec.cutLayer k d1 d2)) := by
  have hn : s.p.n_top ≠ 0 := RealIllumination.n_top_ne h.toRealIllumination
  obtain ⟨fields, f1, f2⟩ := C88_cut la la' (Spec.withPsi s (Real.pi - s.p.psi)) hp hn h.wavelength_pos.ne' k u u' hu
    t1 t2 hk d1 d2 h1 h2 h12 sol sol' hs hs' hr
  obtain ⟨r, g1, e1⟩ := C91_vector la (Spec.withStack s u (t1 ++ (d1 + d2) :: t2)) ⟨⟨h.1.1, h.1.2, h.1.3, h.1.4, h.1.5, h.1.6, h.1.7, h.1.8, h.1.9, h.1.10⟩, h.2, h.3⟩ hg sol hs hq fields f1
  obtain ⟨r', g2, e2⟩ := C91_vector la' (Spec.withStack s u' (t1 ++ d1 :: d2 :: t2)) ⟨⟨h.1.1, h.1.2, h.1.3, h.1.4, h.1.5, h.1.6, h.1.7, h.1.8, h.1.9, h.1.10⟩, h.2, h.3⟩ hg' sol' hs' hq' _ f2
  rw [relayer_torch] at e2
  exact ⟨_, r, r', g1, g2, e1, e2⟩

private theorem super_claddings {s : Settings} (h : Spec.LosslessCladdings s.p) {u : Ucell} {tx ty : ℕ} (htx : 0 < tx) (hty : 0 < ty) {fto' : ℕ × ℕ} :
    Spec.LosslessCladdings (Spec.supercell s u tx ty fto').p :=
  ⟨⟨h.1.1, h.1.2, h.1.3, h.1.4, h.1.5, h.1.6, h.1.7, h.1.8, mul_pos (Nat.cast_pos.mpr htx) h.1.9, mul_pos (Nat.cast_pos.mpr hty) h.1.10⟩, h.2, h.3⟩

/-- **C91, several periods, TE and TM.**  C89 for PyTorch. -/
theorem C91_supercell_tetm (la la' : LinAlg) (s : Settings) (h : Spec.LosslessCladdings s.p) (u : Ucell) (hu : s.ucell = .raster u) (hny : 0 < u.ny) (hnx : 0 < u.nx)
    (hp : s.p.use_pinv = false) (ha : s.algo = .tmm) (tx ty : ℕ) (htx : 0 < tx) (hty : 0 < ty) (fto' : ℕ × ℕ)
    (hx : Spec.SameOrders tx s.p.fto.1 fto'.1) (hy : Spec.SameOrders ty s.p.fto.2 fto'.2)
    (hft : s.fourier_type = 1 ∨ Spec.EnoughPixels (Spec.supercell s u tx ty fto') (Spec.tileAll tx ty u))
    (hg : gratingType s = 0) (hg' : gratingType (Spec.supercell s u tx ty fto') = 0)
    (sol : Solved s.p.fto.1 s.p.fto.2) (sol' : Solved fto'.1 fto'.2) (hs : conv_solve la s = .ok sol)
    (hs' : conv_solve la' (Spec.supercell s u tx ty fto') = .ok sol') :
    ∃ (fields : Spec.Fields Field6) (r : Solved s.p.fto.1 s.p.fto.2) (r' : Solved fto'.1 fto'.2), tConv_solve la s.torch = .ok r ∧
      tConv_solve la' (Spec.supercell s u tx ty fto').torch = .ok r' ∧ Spec.TorchSampled s.p r fields ∧
      Spec.TorchSampled (Spec.supercell s u tx ty fto').p r' fields := by
  obtain ⟨fields, f1, f2⟩ := C89_supercell la la' s u hu hny hnx (RealIllumination.n_top_ne h.toRealIllumination) h.wavelength_pos.ne' hp ha tx ty htx hty fto' hx hy hft
    ⟨fun _ => hg, fun _ => hg'⟩ sol sol' hs hs'
  obtain ⟨r, g1, e1⟩ := C91_tetm la s h hg sol hs fields f1
  obtain ⟨r', g2, e2⟩ := C91_tetm la' (Spec.supercell s u tx ty fto') (super_claddings h htx hty) hg' sol' hs' _ f2
  exact ⟨_, r, r', g1, g2, e1, e2⟩

/-- **C91, several periods, conical and 2D.** -/
theorem C91_supercell (la la' : LinAlg) (s : Settings) (h : Spec.LosslessCladdings s.p) (u : Ucell) (hu : s.ucell = .raster u) (hny : 0 < u.ny) (hnx : 0 < u.nx)
    (hp : s.p.use_pinv = false) (ha : s.algo = .tmm) (tx ty : ℕ) (htx : 0 < tx) (hty : 0 < ty) (fto' : ℕ × ℕ)
    (hx : Spec.SameOrders tx s.p.fto.1 fto'.1) (hy : Spec.SameOrders ty s.p.fto.2 fto'.2)
    (hft : s.fourier_type = 1 ∨ Spec.EnoughPixels (Spec.supercell s u tx ty fto') (Spec.tileAll tx ty u))
    (hg : Spec.TorchComparable s) (hg' : Spec.TorchComparable (Spec.supercell s u tx ty fto'))
    (sol : Solved s.p.fto.1 s.p.fto.2) (sol' : Solved fto'.1 fto'.2) (hs : conv_solve la (Spec.withPsi s (Real.pi - s.p.psi)) = .ok sol)
    (hs' : conv_solve la' (Spec.supercell (Spec.withPsi s (Real.pi - s.p.psi)) u tx ty fto') = .ok sol') (hq : Spec.ModesAway sol) (hq' : Spec.ModesAway sol') :
    ∃ (fields : Spec.Fields Field6) (r : Solved s.p.fto.1 s.p.fto.2) (r' : Solved fto'.1 fto'.2), tConv_solve la s.torch = .ok r ∧
      tConv_solve la' (Spec.supercell s u tx ty fto').torch = .ok r' ∧ Spec.TorchSampled s.p r fields ∧
      Spec.TorchSampled (Spec.supercell s u tx ty fto').p r' fields := by
  have hn : s.p.n_top ≠ 0 := RealIllumination.n_top_ne h.toRealIllumination
  have n0 : ∀ {s : Settings}, Spec.TorchComparable s → gratingType s ≠ 0 := by
    rintro s (e | ⟨e, -⟩) <;> omega
  obtain ⟨fields, f1, f2⟩ := C89_supercell la la' (Spec.withPsi s (Real.pi - s.p.psi)) u hu hny hnx hn h.wavelength_pos.ne' hp ha tx ty htx hty fto' hx hy hft
    ⟨fun e => absurd e (n0 hg'), fun e => absurd e (n0 hg)⟩ sol sol' hs hs'
  obtain ⟨r, g1, e1⟩ := C91_vector la s h hg sol hs hq fields f1
  obtain ⟨r', g2, e2⟩ := C91_vector la' (Spec.supercell s u tx ty fto') (super_claddings h htx hty) hg' sol' hs' hq' _ f2
  exact ⟨_, r, r', g1, g2, e1, e2⟩

/-- **C91, JAX.**  C88, C89 and C90 for JAX. -/
theorem C91_jax_cut (env env' : Jax.Env) (s : Settings) (hp : s.p.use_pinv = false) (hn : s.p.n_top ≠ 0) (hw : s.p.wavelength ≠ 0) (k : ℕ) (u u' : Structure)
    (hu : Spec.Doubled k u u') (t1 t2 : List ℝ) (hk : t1.length = k) (d1 d2 : ℝ) (h1 : 0 ≤ d1) (h2 : 0 ≤ d2) (h12 : 0 < d1 + d2)
    (hj : Spec.JaxReady (Spec.withStack s u (t1 ++ (d1 + d2) :: t2))) (hj' : Spec.JaxReady (Spec.withStack s u' (t1 ++ d1 :: d2 :: t2)))
    (r r' : Solved s.p.fto.1 s.p.fto.2) (h : Jax.conv_solve env (Spec.withStack s u (t1 ++ (d1 + d2) :: t2)) = .ok r)
    (h' : Jax.conv_solve env' (Spec.withStack s u' (t1 ++ d1 :: d2 :: t2)) = .ok r') (hr : r ≠ .conicalSmm) :
    ∃ fields : Spec.Fields Field3,
      (∀ rx ry rz sel, ∃ cell : FieldCell rx ry rz, Jax.calculate_field (Spec.withStack s u (t1 ++ (d1 + d2) :: t2)).p r rx ry rz sel = .ok cell ∧
        fields.Sampled s.p (t1 ++ (d1 + d2) :: t2).length sel cell) ∧
      ∀ rx ry rz sel, ∃ cell : FieldCell rx ry rz, Jax.calculate_field (Spec.withStack s u' (t1 ++ d1 :: d2 :: t2)).p r' rx ry rz sel = .ok cell ∧
        (fields.relayer (Spec.cutLayer k d1 d2)).Sampled s.p (t1 ++ d1 :: d2 :: t2).length sel cell :=
  C88_cut env.la env'.la s hp hn hw k u u' hu t1 t2 hk d1 d2 h1 h2 h12 r r' (C57_jax_to_numpy env _ hj.pixels hj.ellipses hj.layers r h)
    (C57_jax_to_numpy env' _ hj'.pixels hj'.ellipses hj'.layers r' h') hr

theorem C91_jax_supercell (env env' : Jax.Env) (s : Settings) (u : Ucell) (hu : s.ucell = .raster u) (hny : 0 < u.ny) (hnx : 0 < u.nx)
    (hn : s.p.n_top ≠ 0) (hw : s.p.wavelength ≠ 0) (hp : s.p.use_pinv = false) (ha : s.algo = .tmm) (tx ty : ℕ) (htx : 0 < tx) (hty : 0 < ty) (fto' : ℕ × ℕ)
    (hx : Spec.SameOrders tx s.p.fto.1 fto'.1) (hy : Spec.SameOrders ty s.p.fto.2 fto'.2)
    (hft : s.fourier_type = 1 ∨ Spec.EnoughPixels (Spec.supercell s u tx ty fto') (Spec.tileAll tx ty u))
    (hg : gratingType (Spec.supercell s u tx ty fto') = 0 ↔ gratingType s = 0) (hl : s.p.thickness.length ≤ u.layers.length)
    (r : Solved s.p.fto.1 s.p.fto.2) (r' : Solved fto'.1 fto'.2) (h : Jax.conv_solve env s = .ok r)
    (h' : Jax.conv_solve env' (Spec.supercell s u tx ty fto') = .ok r') :
    ∃ fields : Spec.Fields Field3,
      (∀ rx ry rz sel, ∃ cell : FieldCell rx ry rz, Jax.calculate_field s.p r rx ry rz sel = .ok cell ∧ fields.Sampled s.p s.p.thickness.length sel cell) ∧
      ∀ rx ry rz sel, ∃ cell : FieldCell rx ry rz, Jax.calculate_field (Spec.supercell s u tx ty fto').p r' rx ry rz sel = .ok cell ∧
        fields.Sampled (Spec.supercell s u tx ty fto').p s.p.thickness.length sel cell := by
  refine C89_supercell env.la env'.la s u hu hny hnx hn hw hp ha tx ty htx hty fto' hx hy hft hg r r' (C57_jax_to_numpy env s ?_ ?_ ?_ r h)
    (C57_jax_to_numpy env' (Spec.supercell s u tx ty fto') ?_ ?_ ?_ r' h')
  · intro v hv; obtain rfl := Structure.raster.inj (hu.symm.trans hv); exact ⟨hny, hnx⟩
  · intro ls e; rw [hu] at e; cases e
  · rw [hu]; exact hl
  · intro v hv
    obtain rfl := Structure.raster.inj hv
    exact ⟨Nat.mul_pos hty hny, Nat.mul_pos htx hnx⟩
  · intro ls e; cases e
  · simpa [Spec.layerCount] using hl

theorem C91_jax_mirror (env env' : Jax.Env) (s : Settings) (mx my : Bool) (θ' ψ' : ℂ) (φ' : Option ℂ) (pol' : ℝ)
    (u : Ucell) (hu : s.ucell = .raster u) (hny : 0 < u.ny) (hnx : 0 < u.nx) (hft : s.fourier_type = 1) (hi : Spec.RealIllumination s.p)
    (hi' : Spec.RealIllumination (Spec.image mx my s u θ' φ' pol' ψ').p)
    (hd : Spec.MirrorDirection mx my s.p.theta s.p.phi θ' φ') (hp : s.p.use_pinv = false) (ha : s.algo = .tmm)
    (hg : gratingType (Spec.image mx my s u θ' φ' pol' ψ') = 0 ↔ gratingType s = 0)
    (hpol : if gratingType s = 0 then pol' = s.p.pol else Spec.MirrorPsi mx my s.p.psi ψ') (hl : s.p.thickness.length ≤ u.layers.length)
    (r r' : Solved s.p.fto.1 s.p.fto.2) (h : Jax.conv_solve env s = .ok r)
    (h' : Jax.conv_solve env' (Spec.image mx my s u θ' φ' pol' ψ') = .ok r') :
    ∃ fields fields' : Spec.Fields Field3,
      (∀ rx ry rz sel, ∃ cell : FieldCell rx ry rz, Jax.calculate_field s.p r rx ry rz sel = .ok cell ∧ fields.Sampled s.p s.p.thickness.length sel cell) ∧
      (∀ rx ry rz sel, ∃ cell : FieldCell rx ry rz, Jax.calculate_field (Spec.image mx my s u θ' φ' pol' ψ').p r' rx ry rz sel = .ok cell ∧
        fields'.Sampled (Spec.image mx my s u θ' φ' pol' ψ').p s.p.thickness.length sel cell) ∧ fields.Mirrored mx my fields' := by
  refine C90_mirror env.la env'.la s mx my θ' ψ' φ' pol' u hu hny hnx hft hi hi' hd hp ha hg hpol r r' (C57_jax_to_numpy env s ?_ ?_ ?_ r h)
    (C57_jax_to_numpy env' (Spec.image mx my s u θ' φ' pol' ψ') ?_ ?_ ?_ r' h')
  · intro v hv; obtain rfl := Structure.raster.inj (hu.symm.trans hv); exact ⟨hny, hnx⟩
  · intro ls e; rw [hu] at e; cases e
  · rw [hu]; exact hl
  · intro v hv
    obtain rfl := Structure.raster.inj hv
    exact ⟨hny, hnx⟩
  · intro ls e; cases e
  · simpa [Spec.layerCount] using hl

/-! ### Non-vacuity -/

/-- The TE grating of two media, its layer cut into parts of thickness 1/12 and 1/4, on PyTorch. -/
example : ∃ (fields : Spec.Fields Field6) (r r' : Solved 0 0),
    tConv_solve exLA (Spec.withStack (exSettings 0 none) (exSettings 0 none).ucell ([] ++ (1 / 12 + 1 / 4) :: [])).torch = .ok r ∧
    tConv_solve exLA (Spec.withStack (exSettings 0 none) exDouble ([] ++ (1 / 12) :: (1 / 4) :: [])).torch = .ok r' ∧
    Spec.TorchSampled (Spec.withStack (exSettings 0 none) (exSettings 0 none).ucell ([] ++ (1 / 12 + 1 / 4) :: [])).p r fields ∧
    Spec.TorchSampled (Spec.withStack (exSettings 0 none) exDouble ([] ++ (1 / 12) :: (1 / 4) :: [])).p r' (fields.relayer (Spec.cutLayer 0 (1 / 12) (1 / 4))) := by
  obtain ⟨o, ho⟩ := exTE_ok
  have h : conv_solve exLA (Spec.withStack (exSettings 0 none) (exSettings 0 none).ucell ([] ++ (1 / 12 + 1 / 4) :: [])) = .ok (.tetm o) := by
    rw [show (1 / 12 : ℝ) + 1 / 4 = 1 / 3 by norm_num]
    exact ho
  obtain ⟨sol', h', -⟩ := C06_split_ok exLA (exSettings 0 none) rfl 0 _ exDouble exDoubled [] [] rfl (1 / 12) (1 / 4) _ h
  have hl : Spec.LosslessCladdings (exSettings 0 none).p :=
    { (exSettings_lossless 0 none (by simp)).toRealIllumination with
      n_bot_real := by simp [exSettings, exParams, Spec.IsReal], n_bot_pos := by simp [exSettings, exParams] }
  exact C91_cut_tetm exLA exLA (exSettings 0 none) hl rfl 0 _ exDouble exDoubled [] [] rfl (1 / 12) (1 / 4) (by norm_num) (by norm_num) (by norm_num)
    (by simp [gratingType, exSettings, exCell, exParams]) (by simp [gratingType, exSettings, exDouble, exParams]) _ sol' h h'

/-- The conical problem of C40 at 45 degrees polarization on PyTorch, with any eigensolver that finds a basis of eigenvectors. -/
example (la' : LinAlg) (hb : Spec.ReturnsBasis la') : ∃ (fields : Spec.Fields Field6) (r r' : Solved 0 0),
    tConv_solve exLA (mixSettings ((Real.pi / 4 : ℝ) : ℂ)).torch = .ok r ∧ tConv_solve la' (mixSettings ((Real.pi / 4 : ℝ) : ℂ)).torch = .ok r' ∧
    Spec.TorchSampled (mixSettings ((Real.pi / 4 : ℝ) : ℂ)).p r fields ∧ Spec.TorchSampled (mixSettings ((Real.pi / 4 : ℝ) : ℂ)).p r' fields := by
  obtain ⟨o, ho, -⟩ := mix_ok ((Real.pi : ℂ) - ((Real.pi / 4 : ℝ) : ℂ))
  obtain ⟨sol', h', -⟩ := conv_solve_basis (s := mixSettings ((Real.pi : ℂ) - ((Real.pi / 4 : ℝ) : ℂ))) rfl hb ho
  have hg : gratingType (mixSettings ((Real.pi : ℂ) - ((Real.pi / 4 : ℝ) : ℂ))) = 1 := by simp [gratingType, mixSettings, mixCell, mixParams]
  refine C91_eigensolver exLA la' (mixSettings ((Real.pi / 4 : ℝ) : ℂ)) (mixLossless (Real.pi / 4)) rfl
    (Or.inr ⟨by simp [gratingType, mixSettings, mixCell, mixParams], by
      simp only [mixSettings, mixParams, ne_eq, Option.some.injEq]
      intro h0
      have := Real.arctan_pos.mpr (show (0 : ℝ) < 1 / 2 by norm_num)
      exact this.ne' (by exact_mod_cast h0)⟩) _ sol' ho h' (fun h => by cases h) (fun o h => by cases h) (fun o h => ?_)
  subst h
  rcases conv_solve_cases h' with ⟨h1, -⟩ | ⟨-, ⟨o, h1⟩ | h1⟩ | ⟨h1, -⟩
  · rw [hg] at h1; cases h1
  · cases h1
  · cases h1
  · rw [hg] at h1; cases h1

/-- The absorbing TE grating with the orders -1, 0 and 1, and with three periods in a cell and the orders -4 to 4: PyTorch, and JAX with the same eigensolver. -/
example (env : Jax.Env) (he : env.la = exLA) : (∃ (fields : Spec.Fields Field6) (r : Solved 1 0) (r' : Solved 4 0), tConv_solve exLA (lossySettings 0 none 1).torch = .ok r ∧
    tConv_solve exLA (Spec.supercell (lossySettings 0 none 1) ⟨1, 2, [fun _ j => if j = 0 then 1 - 2 * Complex.I else 2 - Complex.I]⟩ 3 1 (4, 0)).torch = .ok r' ∧
    Spec.TorchSampled (lossySettings 0 none 1).p r fields ∧
    Spec.TorchSampled (Spec.supercell (lossySettings 0 none 1) ⟨1, 2, [fun _ j => if j = 0 then 1 - 2 * Complex.I else 2 - Complex.I]⟩ 3 1 (4, 0)).p r' fields) ∧
    ∃ r r', Jax.conv_solve env (lossySettings 0 none 1) = .ok r ∧
      Jax.conv_solve env (Spec.supercell (lossySettings 0 none 1) ⟨1, 2, [fun _ j => if j = 0 then 1 - 2 * Complex.I else 2 - Complex.I]⟩ 3 1 (4, 0)) = .ok r' := by
  obtain ⟨o', h'⟩ := C81.lossy_super 3 (by norm_num) 4
  obtain ⟨o, h⟩ := C81.lossy_base
  have A := lossySettings_absorbing 0 none (by simp) 1
  refine ⟨C91_supercell_tetm exLA exLA (lossySettings 0 none 1) ⟨A.toRealIllumination, A.n_bot_real, A.n_bot_pos⟩ _ rfl (by norm_num) (by norm_num) rfl rfl
    3 1 (by norm_num) (by norm_num) (4, 0) (by simp [Spec.SameOrders, lossySettings]) (by simp [Spec.SameOrders, lossySettings]) (.inl rfl)
    (by simp [gratingType, lossySettings, exParams]) (by simp [gratingType, lossySettings, exParams]) _ _ h h', _, _,
    C57_numpy_to_jax_partial env _ (.inl rfl) _ (he ▸ h), C57_numpy_to_jax_partial env _ (.inl rfl) _ (he ▸ h')⟩

end Meent

#print axioms Meent.C91_tetm
#print axioms Meent.C91_vector
#print axioms Meent.C91_eigensolver_tetm
#print axioms Meent.C91_eigensolver
#print axioms Meent.C91_cut_tetm
#print axioms Meent.C91_cut
#print axioms Meent.C91_supercell_tetm
#print axioms Meent.C91_supercell
#print axioms Meent.C91_jax_cut
#print axioms Meent.C91_jax_supercell
#print axioms Meent.C91_jax_mirror
