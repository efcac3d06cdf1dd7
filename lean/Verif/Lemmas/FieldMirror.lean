import Verif.Lemmas.FieldTile
import Verif.Spec.FieldMirror

/-!
# Fields of mirrored structures (helper lemmas)
-/

open Matrix

namespace Meent

set_option linter.unusedSectionVars false
set_option linter.unusedSimpArgs false
set_option linter.unusedVariables false

theorem flipC_eq (b : Bool) (a : ℂ) : Spec.flipC b a = Spec.sign b * a := by
  unfold Spec.flipC Spec.sign
  cases b <;> simp

theorem flip_cast (b : Bool) (x : ℝ) : ((Spec.flip b x : ℝ) : ℂ) = Spec.sign b * x := by
  unfold Spec.flip Spec.sign
  cases b <;> simp

theorem sq_eq_one_or {z : ℂ} (h : z ^ 2 = 1) : z = 1 ∨ z = -1 := by
  have : (z - 1) * (z + 1) = 0 := by linear_combination h
  rcases mul_eq_zero.mp this with h | h
  · exact .inl (by linear_combination h)
  · exact .inr (by linear_combination h)

theorem times_mirror_zero (mx my : Bool) (c : ℂ) : Spec.times6 c (Spec.mirror6 mx my ⟨0, 0, 0, 0, 0, 0⟩) = ⟨0, 0, 0, 0, 0, 0⟩ := by
  unfold Spec.times6 Spec.mirror6
  simp [flipC_eq]

theorem at_image {m : Type} [Fintype m] [DecidableEq m] (J : m ≃ m) {k0 : ℝ} {kx ky kx' ky' : m → ℂ} {mx my : Bool} (c : ℂ) {x y t : ℝ}
    (hx : ∀ i, kx' i = Spec.sign mx * kx (J i)) (hy : ∀ i, ky' i = Spec.sign my * ky (J i)) (f : Spec.OrderFields m) :
    (imgF (fun _ => c) (Spec.sign mx) (Spec.sign my) (reindexF J f)).at k0 kx' ky' x y t
      = Spec.times6 c (Spec.mirror6 mx my (f.at k0 kx ky (Spec.flip mx x) (Spec.flip my y) t)) := by
  have key : ∀ (d : ℂ) (u : m → ℂ), ∑ i, Complex.exp (-Complex.I * (k0 * (x * kx' i + y * ky' i))) * (d * u (J i))
      = d * ∑ i, Complex.exp (-Complex.I * (k0 * (((Spec.flip mx x : ℝ) : ℂ) * kx i + ((Spec.flip my y : ℝ) : ℂ) * ky i))) * u i := by
    intro d u
    rw [Finset.mul_sum]
    refine Eq.trans ?_ (Equiv.sum_comp J _)
    refine Finset.sum_congr rfl fun i _ => ?_
    rw [hx, hy, flip_cast, flip_cast, show (x : ℂ) * (Spec.sign mx * kx (J i)) + y * (Spec.sign my * ky (J i))
      = Spec.sign mx * x * kx (J i) + Spec.sign my * y * ky (J i) by ring]
    ring
  unfold Spec.OrderFields.at imgF reindexF Spec.times6 Spec.mirror6
  simp only [key, flipC_eq]
  congr 1 <;> ring

theorem stackFn_image {m : Type} [Fintype m] [DecidableEq m] (J : m ≃ m) {k0 : ℝ} {kx ky kx' ky' : m → ℂ} {mx my : Bool} (c : ℂ)
    (hx : ∀ i, kx' i = Spec.sign mx * kx (J i)) (hy : ∀ i, ky' i = Spec.sign my * ky (J i)) (ds : List ℝ) (fs : List (Spec.OrderFields m)) (k : ℕ) (z y x : ℝ) :
    stackFn k0 kx' ky' ds ((fs.map (reindexF J)).map (imgF (fun _ => c) (Spec.sign mx) (Spec.sign my))) k z y x
      = Spec.times6 c (Spec.mirror6 mx my (stackFn k0 kx ky ds fs k z (Spec.flip my y) (Spec.flip mx x))) := by
  unfold stackFn
  rw [List.map_map, List.getElem?_map]
  cases fs[k]? with
  | none => simp only [Option.map_none]; rw [times_mirror_zero]
  | some f =>
    cases ds[k]? with
    | none => simp only [Option.map_some]; rw [times_mirror_zero]
    | some d => exact at_image J c hx hy f

theorem shiftD_one {fx fy : ℕ} : (shiftD 1 1 : FlatIdx fx fy → ℂ) = fun _ => 1 := by
  funext i
  unfold shiftD
  simp

/-- `convMats_image` for continuous coefficients, where no phases are needed. -/
theorem convMats_image_continuous {la la' : LinAlg} {s : Settings} (hp : s.p.use_pinv = false) {u : Ucell} (hu : s.ucell = .raster u)
    (hft : s.fourier_type = 1) (hy : 0 < u.ny) (hx : 0 < u.nx) (mx my : Bool) (θ' : ℂ) (φ' : Option ℂ) (pol' : ℝ) (ψ' : ℂ) {cs} (h : convMats la s = .ok cs) :
    convMats la' (Spec.image mx my s u θ' φ' pol' ψ') = .ok (cs.map fun c => (c.reindex (imgE mx my)).gauge (shiftD 1 1)) := by
  have hr : (Spec.mirrorAll mx my u).rasters = u.rasters.map (Raster.mirror mx my) := by
    unfold Ucell.rasters
    simp only [List.map_map]
    rfl
  have hdim : ∀ l ∈ u.rasters, l.ny = u.ny ∧ l.nx = u.nx := by
    intro l hl
    unfold Ucell.rasters at hl
    obtain ⟨a, -, rfl⟩ := List.mem_map.mp hl
    exact ⟨rfl, rfl⟩
  unfold convMats at h ⊢
  rw [hu] at h
  simp only [hp, hft, one_ne_zero, if_false, if_true] at h ⊢
  unfold to_conv_mat_raster_continuous at h ⊢
  rw [hr]
  refine mapM_map_ok _ _ (fun l hl b hb => ?_) h
  exact convRaster_image (by rw [(hdim l hl).1]; exact hy) (by rw [(hdim l hl).2]; exact hx) mx my hb

section
variable {p : Params} {mx my : Bool} {θ' ψ' : ℂ} {φ' : Option ℂ} {pol' : ℝ}

theorem wave_image (ht : sinTheta p.theta = Complex.sin p.theta) (ht' : sinTheta θ' = Complex.sin θ')
    (hd : Spec.MirrorDirection mx my p.theta p.phi θ' φ') {cs : List (Conv (FlatIdx p.fto.1 p.fto.2))} {ψ ψ1 : ℂ} (hψ : Spec.MirrorPsi mx my ψ ψ1)
    {r r1 : SubRes (2 * p.fto.2 + 1) (2 * p.fto.1 + 1)} {F : Spec.FieldFn Field6} (h : WaveField p cs ψ r F)
    (hq : ∀ r, (∃ fs, Spec.Diffraction { p with theta := θ', phi := φ', pol := pol', psi := ψ' }
      (cs.map fun c => (c.reindex (imgE mx my)).gauge (shiftD 1 1)) ψ1 r fs) → Spec.SameAmplitudes r r1) :
    ∃ F', WaveField { p with theta := θ', phi := φ', pol := pol', psi := ψ' }
      (cs.map fun c => (c.reindex (imgE mx my)).gauge (shiftD 1 1)) ψ1 r1 F' ∧ Spec.MirrorImage mx my F F' := by
  obtain ⟨fs, h, rfl⟩ := h
  obtain ⟨r', z, hz, hd', -⟩ := image_core (pol' := pol') (ψ' := ψ') norm_one norm_one ht ht' hd hψ h
  refine ⟨_, ⟨_, diffraction_same (hq r' ⟨_, hd'⟩) hd', rfl⟩, z, sq_eq_one_or hz, fun k z' y x => ?_⟩
  have e : (fun i : FlatIdx p.fto.1 p.fto.2 => z * shiftD 1 1 i) = fun _ => z := by rw [shiftD_one]; simp
  rw [e]
  refine stackFn_image (imgE mx my) z (fun i => ?_) (fun i => ?_) _ _ _ _ _ _
  · rw [imgE_mod]; exact kx_image ht ht' hd _
  · rw [imgE_div]; exact ky_image ht ht' hd _

theorem unsix_mirror (pol : ℝ) (mx : Bool) (f : Field6) :
    unsix pol (Spec.times6 (if pol = 0 then 1 else Spec.sign mx) (Spec.mirror6 mx false f)) = Spec.mirror3 mx (unsix pol f) := by
  have := sign_sq mx
  unfold unsix Spec.times6 Spec.mirror6 Spec.mirror3
  split_ifs with h
  · simp [flipC_eq, Spec.sign]
  · simp only [flipC_eq]
    congr 1
    · rw [← mul_assoc, ← pow_two, this, one_mul]
    · rw [← mul_assoc, ← pow_two, this, one_mul]

theorem stackFn_flat {m : Type} [Fintype m] (k0 : ℝ) (kx : m → ℂ) (ds : List ℝ) (fs : List (Spec.OrderFields m)) (k : ℕ) (z y y' x : ℝ) :
    stackFn k0 kx 0 ds fs k z y x = stackFn k0 kx 0 ds fs k z y' x := by
  unfold stackFn
  cases fs[k]? with
  | none => rfl
  | some f =>
    cases ds[k]? with
    | none => rfl
    | some d =>
      unfold Spec.OrderFields.at
      simp only [Pi.zero_apply, mul_zero]

theorem tetm_image_fields (hf : p.fto.2 = 0) (ht : sinTheta p.theta = Complex.sin p.theta) (ht' : sinTheta θ' = Complex.sin θ')
    (hd : Spec.MirrorDirection mx my p.theta p.phi θ' φ') {cs : List (Conv (FlatIdx p.fto.1 p.fto.2))}
    {r r1 : SubRes 1 (2 * p.fto.1 + 1)} {fs} (h : Spec.Diffraction1d p (cs.map Conv.row) r fs)
    (hq : ∀ r, (∃ fs, Spec.Diffraction1d { p with theta := θ', phi := φ', pol := p.pol, psi := ψ' }
      ((cs.map fun c => (c.reindex (imgE mx my)).gauge (shiftD 1 1)).map Conv.row) r fs) →
      if p.pol = 0 then r.R_s = r1.R_s ∧ r.T_s = r1.T_s else r.R_p = r1.R_p ∧ r.T_p = r1.T_p) :
    ∃ F', (∃ fs', Spec.Diffraction1d { p with theta := θ', phi := φ', pol := p.pol, psi := ψ' }
        ((cs.map fun c => (c.reindex (imgE mx my)).gauge (shiftD 1 1)).map Conv.row) r1 fs' ∧
        F' = fun k z y x => unsix p.pol (stackFn (Spec.k0Of p) (kxVec { p with theta := θ', phi := φ', pol := p.pol, psi := ψ' } p.wavelength) 0 p.thickness fs' k z y x)) ∧
      ∀ k z y x, F' k z y x = Spec.mirror3 mx (unsix p.pol (stackFn (Spec.k0Of p) (kxVec p p.wavelength) 0 p.thickness fs k z (Spec.flip my y) (Spec.flip mx x))) := by
  obtain ⟨r', hd', -⟩ := image_core1 (my := my) (φ' := φ') (ψ' := ψ') norm_one ht ht' hd h
  have e : (cs.map fun c => (Conv.reindex (imgE mx my) c).gauge (shiftD 1 1)).map Conv.row
      = (cs.map Conv.row).map fun c => (Conv.reindex (revE mx _) c).gauge (fun i => (1 : ℂ) ^ ((i.val : ℤ) - p.fto.1)) := by
    rw [List.map_map, List.map_map]
    exact List.map_congr_left fun c _ => image_row hf 1 1 c
  rw [← e] at hd'
  refine ⟨_, ⟨_, diffraction1d_same (hq r' ⟨_, hd'⟩) hd', rfl⟩, fun k z y x => ?_⟩
  have e1 : (fun i : Fin (2 * p.fto.1 + 1) => (if p.pol = 0 then 1 else Spec.sign mx) * (1 : ℂ) ^ ((i.val : ℤ) - p.fto.1))
      = fun _ => (if p.pol = 0 then 1 else Spec.sign mx) := by
    funext i; rw [_root_.one_zpow, mul_one]
  rw [← unsix_mirror, e1]
  refine congrArg (unsix p.pol) ?_
  rw [stackFn_flat _ _ _ _ _ _ (Spec.flip my y) (Spec.flip false y)]
  exact stackFn_image (my := false) (revE mx _) _ (fun i => by rw [revE_apply]; exact kx_image ht ht' hd _) (fun i => by simp) _ _ _ _ _ _

theorem mirrorPsi_te (mx my : Bool) : Spec.MirrorPsi mx my ((Real.pi / 2 : ℝ) : ℂ) ((Real.pi / 2 : ℝ) : ℂ) := by
  refine ⟨Spec.sign mx * Spec.sign my, by rw [mul_pow, sign_sq, sign_sq, one_mul], ?_, ?_⟩
  · rw [← mul_assoc, mul_mul_mul_comm, ← pow_two, ← pow_two, sign_sq, sign_sq, one_mul, one_mul]
  · rw [← Complex.ofReal_cos, Real.cos_pi_div_two, Complex.ofReal_zero, mul_zero]

theorem mirrorPsi_tm (mx my : Bool) : Spec.MirrorPsi mx my 0 0 := ⟨1, one_pow 2, by simp, by simp⟩
end

end Meent
