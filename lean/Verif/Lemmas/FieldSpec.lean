import Verif.Spec.Fields
import Verif.Lemmas.FieldMatch
import Verif.Lemmas.Energy1DSolve
import Verif.Lemmas.Energy2D
import Verif.Lemmas.Orders
import Verif.Lemmas.Bare

/-!
# From amplitudes to sampled fields (helper lemmas)
-/

open Matrix

namespace Meent

set_option linter.unusedSectionVars false
set_option linter.unusedSimpArgs false

theorem linspace_eq (per : ℝ) (k : ℕ) (i : Fin k) : linspace 0 per k i = Spec.samplePoint per k i := by
  unfold linspace Spec.samplePoint
  split
  · rfl
  · rw [zero_add, sub_zero, mul_div_assoc]

/-! ### TE / TM -/

theorem tan_block1d {n : Type} [Fintype n] [DecidableEq n] (k0 pol px : ℝ) (kx : n → ℂ) (rx rz : ℕ)
    (l : LayerInfo n n) (T : n → ℂ) (iz : Fin rz) (iy : Fin 1) (ix : Fin rx) :
    Spec.tangential3 pol (block1d k0 pol px kx rx rz l T iz iy ix) =
      (let e := invFourier1d k0 kx (Spec.samplePoint px rx ix)
       let a := amps1d k0 pol kx l T (zSample rz l.d iz)
       if pol = 0 then ⟨0, e ⬝ᵥ a.1, Complex.I * (e ⬝ᵥ a.2.1), 0⟩
       else ⟨-Complex.I * (e ⬝ᵥ a.2.1), 0, 0, e ⬝ᵥ a.1⟩) := by
  unfold Spec.tangential3 block1d
  rw [linspace_eq]
  by_cases h : pol = 0 <;> simp [h]

theorem tan1d_top {n : Type} [Fintype n] [DecidableEq n] {k0 pol px : ℝ} {kx : n → ℂ} {rx rz : ℕ}
    {l : LayerInfo n n} {T : n → ℂ} {iz : Fin rz} (hz : iz.val = 0) (iy : Fin 1) (ix : Fin rx) :
    Spec.tangential3 pol (block1d k0 pol px kx rx rz l T iz iy ix) =
      (let e := invFourier1d k0 kx (Spec.samplePoint px rx ix)
       if pol = 0 then ⟨0, e ⬝ᵥ (view1d k0 l).topE T, Complex.I * (e ⬝ᵥ (view1d k0 l).topH T), 0⟩
       else ⟨-Complex.I * (e ⬝ᵥ (view1d k0 l).topH T), 0, 0, e ⬝ᵥ (view1d k0 l).topE T⟩) := by
  rw [tan_block1d, zSample_top hz]
  simp only [amps1d_top]

theorem tan1d_bottom {n : Type} [Fintype n] [DecidableEq n] {k0 pol px : ℝ} {kx : n → ℂ} {rx rz : ℕ}
    {l : LayerInfo n n} {T : n → ℂ} {iz : Fin rz} (hz : iz.val + 1 = rz) (h2 : 2 ≤ rz) (iy : Fin 1) (ix : Fin rx) :
    Spec.tangential3 pol (block1d k0 pol px kx rx rz l T iz iy ix) =
      (let e := invFourier1d k0 kx (Spec.samplePoint px rx ix)
       if pol = 0 then ⟨0, e ⬝ᵥ (view1d k0 l).botE T, Complex.I * (e ⬝ᵥ (view1d k0 l).botH T), 0⟩
       else ⟨-Complex.I * (e ⬝ᵥ (view1d k0 l).botH T), 0, 0, e ⬝ᵥ (view1d k0 l).botE T⟩) := by
  rw [tan_block1d, zSample_bottom hz h2]
  simp only [amps1d_bottom]

theorem transfer_1d_1_ok {n : Type} [Fintype n] [DecidableEq n] {pol : ℝ} {kx : n → ℂ} {nt nb : ℂ}
    {init : (n → ℂ) × (n → ℂ) × TState n} (h : transfer_1d_1 pol kx nt nb = .ok init) :
    init.1 = kz1d nt kx ∧ init.2.1 = kz1d nb kx ∧ init.2.2.F = 1 ∧ init.2.2.T = 1 ∧
    ((pol = 0 ∧ init.2.2.G = Complex.I • diagonal (kz1d nb kx)) ∨
     (pol = 1 ∧ init.2.2.G = Complex.I • diagonal (fun i => kz1d nb kx i / nb ^ 2))) := by
  unfold transfer_1d_1 at h
  by_cases h0 : pol = 0
  · simp only [h0, if_true, Except.ok.injEq] at h
    subst h
    exact ⟨rfl, rfl, rfl, rfl, .inl ⟨h0, rfl⟩⟩
  · by_cases h1 : pol = 1
    · simp only [h1, one_ne_zero, if_true, if_false, Except.ok.injEq] at h
      subst h
      exact ⟨rfl, rfl, rfl, rfl, .inr ⟨h1, rfl⟩⟩
    · simp only [h0, h1, if_false] at h
      cases h

theorem superpose1d_intro {p : Params} {x : ℝ} {f : Fin (2 * p.fto.1 + 1) → Spec.Tangential} {w : Spec.Tangential}
    (h1 : w.Ex = invFourier1d (2 * Real.pi / p.wavelength) (kxVec p p.wavelength) x ⬝ᵥ fun j => (f j).Ex)
    (h2 : w.Ey = invFourier1d (2 * Real.pi / p.wavelength) (kxVec p p.wavelength) x ⬝ᵥ fun j => (f j).Ey)
    (h3 : w.Hx = invFourier1d (2 * Real.pi / p.wavelength) (kxVec p p.wavelength) x ⬝ᵥ fun j => (f j).Hx)
    (h4 : w.Hy = invFourier1d (2 * Real.pi / p.wavelength) (kxVec p p.wavelength) x ⬝ᵥ fun j => (f j).Hy) :
    Spec.superpose1d p x f w := by
  have e : ∀ j, invFourier1d (2 * Real.pi / p.wavelength) (kxVec p p.wavelength) x j
      = Complex.exp (-Complex.I * (((2 * Real.pi / p.wavelength : ℝ) : ℂ) * ((x : ℂ) * kxVec p p.wavelength j))) := by
    intro j; unfold invFourier1d; congr 1; ring
  simp only [dotProduct, e] at h1 h2 h3 h4
  exact ⟨h1, h2, h3, h4⟩

theorem kzOf_zero {n : Type} (nn : ℂ) (kx : n → ℂ) (i : n) : Spec.kzOf nn (kx i) 0 = kz1d nn kx i := by
  unfold Spec.kzOf kz1d; simp

theorem add_Ex (a b : Spec.Tangential) : (a + b).Ex = a.Ex + b.Ex := rfl
theorem add_Ey (a b : Spec.Tangential) : (a + b).Ey = a.Ey + b.Ey := rfl
theorem add_Hx (a b : Spec.Tangential) : (a + b).Hx = a.Hx + b.Hx := rfl
theorem add_Hy (a b : Spec.Tangential) : (a + b).Hy = a.Hy + b.Hy := rfl

theorem dot_zero_fun {n : Type} [Fintype n] (e : n → ℂ) {f : n → ℂ} (h : ∀ j, f j = 0) : 0 = e ⬝ᵥ f := by
  rw [show f = 0 from funext h, dotProduct_zero]

theorem dot_congr {n : Type} [Fintype n] (e : n → ℂ) {f g : n → ℂ} (h : ∀ j, g j = f j) : e ⬝ᵥ g = e ⬝ᵥ f := by
  rw [funext h]

theorem dot_smul_fun {n : Type} [Fintype n] (e : n → ℂ) {f g : n → ℂ} {c : ℂ} (h : ∀ j, c * g j = f j) :
    c * (e ⬝ᵥ g) = e ⬝ᵥ f := by
  rw [show f = c • g from funext fun j => (h j).symm, dotProduct_smul, smul_eq_mul]

theorem matched1d {la : LinAlg} {p : Params} {convs : List (Conv (Fin (2 * p.fto.1 + 1)))}
    {o : Out1D (2 * p.fto.1 + 1)} (hp : p.use_pinv = false)
    (hn : p.n_top ≠ 0)
    (h : solve_1d la p p.wavelength convs = .ok o) (rx rz : ℕ) :
    (field_dist_1d p o rx rz).length = p.thickness.length ∧ Spec.Matched1d p o.res (field_dist_1d p o rx rz) := by
  obtain ⟨hl, init, r, x, h1, hr, hx, rfl⟩ := (solve_1d_iff hp).mp h
  obtain ⟨k1, k2, f1, t1, hg⟩ := transfer_1d_1_ok h1
  obtain ⟨lk, len⟩ := linked_of_run (v := view1d (2 * Real.pi / p.wavelength))
    (fun c d s r => view1d_step la hp _ _ c d s r) hr
  obtain ⟨R, T, eF, eT, -, hc⟩ := transfer_1d_4_ok hx
  have hd : ∀ j : Fin (2 * p.fto.1 + 1), (deltaI0 j : ℂ) = if j.val = p.fto.1 then 1 else 0 := by
    intro j; unfold deltaI0; congr 2; omega
  unfold field_dist_1d
  simp only
  rw [fieldLoop1d_eq]
  refine ⟨?_, ?_, ?_, ?_⟩
  · rw [List.length_map, trace_length, List.length_reverse, len, List.length_zip]; omega
  · intro k a b ha hb top bottom h0 hz h2 iy ix
    rw [List.getElem?_map, Option.map_eq_some_iff] at ha hb
    obtain ⟨y1, ha, rfl⟩ := ha
    obtain ⟨y2, hb, rfl⟩ := hb
    obtain ⟨s', T', e1, e2, e3, e4⟩ := lk.adjacent ha hb
    rw [tan1d_top h0, tan1d_bottom hz h2, e1, e2, e3, e4]
  · intro a ha top h0 iy ix
    rw [List.head?_map, Option.map_eq_some_iff] at ha
    obtain ⟨y, ha, rfl⟩ := ha
    obtain ⟨e1, e2⟩ := lk.head ha
    rw [tan1d_top h0, e1, e2, eF]
    rcases hc with ⟨p0, eG, -, rs, ts, -⟩ | ⟨p1, eG, -, rs, ts, -⟩
    · simp only [p0, if_true]
      rw [eG]
      apply superpose1d_intro
      · exact dot_zero_fun _ fun j => by
          simp [Spec.above1d, p0, Spec.planeWave, add_Ex]
      · dsimp only
        refine dot_congr _ fun j => ?_
        simp [Spec.above1d, p0, Spec.planeWave, add_Ey, rs, hd]; ring
      · refine dot_smul_fun _ fun j => ?_
        simp only [Spec.above1d, p0, Spec.planeWave, add_Hx, rs, hd, kzOf_zero, k1, if_true, Complex.cos_zero,
          Complex.sin_zero, Pi.neg_apply]
        linear_combination (-(p.n_top * Complex.cos p.theta * (if j.val = p.fto.1 then 1 else 0))
          + kz1d p.n_top (kxVec p p.wavelength) j * R j) * Complex.I_sq
      · exact dot_zero_fun _ fun j => by
          simp [Spec.above1d, p0, Spec.planeWave, add_Hy]
    · simp only [p1, one_ne_zero, if_false]
      rw [eG]
      apply superpose1d_intro
      · refine dot_smul_fun _ fun j => ?_
        simp only [Spec.above1d, p1, Spec.planeWave, add_Ex, rs, hd, kzOf_zero, k1, one_ne_zero, if_false,
          Complex.cos_zero, Complex.sin_zero, Pi.neg_apply]
        have : p.n_top * Complex.cos p.theta / p.n_top ^ 2 = Complex.cos p.theta / p.n_top := by
          field_simp
        rw [this]
        linear_combination ((Complex.cos p.theta / p.n_top * (if j.val = p.fto.1 then 1 else 0))
          - kz1d p.n_top (kxVec p p.wavelength) j / p.n_top ^ 2 * R j) * Complex.I_sq
      · exact dot_zero_fun _ fun j => by
          simp [Spec.above1d, p1, Spec.planeWave, add_Ey]
      · exact dot_zero_fun _ fun j => by
          simp [Spec.above1d, p1, Spec.planeWave, add_Hx]
      · dsimp only
        refine dot_congr _ fun j => ?_
        simp [Spec.above1d, p1, Spec.planeWave, add_Hy, rs, hd]; ring
  · intro a ha bottom hz h2 iy ix
    rw [List.getLast?_map, Option.map_eq_some_iff] at ha
    obtain ⟨y, ha, rfl⟩ := ha
    obtain ⟨T', e1, e2, e3⟩ := lk.last ha
    rw [t1, one_mulVec, ← eT] at e3
    subst e3
    rw [tan1d_bottom hz h2, e1, e2, f1, one_mulVec]
    rcases hc with ⟨p0, -, -, rs, ts, -⟩ | ⟨p1, -, -, rs, ts, -⟩
    · have eG : init.2.2.G = Complex.I • diagonal (kz1d p.n_bot (kxVec p p.wavelength)) := by
        rcases hg with ⟨_, h⟩ | ⟨h, _⟩
        · exact h
        · rw [p0] at h; norm_num at h
      rw [eG]
      simp only [p0, if_true]
      apply superpose1d_intro
      · exact dot_zero_fun _ fun j => by simp [Spec.below1d, p0, Spec.planeWave]
      · dsimp only
        refine dot_congr _ fun j => ?_
        simp [Spec.below1d, p0, Spec.planeWave, ts]
      · refine dot_smul_fun _ fun j => ?_
        simp only [Spec.below1d, p0, Spec.planeWave, ts, kzOf_zero, if_true, Complex.cos_zero,
          Complex.sin_zero, Pi.neg_apply, smul_mulVec, Pi.smul_apply, mulVec_diagonal, smul_eq_mul]
        linear_combination (-(kz1d p.n_bot (kxVec p p.wavelength) j * T j)) * Complex.I_sq
      · exact dot_zero_fun _ fun j => by simp [Spec.below1d, p0, Spec.planeWave]
    · have eG : init.2.2.G = Complex.I • diagonal (fun i => kz1d p.n_bot (kxVec p p.wavelength) i / p.n_bot ^ 2) := by
        rcases hg with ⟨h, _⟩ | ⟨_, h⟩
        · rw [p1] at h; norm_num at h
        · exact h
      rw [eG]
      simp only [p1, one_ne_zero, if_false]
      apply superpose1d_intro
      · refine dot_smul_fun _ fun j => ?_
        simp only [Spec.below1d, p1, one_ne_zero, if_false, Spec.planeWave, ts, kzOf_zero, Complex.cos_zero,
          Complex.sin_zero, Pi.neg_apply, smul_mulVec, Pi.smul_apply, mulVec_diagonal, smul_eq_mul]
        linear_combination (kz1d p.n_bot (kxVec p p.wavelength) j / p.n_bot ^ 2 * T j) * Complex.I_sq
      · exact dot_zero_fun _ fun j => by simp [Spec.below1d, p1, Spec.planeWave]
      · exact dot_zero_fun _ fun j => by simp [Spec.below1d, p1, Spec.planeWave]
      · dsimp only
        refine dot_congr _ fun j => ?_
        simp [Spec.below1d, p1, Spec.planeWave, ts]

/-! ### Conical and 2D -/

variable {m : Type} [Fintype m] [DecidableEq m]

/-- Transverse electric amplitudes. -/
def Amps6.S (a : Amps6 m) : m ⊕ m → ℂ := Sum.elim a.Sx a.Sy
/-- Transverse magnetic amplitudes. -/
def Amps6.U (a : Amps6 m) : m ⊕ m → ℂ := Sum.elim a.Ux a.Uy

theorem wave_inl (k0 : ℝ) (q : m ⊕ m → ℂ) (d z : ℝ) (T c : m ⊕ m → ℂ) :
    (expDown k0 q z *ᵥ T + expUp k0 q d z *ᵥ c) ∘ Sum.inl
      = expDown k0 (fun i => q (.inl i)) z *ᵥ (fun i => T (.inl i))
        + expUp k0 (fun i => q (.inl i)) d z *ᵥ fun i => c (.inl i) := by
  ext i; simp [expDown, expUp, mulVec_diagonal]
theorem wave_inr (k0 : ℝ) (q : m ⊕ m → ℂ) (d z : ℝ) (T c : m ⊕ m → ℂ) :
    (expDown k0 q z *ᵥ T + expUp k0 q d z *ᵥ c) ∘ Sum.inr
      = expDown k0 (fun i => q (.inr i)) z *ᵥ (fun i => T (.inr i))
        + expUp k0 (fun i => q (.inr i)) d z *ᵥ fun i => c (.inr i) := by
  ext i; simp [expDown, expUp, mulVec_diagonal]
theorem wave_inl' (k0 : ℝ) (q : m ⊕ m → ℂ) (d z : ℝ) (T c : m ⊕ m → ℂ) :
    (-(expDown k0 q z *ᵥ T) + expUp k0 q d z *ᵥ c) ∘ Sum.inl
      = -expDown k0 (fun i => q (.inl i)) z *ᵥ (fun i => T (.inl i))
        + expUp k0 (fun i => q (.inl i)) d z *ᵥ fun i => c (.inl i) := by
  ext i; simp [expDown, expUp, mulVec_diagonal, neg_mulVec]
theorem wave_inr' (k0 : ℝ) (q : m ⊕ m → ℂ) (d z : ℝ) (T c : m ⊕ m → ℂ) :
    (-(expDown k0 q z *ᵥ T) + expUp k0 q d z *ᵥ c) ∘ Sum.inr
      = -expDown k0 (fun i => q (.inr i)) z *ᵥ (fun i => T (.inr i))
        + expUp k0 (fun i => q (.inr i)) d z *ᵥ fun i => c (.inr i) := by
  ext i; simp [expDown, expUp, mulVec_diagonal, neg_mulVec]

theorem amps2d_SU (k0 : ℝ) (kx ky : m → ℂ) (l : LayerInfo m (m ⊕ m)) (T : m ⊕ m → ℂ) (z : ℝ) :
    let c := l.B *ᵥ l.A_i *ᵥ phaseX k0 l.modes.q l.d *ᵥ T
    (amps2d k0 kx ky l T z).S = l.modes.W *ᵥ (expDown k0 l.modes.q z *ᵥ T + expUp k0 l.modes.q l.d z *ᵥ c) ∧
    (amps2d k0 kx ky l T z).U = l.modes.V *ᵥ (-(expDown k0 l.modes.q z *ᵥ T) + expUp k0 l.modes.q l.d z *ᵥ c) := by
  intro c
  constructor
  · conv_rhs => rw [← fromBlocks_toBlocks l.modes.W, fromBlocks_mulVec, wave_inl, wave_inr]
    rfl
  · conv_rhs => rw [← fromBlocks_toBlocks l.modes.V, fromBlocks_mulVec, wave_inl', wave_inr']
    rfl

theorem ampsCon_SU (k0 : ℝ) (kx ky : m → ℂ) (l : LayerInfoCon m) (T : m ⊕ m → ℂ) (z : ℝ) :
    let q := Sum.elim l.modes.q1 l.modes.q2
    let c := l.B *ᵥ l.A_i *ᵥ phaseX k0 q l.d *ᵥ T
    (ampsCon k0 kx ky l T z).S = conW0 l.modes *ᵥ (expDown k0 q z *ᵥ T + expUp k0 q l.d z *ᵥ c) ∧
    (ampsCon k0 kx ky l T z).U = conV0 l.modes *ᵥ (-(expDown k0 q z *ᵥ T) + expUp k0 q l.d z *ᵥ c) := by
  intro q c
  have hc : c = l.B *ᵥ l.A_i *ᵥ bigX k0 l.modes.q1 l.modes.q2 l.d *ᵥ T := by rw [bigX_eq]
  rw [hc]
  constructor
  · unfold Amps6.S ampsCon withZ conW0
    rw [fromBlocks_mulVec, zero_mulVec, zero_add, wave_inl, wave_inr]
    rfl
  · unfold Amps6.U ampsCon withZ conV0
    rw [fromBlocks_mulVec, zero_mulVec, add_zero, wave_inl', wave_inr']
    rfl

/-- The amplitudes at the two faces of a layer are its tangential amplitudes, rotated back. -/
structure Faces (varphi : m → ℂ) (v : LView (m ⊕ m)) (d : ℝ) (T : m ⊕ m → ℂ) (a : ℝ → Amps6 m) : Prop where
  topS : (a 0).S = rotE varphi *ᵥ v.topE T
  topU : (a 0).U = rotH' varphi *ᵥ v.topH T
  botS : (a d).S = rotE varphi *ᵥ v.botE T
  botU : (a d).U = rotH' varphi *ᵥ v.botH T

theorem faces_2d (k0 : ℝ) (kx ky varphi : m → ℂ) (l : LayerInfo m (m ⊕ m)) (T : m ⊕ m → ℂ) :
    Faces varphi (view2d k0 varphi l) l.d T (amps2d k0 kx ky l T) := by
  have hE : ∀ u, rotE varphi *ᵥ bigW2d varphi l.modes.W *ᵥ u = l.modes.W *ᵥ u := by
    intro u; rw [bigW2d_eq, mulVec_mulVec, ← Matrix.mul_assoc, rotE_sq, Matrix.one_mul]
  have hH : ∀ u, rotH' varphi *ᵥ bigV2d varphi l.modes.V *ᵥ u = l.modes.V *ᵥ u := by
    intro u; rw [bigV2d_eq, mulVec_mulVec, ← Matrix.mul_assoc, rotH'_mul, Matrix.one_mul]
  refine ⟨?_, ?_, ?_, ?_⟩
  · rw [(amps2d_SU k0 kx ky l T 0).1, expDown_zero, expUp_zero, one_mulVec]; exact (hE _).symm
  · rw [(amps2d_SU k0 kx ky l T 0).2, expDown_zero, expUp_zero, one_mulVec]; exact (hH _).symm
  · rw [(amps2d_SU k0 kx ky l T l.d).1, expDown_d, expUp_d, one_mulVec]; exact (hE _).symm
  · rw [(amps2d_SU k0 kx ky l T l.d).2, expDown_d, expUp_d, one_mulVec]; exact (hH _).symm

theorem faces_con (k0 : ℝ) (kx ky varphi : m → ℂ) (l : LayerInfoCon m) (T : m ⊕ m → ℂ) :
    Faces varphi (viewCon k0 varphi l) l.d T (ampsCon k0 kx ky l T) := by
  have hE : ∀ u, rotE varphi *ᵥ conW varphi l.modes *ᵥ u = conW0 l.modes *ᵥ u := by
    intro u; rw [conW_eq, mulVec_mulVec, ← Matrix.mul_assoc, rotE_sq, Matrix.one_mul]
  have hH : ∀ u, rotH' varphi *ᵥ conV varphi l.modes *ᵥ u = conV0 l.modes *ᵥ u := by
    intro u; rw [conV_eq, mulVec_mulVec, ← Matrix.mul_assoc, rotH'_mul, Matrix.one_mul]
  refine ⟨?_, ?_, ?_, ?_⟩
  · rw [(ampsCon_SU k0 kx ky l T 0).1, expDown_zero, expUp_zero, one_mulVec]; exact (hE _).symm
  · rw [(ampsCon_SU k0 kx ky l T 0).2, expDown_zero, expUp_zero, one_mulVec]; exact (hH _).symm
  · rw [(ampsCon_SU k0 kx ky l T l.d).1, expDown_d, expUp_d, one_mulVec]; exact (hE _).symm
  · rw [(ampsCon_SU k0 kx ky l T l.d).2, expDown_d, expUp_d, one_mulVec]; exact (hH _).symm

theorem rotE_inl (varphi : m → ℂ) (w : m ⊕ m → ℂ) (i : m) : (rotE varphi *ᵥ w) (.inl i)
    = -Complex.sin (varphi i) * w (.inl i) + Complex.cos (varphi i) * w (.inr i) := by
  unfold rotE; rw [fromBlocks_mulVec]; simp [neg_mulVec, mulVec_diagonal]
theorem rotE_inr (varphi : m → ℂ) (w : m ⊕ m → ℂ) (i : m) : (rotE varphi *ᵥ w) (.inr i)
    = Complex.cos (varphi i) * w (.inl i) + Complex.sin (varphi i) * w (.inr i) := by
  unfold rotE; rw [fromBlocks_mulVec]; simp [neg_mulVec, mulVec_diagonal]
theorem rotH'_inl (varphi : m → ℂ) (w : m ⊕ m → ℂ) (i : m) : (rotH' varphi *ᵥ w) (.inl i)
    = Complex.cos (varphi i) * w (.inl i) - Complex.sin (varphi i) * w (.inr i) := by
  unfold rotH'; rw [fromBlocks_mulVec]; simp [neg_mulVec, mulVec_diagonal, sub_eq_add_neg]
theorem rotH'_inr (varphi : m → ℂ) (w : m ⊕ m → ℂ) (i : m) : (rotH' varphi *ᵥ w) (.inr i)
    = Complex.sin (varphi i) * w (.inl i) + Complex.cos (varphi i) * w (.inr i) := by
  unfold rotH'; rw [fromBlocks_mulVec]; simp [neg_mulVec, mulVec_diagonal]

/-- Tangential part of a sampled block, from the transverse amplitudes. -/
noncomputable def tanOf (e : m → ℂ) (S U : m ⊕ m → ℂ) : Spec.Tangential :=
  ⟨e ⬝ᵥ fun i => S (.inl i), e ⬝ᵥ fun i => S (.inr i), Complex.I * (e ⬝ᵥ fun i => U (.inl i)),
    Complex.I * (e ⬝ᵥ fun i => U (.inr i))⟩

theorem tan_block6 (k0 : ℝ) (per : ℝ × ℝ) (kx ky : m → ℂ) (rx ry rz : ℕ) (d : ℝ) (a : ℝ → Amps6 m)
    (iz : Fin rz) (iy : Fin ry) (ix : Fin rx) :
    Spec.tangential6 (block6 k0 per kx ky rx ry rz d a iz iy ix) =
      tanOf (invFourier2d k0 kx ky (Spec.samplePoint per.1 rx ix) (Spec.samplePoint per.2 ry iy.rev))
        (a (zSample rz d iz)).S (a (zSample rz d iz)).U := by
  unfold Spec.tangential6 block6 tanOf
  rw [linspace_eq, linspace_eq]
  rfl

theorem sum_flat {fx fy : ℕ} (g : FlatIdx fx fy → ℂ) :
    ∑ i, g i = ∑ jy : Fin (2 * fy + 1), ∑ jx : Fin (2 * fx + 1), g (finProdFinEquiv (jy, jx)) := by
  rw [← Equiv.sum_comp finProdFinEquiv g, Fintype.sum_prod_type]

theorem superpose_intro {p : Params} {x y : ℝ}
    {f : Fin (2 * p.fto.2 + 1) → Fin (2 * p.fto.1 + 1) → Spec.Tangential} {S U : FlatIdx p.fto.1 p.fto.2 ⊕ FlatIdx p.fto.1 p.fto.2 → ℂ}
    (h1 : ∀ jy jx, S (.inl (finProdFinEquiv (jy, jx))) = (f jy jx).Ex)
    (h2 : ∀ jy jx, S (.inr (finProdFinEquiv (jy, jx))) = (f jy jx).Ey)
    (h3 : ∀ jy jx, Complex.I * U (.inl (finProdFinEquiv (jy, jx))) = (f jy jx).Hx)
    (h4 : ∀ jy jx, Complex.I * U (.inr (finProdFinEquiv (jy, jx))) = (f jy jx).Hy) :
    Spec.superpose p x y f
      (tanOf (invFourier2d (2 * Real.pi / p.wavelength) (tileX (kxVec p p.wavelength)) (tileY (kyVec p p.wavelength)) x y) S U) := by
  have e : ∀ jy jx, invFourier2d (2 * Real.pi / p.wavelength) (tileX (kxVec p p.wavelength))
      (tileY (kyVec p p.wavelength)) x y (finProdFinEquiv (jy, jx) : FlatIdx p.fto.1 p.fto.2)
      = Complex.exp (-Complex.I * (((2 * Real.pi / p.wavelength : ℝ) : ℂ) *
        ((x : ℂ) * kxVec p p.wavelength jx + (y : ℂ) * kyVec p p.wavelength jy))) := by
    intro jy jx
    unfold invFourier2d tileX tileY
    rw [← Complex.exp_add, modNat_prod, divNat_prod]
    congr 1; ring
  refine ⟨?_, ?_, ?_, ?_⟩ <;> simp only [tanOf, dotProduct, Finset.mul_sum] <;> rw [sum_flat] <;>
    refine Finset.sum_congr rfl fun jy _ => Finset.sum_congr rfl fun jx _ => ?_
  · rw [e, h1]
  · rw [e, h2]
  · rw [e, ← h3]; ring
  · rw [e, ← h4]; ring

theorem azimuth_eq {kx ky v : ℂ} (h : varphi1 kx ky = some v) : Spec.azimuth kx ky = v := by
  unfold varphi1 at h
  unfold Spec.azimuth
  by_cases h1 : kx = 0
  · by_cases h2 : ky = 0
    · simp [h1, h2] at h
    · simp only [h1, h2, if_true, if_false, Option.some.injEq] at h ⊢; exact h
  · simp only [h1, if_false, Option.some.injEq] at h ⊢; exact h

theorem transfer_2d_1_ok {kx ky : m → ℂ} {nt nb : ℂ} {init : (m → ℂ) × (m → ℂ) × (m → ℂ) × TState (m ⊕ m)}
    (h : transfer_2d_1 kx ky nt nb = .ok init) :
    init.1 = kz2d nt kx ky ∧ init.2.1 = kz2d nb kx ky ∧
    (∀ i, Spec.azimuth (kx i) (ky i) = init.2.2.1 i) ∧
    init.2.2.2 = { F := fromBlocks 1 0 0 (((1 : ℂ) / nb ^ 2) • (Complex.I • diagonal (kz2d nb kx ky))),
                   G := fromBlocks (Complex.I • diagonal (kz2d nb kx ky)) 0 0 1, T := 1 } := by
  unfold transfer_2d_1 at h
  simp only [Except.bind_ok] at h
  obtain ⟨v, hv, e⟩ := h
  obtain rfl := Except.ok.inj e
  exact ⟨rfl, rfl, fun i => azimuth_eq (varphiAll_ok.mp hv i), rfl⟩

/-- The core: continuity and matching for one incident wave. -/
theorem matched6 {p : Params} {L : Type} {v : L → LView (FlatIdx p.fto.1 p.fto.2 ⊕ FlatIdx p.fto.1 p.fto.2)}
    {kzt kzb varphi : FlatIdx p.fto.1 p.fto.2 → ℂ} {s0 s : TState (FlatIdx p.fto.1 p.fto.2 ⊕ FlatIdx p.fto.1 p.fto.2)}
    (hn : p.n_top ≠ 0)
    (h1 : transfer_2d_1 (kxF p p.wavelength) (kyF p p.wavelength) p.n_top p.n_bot = .ok (kzt, kzb, varphi, s0))
    {ls : List L} (lk : Linked v s0 ls s) {d : L → ℝ}
    {a : L → (FlatIdx p.fto.1 p.fto.2 ⊕ FlatIdx p.fto.1 p.fto.2 → ℂ) → ℝ → Amps6 (FlatIdx p.fto.1 p.fto.2)}
    (ha : ∀ l T, Faces varphi (v l) (d l) T (a l T)) {ψ : ℂ}
    {rt : (FlatIdx p.fto.1 p.fto.2 ⊕ FlatIdx p.fto.1 p.fto.2) ⊕ (FlatIdx p.fto.1 p.fto.2 ⊕ FlatIdx p.fto.1 p.fto.2) → ℂ}
    (hrt : finalA p.n_top kzt s *ᵥ rt = finalB deltaI0 ψ p.theta p.n_top) (rx ry rz : ℕ) :
    Spec.Matched p ψ (subResOf s kzt kzb p.theta p.n_top p.n_bot rt)
      ((trace v ls (fun i => rt (.inr i))).map (fun x =>
        block6 (2 * Real.pi / p.wavelength) p.period (kxF p p.wavelength) (kyF p p.wavelength) rx ry rz (d x.1)
          (a x.1 x.2))) := by
  obtain ⟨k1, k2, hv, e0⟩ := transfer_2d_1_ok h1
  simp only at k1 k2 hv e0
  have hphi : ∀ jy jx, Spec.azimuth (kxVec p p.wavelength jx) (kyVec p p.wavelength jy)
      = varphi (finProdFinEquiv (jy, jx)) := by
    intro jy jx
    rw [← hv]
    unfold kxF kyF tileX tileY
    rw [modNat_prod, divNat_prod]
  have hkz : ∀ nn jy jx, Spec.kzOf nn (kxVec p p.wavelength jx) (kyVec p p.wavelength jy)
      = kz2d nn (kxF p p.wavelength) (kyF p p.wavelength) (finProdFinEquiv (jy, jx)) := by
    intro nn jy jx
    unfold Spec.kzOf kz2d kxF kyF tileX tileY
    rw [modNat_prod, divNat_prod]
  have hd : ∀ (jy : Fin (2 * p.fto.2 + 1)) (jx : Fin (2 * p.fto.1 + 1)), deltaI0 (finProdFinEquiv (jy, jx) : FlatIdx p.fto.1 p.fto.2)
      = Spec.incidentOrder jy jx := by
    intro jy jx
    rw [deltaI0_order]
    unfold Spec.incidentOrder Spec.colOrder Spec.rowOrder
    refine if_congr ?_ rfl rfl
    omega
  obtain ⟨f1, f2, f3, f4⟩ := final_eqs hrt
  refine ⟨?_, ?_, ?_⟩
  · intro k b1 b2 hb1 hb2 top bottom h0 hz h2 iy ix
    rw [List.getElem?_map, Option.map_eq_some_iff] at hb1 hb2
    obtain ⟨y1, hb1, rfl⟩ := hb1
    obtain ⟨y2, hb2, rfl⟩ := hb2
    obtain ⟨s', T', e1, e2, e3, e4⟩ := lk.adjacent hb1 hb2
    rw [tan_block6, tan_block6, zSample_top h0, zSample_bottom hz h2, (ha _ _).topS, (ha _ _).topU, (ha _ _).botS,
      (ha _ _).botU, e1, e2, e3, e4]
  · intro b hb top h0 iy ix
    rw [List.head?_map, Option.map_eq_some_iff] at hb
    obtain ⟨y, hb, rfl⟩ := hb
    obtain ⟨e1, e2⟩ := lk.head hb
    rw [tan_block6, zSample_top h0, (ha _ _).topS, (ha _ _).topU, e1, e2]
    have hnn : p.n_top * Complex.cos p.theta / p.n_top ^ 2 * (p.n_top * Complex.cos ψ)
        = Complex.cos p.theta * Complex.cos ψ := by field_simp
    apply superpose_intro <;> intro jy jx <;>
      simp only [rotE_inl, rotE_inr, rotH'_inl, rotH'_inr, Pi.neg_apply, f1, f2, f3, f4, hd, Spec.above, Spec.planeWave, add_Ex, add_Ey,
        add_Hx, add_Hy, hphi, hkz, ← k1, subResOf]
    · linear_combination (-Complex.cos (varphi (finProdFinEquiv (jy, jx))) * Spec.incidentOrder jy jx) * (-hnn)
    · linear_combination (-Complex.sin (varphi (finProdFinEquiv (jy, jx))) * Spec.incidentOrder jy jx) * (-hnn)
    · linear_combination (Complex.cos (varphi (finProdFinEquiv (jy, jx))) * (kzt (finProdFinEquiv (jy, jx))
          * rt (.inl (.inl (finProdFinEquiv (jy, jx)))) - Complex.sin ψ * p.n_top * Complex.cos p.theta * Spec.incidentOrder jy jx)
        + Complex.sin (varphi (finProdFinEquiv (jy, jx))) * p.n_top * Complex.cos ψ * Spec.incidentOrder jy jx) * Complex.I_sq
    · linear_combination (Complex.sin (varphi (finProdFinEquiv (jy, jx))) * (kzt (finProdFinEquiv (jy, jx))
          * rt (.inl (.inl (finProdFinEquiv (jy, jx)))) - Complex.sin ψ * p.n_top * Complex.cos p.theta * Spec.incidentOrder jy jx)
        - Complex.cos (varphi (finProdFinEquiv (jy, jx))) * p.n_top * Complex.cos ψ * Spec.incidentOrder jy jx) * Complex.I_sq
  · intro b hb bottom hz h2 iy ix
    rw [List.getLast?_map, Option.map_eq_some_iff] at hb
    obtain ⟨y, hb, rfl⟩ := hb
    obtain ⟨T', e1, e2, e3⟩ := lk.last hb
    have e3' : T' = s.T *ᵥ fun i => rt (.inr i) := by
      rw [e3, e0, one_mulVec]
    rw [tan_block6, zSample_bottom hz h2, (ha _ _).botS, (ha _ _).botU, e1, e2, e0, e3']
    apply superpose_intro <;> intro jy jx <;>
      simp only [rotE_inl, rotE_inr, rotH'_inl, rotH'_inr, Pi.neg_apply, fromBlocks_mulVec, Spec.below, Spec.planeWave,
        hphi, hkz, subResOf, Sum.elim_inl, Sum.elim_inr, one_mulVec, zero_mulVec, add_zero, zero_add,
        Pi.add_apply, Pi.zero_apply, smul_mulVec, Pi.smul_apply, mulVec_diagonal, smul_eq_mul, Function.comp_apply]
    · ring
    · ring
    · linear_combination (-(Complex.cos (varphi (finProdFinEquiv (jy, jx)))
        * kz2d p.n_bot (kxF p p.wavelength) (kyF p p.wavelength) (finProdFinEquiv (jy, jx))
        * (s.T *ᵥ fun i => rt (.inr i)) (.inl (finProdFinEquiv (jy, jx))))) * Complex.I_sq
    · linear_combination (-(Complex.sin (varphi (finProdFinEquiv (jy, jx)))
        * kz2d p.n_bot (kxF p p.wavelength) (kyF p p.wavelength) (finProdFinEquiv (jy, jx))
        * (s.T *ᵥ fun i => rt (.inr i)) (.inl (finProdFinEquiv (jy, jx))))) * Complex.I_sq

/-- The solution vectors behind the dictionaries of the conical and 2D solvers. -/
theorem transfer_2d_4_rt {fx fy : ℕ} {la : LinAlg} {s : TState (FlatIdx fx fy ⊕ FlatIdx fx fy)}
    {kzt kzb : FlatIdx fx fy → ℂ} {psi theta nt nb : ℂ} {o : Out4 fx fy}
    (h : transfer_2d_4 la s kzt kzb psi theta nt nb false = .ok o) :
    ∃ rt : ℂ → (FlatIdx fx fy ⊕ FlatIdx fx fy) ⊕ (FlatIdx fx fy ⊕ FlatIdx fx fy) → ℂ,
      (∀ ψ, finalA nt kzt s *ᵥ rt ψ = finalB deltaI0 ψ theta nt) ∧
      o.res = subResOf s kzt kzb theta nt nb (rt psi) ∧
      o.res_te = subResOf s kzt kzb theta nt nb (rt ((Real.pi / 2 : ℝ) : ℂ)) ∧
      o.res_tm = subResOf s kzt kzb theta nt nb (rt 0) ∧
      o.T1 = (fun i => rt psi (.inr i)) ∧ o.T1_te = (fun i => rt ((Real.pi / 2 : ℝ) : ℂ) (.inr i)) ∧
      o.T1_tm = (fun i => rt 0 (.inr i)) := by
  unfold transfer_2d_4 at h
  simp only [Except.bind_ok, meeinv_false_ok] at h
  obtain ⟨M, ⟨hu, rfl⟩, e⟩ := h
  obtain rfl := Except.ok.inj e
  refine ⟨fun ψ => (finalA nt kzt s)⁻¹ *ᵥ finalB deltaI0 ψ theta nt, fun ψ => ?_, rfl, rfl, rfl, rfl, rfl, rfl⟩
  rw [mulVec_mulVec, mul_nonsing_inv _ hu, one_mulVec]

/-- The incident polarization angles and dictionaries selected by `set_field_input`. -/
theorem forall₂_select {α : Type} {p : ℂ} {fx fy : ℕ} {o : Out4 fx fy}
    {P : ℂ × SubRes (2 * fy + 1) (2 * fx + 1) → α → Prop} {F : (FlatIdx fx fy ⊕ FlatIdx fx fy → ℂ) → α}
    (h1 : P (p, o.res) (F o.T1)) (h2 : P (((Real.pi / 2 : ℝ) : ℂ), o.res_te) (F o.T1_te))
    (h3 : P (0, o.res_tm) (F o.T1_tm)) (sel : Bool × Bool × Bool) :
    List.Forall₂ P (Spec.selectedInputs p o.res o.res_te o.res_tm sel) ((selectT1 o sel).map F) := by
  obtain ⟨a, b, c⟩ := sel
  unfold Spec.selectedInputs selectT1
  generalize ((Real.pi / 2 : ℝ) : ℂ) = te at *
  cases a <;> cases b <;> cases c <;> simp [h1, h2, h3]

theorem matchedCon {la : LinAlg} {p : Params} {convs : List (Conv (FlatIdx p.fto.1 p.fto.2))}
    {o : OutCon p.fto.1 p.fto.2} (hp : p.use_pinv = false) (hn : p.n_top ≠ 0)
    (h : solve_1d_conical la p p.wavelength convs = .ok o) (rx ry rz : ℕ) (sel : Bool × Bool × Bool) :
    List.Forall₂ (fun i cell => cell.length = p.thickness.length ∧ Spec.Matched p i.1 i.2 cell)
      (Spec.selectedInputs p.psi o.out.res o.out.res_te o.out.res_tm sel)
      (field_dist_1d_conical p o rx ry rz sel) := by
  obtain ⟨hl, -, ⟨kzt, kzb, varphi, s0⟩, r, x, h1, hr, hx, rfl⟩ := (solve_con_iff hp).mp h
  obtain ⟨lk, len⟩ := linked_of_run (v := viewCon (2 * Real.pi / p.wavelength) varphi)
    (fun c d s r => viewCon_step la _ _ _ _ c d s r) hr
  obtain ⟨rt, hrt, e1, e2, e3, e4, e5, e6⟩ := transfer_2d_4_rt hx
  have key : ∀ ψ, Spec.Matched p ψ (subResOf r.1 kzt kzb p.theta p.n_top p.n_bot (rt ψ))
      (fieldLoopCon (2 * Real.pi / p.wavelength) p.period (kxF p p.wavelength) (kyF p p.wavelength) rx ry rz
        r.2.reverse fun i => rt ψ (.inr i)) := by
    intro ψ
    rw [fieldLoopCon_eq _ _ _ _ varphi]
    exact matched6 hn h1 lk (d := fun l => l.d) (fun l T => faces_con _ _ _ _ l T) (hrt ψ) rx ry rz
  have hlen : ∀ T, (fieldLoopCon (2 * Real.pi / p.wavelength) p.period (kxF p p.wavelength) (kyF p p.wavelength) rx ry rz
        r.2.reverse T).length = p.thickness.length := by
    intro T
    rw [fieldLoopCon_eq _ _ _ _ varphi, List.length_map, trace_length, List.length_reverse, len, List.length_zip]; omega
  unfold field_dist_1d_conical
  refine forall₂_select ⟨hlen _, ?_⟩ ⟨hlen _, ?_⟩ ⟨hlen _, ?_⟩ sel
  · simp only; rw [e1, e4]; exact key _
  · simp only; rw [e2, e5]; exact key _
  · simp only; rw [e3, e6]; exact key _

theorem matched2d {la : LinAlg} {p : Params} {convs : List (Conv (FlatIdx p.fto.1 p.fto.2))}
    {o : Out2D p.fto.1 p.fto.2} (hp : p.use_pinv = false) (hn : p.n_top ≠ 0)
    (h : solve_2d la p p.wavelength convs = .ok o) (rx ry rz : ℕ) (sel : Bool × Bool × Bool) :
    List.Forall₂ (fun i cell => cell.length = p.thickness.length ∧ Spec.Matched p i.1 i.2 cell)
      (Spec.selectedInputs p.psi o.out.res o.out.res_te o.out.res_tm sel)
      (field_dist_2d p o rx ry rz sel) := by
  obtain ⟨hl, ⟨kzt, kzb, varphi, s0⟩, r, x, h1, hr, hx, rfl⟩ := (solve_2d_iff hp).mp h
  obtain ⟨lk, len⟩ := linked_of_run (v := view2d (2 * Real.pi / p.wavelength) varphi)
    (fun c d s r => view2d_step la _ _ _ _ c d s r) hr
  obtain ⟨rt, hrt, e1, e2, e3, e4, e5, e6⟩ := transfer_2d_4_rt hx
  have key : ∀ ψ, Spec.Matched p ψ (subResOf r.1 kzt kzb p.theta p.n_top p.n_bot (rt ψ))
      (fieldLoop2d (2 * Real.pi / p.wavelength) p.period (kxF p p.wavelength) (kyF p p.wavelength) rx ry rz
        r.2.reverse fun i => rt ψ (.inr i)) := by
    intro ψ
    rw [fieldLoop2d_eq _ _ _ _ varphi]
    exact matched6 hn h1 lk (d := fun l => l.d) (fun l T => faces_2d _ _ _ _ l T) (hrt ψ) rx ry rz
  have hlen : ∀ T, (fieldLoop2d (2 * Real.pi / p.wavelength) p.period (kxF p p.wavelength) (kyF p p.wavelength) rx ry rz
        r.2.reverse T).length = p.thickness.length := by
    intro T
    rw [fieldLoop2d_eq _ _ _ _ varphi, List.length_map, trace_length, List.length_reverse, len, List.length_zip]; omega
  unfold field_dist_2d
  refine forall₂_select ⟨hlen _, ?_⟩ ⟨hlen _, ?_⟩ ⟨hlen _, ?_⟩ sel
  · simp only; rw [e1, e4]; exact key _
  · simp only; rw [e2, e5]; exact key _
  · simp only; rw [e3, e6]; exact key _

end Meent
