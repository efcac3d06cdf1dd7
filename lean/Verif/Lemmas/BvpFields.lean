import Verif.Lemmas.Bvp
import Verif.Lemmas.FieldSpec
import Verif.Lemmas.ConTo2D

/-!
# Maxwell's equations for the amplitudes of the code (helper lemmas)
-/

open Matrix

namespace Meent

set_option linter.unusedSectionVars false
set_option linter.unusedSimpArgs false

variable {m : Type} [Fintype m] [DecidableEq m]

theorem omegaL_inl (kx ky : m → ℂ) (c : Conv m) (U : m ⊕ m → ℂ) (i : m) : (omegaL kx ky c *ᵥ U) (.inl i)
    = -(kx i * (c.epzi *ᵥ fun j => ky j * U (.inl j)) i) + kx i * (c.epzi *ᵥ fun j => kx j * U (.inr j)) i - U (.inr i) := by
  have e : ∀ (k u : m → ℂ), (fun j => k j * u j) = diagonal k *ᵥ u := fun k u => by ext j; rw [mulVec_diagonal]
  unfold omegaL
  rw [fromBlocks_mulVec, e ky (fun j => U (.inl j)), e kx (fun j => U (.inr j))]
  simp only [Sum.elim_inl, Pi.add_apply, neg_mulVec, sub_mulVec, one_mulVec, Pi.neg_apply, Pi.sub_apply, ← mulVec_mulVec,
    mulVec_diagonal, Function.comp_apply, Function.comp_def]
  ring

theorem omegaL_inr (kx ky : m → ℂ) (c : Conv m) (U : m ⊕ m → ℂ) (i : m) : (omegaL kx ky c *ᵥ U) (.inr i)
    = U (.inl i) - ky i * (c.epzi *ᵥ fun j => ky j * U (.inl j)) i + ky i * (c.epzi *ᵥ fun j => kx j * U (.inr j)) i := by
  have e : ∀ (k u : m → ℂ), (fun j => k j * u j) = diagonal k *ᵥ u := fun k u => by ext j; rw [mulVec_diagonal]
  unfold omegaL
  rw [fromBlocks_mulVec, e ky (fun j => U (.inl j)), e kx (fun j => U (.inr j))]
  simp only [Sum.elim_inr, Pi.add_apply, neg_mulVec, sub_mulVec, one_mulVec, Pi.neg_apply, Pi.sub_apply, ← mulVec_mulVec,
    mulVec_diagonal, Function.comp_apply, Function.comp_def]

theorem omegaR_inl (kx ky : m → ℂ) (c : Conv m) (S : m ⊕ m → ℂ) (i : m) : (omegaR kx ky c *ᵥ S) (.inl i)
    = -(kx i * ky i * S (.inl i)) + kx i ^ 2 * S (.inr i) - (c.epy *ᵥ fun j => S (.inr j)) i := by
  unfold omegaR
  rw [fromBlocks_mulVec]
  simp only [Sum.elim_inl, Pi.add_apply, neg_mulVec, sub_mulVec, one_mulVec, Pi.neg_apply, Pi.sub_apply, ← mulVec_mulVec,
    mulVec_diagonal, Function.comp_apply, Function.comp_def, Matrix.neg_mul]
  ring

theorem omegaR_inr (kx ky : m → ℂ) (c : Conv m) (S : m ⊕ m → ℂ) (i : m) : (omegaR kx ky c *ᵥ S) (.inr i)
    = (c.epx *ᵥ fun j => S (.inl j)) i - ky i ^ 2 * S (.inl i) + kx i * ky i * S (.inr i) := by
  unfold omegaR
  rw [fromBlocks_mulVec]
  simp only [Sum.elim_inr, Pi.add_apply, neg_mulVec, sub_mulVec, one_mulVec, Pi.neg_apply, Pi.sub_apply, ← mulVec_mulVec,
    mulVec_diagonal, Function.comp_apply, Function.comp_def, Matrix.neg_mul]
  ring

/-- The fields the code computes from six amplitude vectors. -/
noncomputable def fieldsOf (a : ℝ → Amps6 m) : Spec.OrderFields m where
  Ex := fun t => (a t).Sx
  Ey := fun t => (a t).Sy
  Ez := fun t => (a t).Sz
  Hx := fun t i => Complex.I * (a t).Ux i
  Hy := fun t i => Complex.I * (a t).Uy i
  Hz := fun t i => Complex.I * (a t).Uz i

theorem mulVec_smul_fun (M : Matrix m m ℂ) (c : ℂ) (u : m → ℂ) (i : m) :
    (M *ᵥ fun j => c * u j) i = c * (M *ᵥ u) i := by
  have := congrFun (mulVec_smul M c u) i
  simpa [Pi.smul_def] using this

theorem maxwell_of_pr {k0 : ℝ} {kx ky : m → ℂ} {c : Conv m} {D : Set ℝ} {a : ℝ → Amps6 m}
    (ha : ∀ t, a t = withZ kx ky c.epzi (a t).Sx (a t).Sy (a t).Ux (a t).Uy)
    (h : PRSol k0 (omegaL kx ky c) (omegaR kx ky c) D (fun t => (a t).S) (fun t => (a t).U)) :
    Spec.Maxwell k0 kx ky c D (fieldsOf a) := by
  have hz : ∀ t i, (a t).Sz i = -Complex.I * ((c.epzi *ᵥ fun j => kx j * (a t).Uy j) i - (c.epzi *ᵥ fun j => ky j * (a t).Ux j) i) := by
    intro t i
    have e : ∀ (k u : m → ℂ), (fun j => k j * u j) = diagonal k *ᵥ u := fun k u => by ext j; rw [mulVec_diagonal]
    rw [ha t]
    simp only [withZ, e, mulVec_sub, Pi.smul_apply, Pi.sub_apply, smul_eq_mul]
  have hu : ∀ t i, (a t).Uz i = -Complex.I * (kx i * (a t).Sy i - ky i * (a t).Sx i) := by
    intro t i
    rw [ha t]
    simp only [withZ, Pi.smul_apply, Pi.sub_apply, smul_eq_mul, mulVec_diagonal]
  refine ⟨fun t i => -((k0 : ℂ) * (omegaL kx ky c *ᵥ (a t).U) (.inl i)), fun t i => -((k0 : ℂ) * (omegaL kx ky c *ᵥ (a t).U) (.inr i)),
    fun t i => -(Complex.I * ((k0 : ℂ) * (omegaR kx ky c *ᵥ (a t).S) (.inl i))),
    fun t i => -(Complex.I * ((k0 : ℂ) * (omegaR kx ky c *ᵥ (a t).S) (.inr i))), ?_, ?_, ?_, ?_, ?_⟩
  · intro t ht i; rw [neg_neg]; exact h.dS t ht (.inl i)
  · intro t ht i; rw [neg_neg]; exact h.dS t ht (.inr i)
  · intro t ht i; rw [neg_neg]; exact (h.dU t ht (.inl i)).const_mul Complex.I
  · intro t ht i; rw [neg_neg]; exact (h.dU t ht (.inr i)).const_mul Complex.I
  · intro t ht dx dy
    have hI := Complex.I_sq
    refine ⟨?_, ?_, ?_, ?_, ?_, ?_⟩ <;> ext i <;>
      simp only [dx, dy, fieldsOf, Pi.sub_apply, Pi.smul_apply, smul_eq_mul, omegaL_inl, omegaL_inr, omegaR_inl, omegaR_inr,
        hz, hu, Amps6.S, Amps6.U, Sum.elim_inl, Sum.elim_inr]
    · linear_combination ((k0 : ℂ) * (a t).Ux i + (k0 : ℂ) * ky i * ((c.epzi *ᵥ fun j => kx j * (a t).Uy j) i
        - (c.epzi *ᵥ fun j => ky j * (a t).Ux j) i)) * hI
    · linear_combination ((k0 : ℂ) * (a t).Uy i - (k0 : ℂ) * kx i * ((c.epzi *ᵥ fun j => kx j * (a t).Uy j) i
        - (c.epzi *ᵥ fun j => ky j * (a t).Ux j) i)) * hI
    · linear_combination (-(Complex.I * (k0 : ℂ) * (kx i * (a t).Sy i - ky i * (a t).Sx i))) * hI
    · linear_combination (Complex.I * (k0 : ℂ) * ky i * (kx i * (a t).Sy i - ky i * (a t).Sx i)) * hI
    · linear_combination (-(Complex.I * (k0 : ℂ) * kx i * (kx i * (a t).Sy i - ky i * (a t).Sx i))) * hI
    · have e : (dx ((fieldsOf a).Hy t) - dy ((fieldsOf a).Hx t)) = fun i => (k0 : ℂ) * (kx i * (a t).Uy i - ky i * (a t).Ux i) := by
        ext i
        simp only [dx, dy, fieldsOf, Pi.sub_apply]
        linear_combination (-(k0 : ℂ) * (kx i * (a t).Uy i - ky i * (a t).Ux i)) * hI
      have e' : (c.epzi *ᵥ (dx ((fieldsOf a).Hy t) - dy ((fieldsOf a).Hx t))) i
          = (k0 : ℂ) * ((c.epzi *ᵥ fun j => kx j * (a t).Uy j) i - (c.epzi *ᵥ fun j => ky j * (a t).Ux j) i) := by
        rw [e, mulVec_smul_fun, ← Pi.sub_apply, ← mulVec_sub]; rfl
      refine Eq.trans e' ?_
      linear_combination ((k0 : ℂ) * ((c.epzi *ᵥ fun j => kx j * (a t).Uy j) i - (c.epzi *ᵥ fun j => ky j * (a t).Ux j) i)) * hI

/-- Transverse electric amplitudes of fields. -/
def fS (f : Spec.OrderFields m) (t : ℝ) : m ⊕ m → ℂ := Sum.elim (f.Ex t) (f.Ey t)
/-- Transverse magnetic amplitudes of fields, in the normalisation of the code. -/
noncomputable def fU (f : Spec.OrderFields m) (t : ℝ) : m ⊕ m → ℂ :=
  Sum.elim (fun i => -Complex.I * f.Hx t i) (fun i => -Complex.I * f.Hy t i)

theorem pr_of_maxwell {k0 : ℝ} {kx ky : m → ℂ} {c : Conv m} {D : Set ℝ} {f : Spec.OrderFields m}
    (h : Spec.Maxwell k0 kx ky c D f) : PRSol k0 (omegaL kx ky c) (omegaR kx ky c) D (fS f) (fU f) := by
  obtain ⟨zEx, zEy, zHx, zHy, h1, h2, h3, h4, he⟩ := h
  have hI := Complex.I_sq
  have hz : ∀ t ∈ D, ∀ i, (Complex.I * k0) * f.Ez t i
      = (Complex.I * k0) * ((c.epzi *ᵥ fun j => ky j * f.Hx t j) i - (c.epzi *ᵥ fun j => kx j * f.Hy t j) i) := by
    intro t ht i
    obtain ⟨-, -, -, -, -, e6⟩ := he t ht
    have := congrFun e6 i
    simp only [Pi.smul_apply, smul_eq_mul] at this
    rw [← this, mulVec_sub, Pi.sub_apply]
    have a1 : ∀ (k u : m → ℂ), (c.epzi *ᵥ fun j => -Complex.I * k0 * k j * u j) i
        = -Complex.I * k0 * (c.epzi *ᵥ fun j => k j * u j) i := by
      intro k u; rw [← mulVec_smul_fun]; simp only [mul_assoc]
    rw [a1, a1]; ring
  constructor
  · rintro t ht (i | i)
    · refine (h1 t ht i).congr_deriv ?_
      obtain ⟨-, e2, -⟩ := he t ht
      have e2 := congrFun e2 i
      simp only [Pi.sub_apply, Pi.smul_apply, smul_eq_mul] at e2
      simp only [omegaL_inl, fU, Sum.elim_inl, Sum.elim_inr]
      have a1 : ∀ (k u : m → ℂ), (c.epzi *ᵥ fun j => k j * (-Complex.I * u j)) i
          = -Complex.I * (c.epzi *ᵥ fun j => k j * u j) i := by
        intro k u; rw [← mulVec_smul_fun]; congr 2; ext j; ring
      rw [a1, a1]
      linear_combination -e2 + kx i * hz t ht i
    · refine (h2 t ht i).congr_deriv ?_
      obtain ⟨e1, -⟩ := he t ht
      have e1 := congrFun e1 i
      simp only [Pi.sub_apply, Pi.smul_apply, smul_eq_mul] at e1
      simp only [omegaL_inr, fU, Sum.elim_inl, Sum.elim_inr]
      have a1 : ∀ (k u : m → ℂ), (c.epzi *ᵥ fun j => k j * (-Complex.I * u j)) i
          = -Complex.I * (c.epzi *ᵥ fun j => k j * u j) i := by
        intro k u; rw [← mulVec_smul_fun]; congr 2; ext j; ring
      rw [a1, a1]
      linear_combination e1 + ky i * hz t ht i
  · rintro t ht (i | i)
    · refine ((h3 t ht i).const_mul (-Complex.I)).congr_deriv ?_
      obtain ⟨-, -, e3, -, e5, -⟩ := he t ht
      have e3 := congrFun e3 i
      have e5 := congrFun e5 i
      simp only [Pi.sub_apply, Pi.smul_apply, smul_eq_mul] at e3 e5
      simp only [omegaR_inl, fS, Sum.elim_inl, Sum.elim_inr]
      linear_combination Complex.I * e5 - Complex.I * kx i * e3
        + (kx i * (k0 * ky i * f.Ex t i - k0 * kx i * f.Ey t i) + (k0 : ℂ) * (c.epy *ᵥ f.Ey t) i) * hI
    · refine ((h4 t ht i).const_mul (-Complex.I)).congr_deriv ?_
      obtain ⟨-, -, e3, e4, -, -⟩ := he t ht
      have e3 := congrFun e3 i
      have e4 := congrFun e4 i
      simp only [Pi.sub_apply, Pi.smul_apply, smul_eq_mul] at e3 e4
      simp only [omegaR_inr, fS, Sum.elim_inl, Sum.elim_inr]
      linear_combination -Complex.I * e4 - Complex.I * ky i * e3
        + (ky i * (k0 * ky i * f.Ex t i - k0 * kx i * f.Ey t i) - (k0 : ℂ) * (c.epx *ᵥ f.Ex t) i) * hI

/-! ### Layers of the conical and 2D solvers -/

/-- Tangential amplitudes from those in the s/p frame. -/
noncomputable def mkT (varphi : m → ℂ) (S U : m ⊕ m → ℂ) (i : m) : Spec.Tangential :=
  ⟨(rotE varphi *ᵥ S) (.inl i), (rotE varphi *ᵥ S) (.inr i), Complex.I * (rotH' varphi *ᵥ U) (.inl i),
    Complex.I * (rotH' varphi *ᵥ U) (.inr i)⟩

noncomputable def tS (varphi : m → ℂ) (τ : m → Spec.Tangential) : m ⊕ m → ℂ :=
  rotE varphi *ᵥ Sum.elim (fun i => (τ i).Ex) fun i => (τ i).Ey
noncomputable def tU (varphi : m → ℂ) (τ : m → Spec.Tangential) : m ⊕ m → ℂ :=
  rotH varphi *ᵥ Sum.elim (fun i => -Complex.I * (τ i).Hx) fun i => -Complex.I * (τ i).Hy

theorem tS_mkT (varphi : m → ℂ) (S U : m ⊕ m → ℂ) : tS varphi (mkT varphi S U) = S := by
  unfold tS mkT
  have : (Sum.elim (fun i => (rotE varphi *ᵥ S) (.inl i)) fun i => (rotE varphi *ᵥ S) (.inr i)) = rotE varphi *ᵥ S := by
    ext (i | i) <;> rfl
  simp only [this]
  rw [mulVec_mulVec, rotE_sq, one_mulVec]

theorem tU_mkT (varphi : m → ℂ) (S U : m ⊕ m → ℂ) : tU varphi (mkT varphi S U) = U := by
  unfold tU mkT
  have : (Sum.elim (fun i => -Complex.I * (Complex.I * (rotH' varphi *ᵥ U) (.inl i)))
      fun i => -Complex.I * (Complex.I * (rotH' varphi *ᵥ U) (.inr i))) = rotH' varphi *ᵥ U := by
    ext (i | i)
    · simp only [Sum.elim_inl]; linear_combination (-(rotH' varphi *ᵥ U) (.inl i)) * Complex.I_sq
    · simp only [Sum.elim_inr]; linear_combination (-(rotH' varphi *ᵥ U) (.inr i)) * Complex.I_sq
  simp only [this]
  rw [mulVec_mulVec, mul_eq_one_comm.mp (rotH'_mul varphi), one_mulVec]

theorem carries_of {k0 : ℝ} {kx ky varphi : m → ℂ} {c : Conv m} {d : ℝ} {l : LView (m ⊕ m)}
    {a : (m ⊕ m → ℂ) → ℝ → Amps6 m}
    (ha : ∀ T t, a T t = withZ kx ky c.epzi (a T t).Sx (a T t).Sy (a T t).Ux (a T t).Uy)
    (hp : ∀ T, PRSol k0 (omegaL kx ky c) (omegaR kx ky c) (Set.uIcc 0 d) (fun t => (a T t).S) (fun t => (a T t).U))
    (hf : ∀ T, Faces varphi l d T (a T)) : Carries k0 kx ky (mkT varphi) c d l fun T => fieldsOf (a T) := by
  refine ⟨fun T => maxwell_of_pr (ha T) (hp T), fun T => ?_, fun T => ?_⟩
  · funext i
    unfold mkT
    rw [← (hf T).topS, ← (hf T).topU]; rfl
  · funext i
    unfold mkT
    rw [← (hf T).botS, ← (hf T).botU]; rfl

theorem complete_of {k0 : ℝ} {kx ky varphi : m → ℂ} {c : Conv m} {d : ℝ} {l : LView (m ⊕ m)}
    {W V : Matrix (m ⊕ m) (m ⊕ m) ℂ} {q : m ⊕ m → ℂ} (hm : ModePair kx ky c W V q) (hW : l.W = rotE varphi * W)
    (hV : l.V = rotH varphi * V) (hX : l.X = phaseX k0 q d) (uW : IsUnit l.W.det) (uV : IsUnit l.V.det) :
    Complete k0 kx ky (tS varphi) (tU varphi) c d l := by
  intro f hf
  have uW' : IsUnit W.det := by rw [hW, det_mul] at uW; exact isUnit_of_mul_isUnit_right uW
  have uV' : IsUnit V.det := by rw [hV, det_mul] at uV; exact isUnit_of_mul_isUnit_right uV
  obtain ⟨a, b, h1, h2, h3, h4⟩ := (PRModes.mk hm.left hm.right).rep uW' uV' (pr_of_maxwell hf)
  have eS : ∀ t, tS varphi (f.tan t) = rotE varphi *ᵥ fS f t := fun t => rfl
  have eU : ∀ t, tU varphi (f.tan t) = rotH varphi *ᵥ fU f t := fun t => rfl
  refine ⟨a, b, ?_, ?_, ?_, ?_⟩
  · rw [eS, h1, hW, hX, ← mulVec_mulVec]
  · rw [eU, h2, hV, hX, ← mulVec_mulVec]
  · rw [eS, h3, hW, hX, ← mulVec_mulVec]
  · rw [eU, h4, hV, hX, ← mulVec_mulVec]

theorem layer_2d {la : LinAlg} {k0 : ℝ} {kx ky varphi : m → ℂ} {c : Conv m} {d : ℝ} {s : TState (m ⊕ m)}
    {r : TState (m ⊕ m) × LayerInfo m (m ⊕ m)} (h : step2d la false k0 kx ky varphi c d s = .ok r) :
    Carries k0 kx ky (mkT varphi) c d (view2d k0 varphi r.2) (fun T => fieldsOf (amps2d k0 kx ky r.2 T)) ∧
    Complete k0 kx ky (tS varphi) (tU varphi) c d (view2d k0 varphi r.2) := by
  have hst := view2d_step la k0 kx ky varphi c d s r h
  unfold step2d at h
  simp only [Except.bind_ok] at h
  obtain ⟨M, hM, x, -, e⟩ := h
  obtain rfl := Except.ok.inj e
  have hm := modePair_2d hM
  refine ⟨carries_of (fun T t => rfl) (fun T => ?_) (fun T => faces_2d k0 kx ky varphi _ T),
    complete_of hm (bigW2d_eq _ _) (bigV2d_eq _ _) rfl hst.hW hst.hV⟩
  have := (PRModes.mk hm.left hm.right).sol (k0 := k0) d T (x.2.2 *ᵥ x.2.1 *ᵥ phaseX k0 M.q d *ᵥ T) (Set.uIcc 0 d)
  refine this.congr (fun t => ?_) fun t => ?_
  · exact (amps2d_SU k0 kx ky _ T t).1
  · exact (amps2d_SU k0 kx ky _ T t).2

theorem layer_con {la : LinAlg} {k0 : ℝ} {kx varphi : m → ℂ} {k : ℂ} {c : Conv m} (hz : c.epzi * c.epy = 1) {d : ℝ}
    {s : TState (m ⊕ m)} {r : TState (m ⊕ m) × LayerInfoCon m}
    (h : stepCon la false k0 kx (fun _ => k) varphi c d s = .ok r) :
    Carries k0 kx (fun _ => k) (mkT varphi) c d (viewCon k0 varphi r.2)
      (fun T => fieldsOf (ampsCon k0 kx (fun _ => k) r.2 T)) ∧
    Complete k0 kx (fun _ => k) (tS varphi) (tU varphi) c d (viewCon k0 varphi r.2) := by
  have hst := viewCon_step la k0 kx (fun _ => k) varphi c d s r h
  unfold stepCon at h
  simp only [Except.bind_ok] at h
  obtain ⟨M, hM, x, -, e⟩ := h
  obtain rfl := Except.ok.inj e
  have hm := modePair_con hz hM
  refine ⟨carries_of (fun T t => rfl) (fun T => ?_) (fun T => faces_con k0 kx _ varphi _ T),
    complete_of hm (conW_eq _ _) (conV_eq _ _) rfl hst.hW hst.hV⟩
  have := (PRModes.mk hm.left hm.right).sol (k0 := k0) d T
    (x.2.2 *ᵥ x.2.1 *ᵥ phaseX k0 (Sum.elim M.q1 M.q2) d *ᵥ T) (Set.uIcc 0 d)
  refine this.congr (fun t => ?_) fun t => ?_
  · exact (ampsCon_SU k0 kx _ _ T t).1
  · exact (ampsCon_SU k0 kx _ _ T t).2

/-! ### Layers of the TE/TM solver -/

/-- Six amplitudes behind the three of the TE/TM solver. -/
noncomputable def amps16 (k0 pol : ℝ) (kx : m → ℂ) (l : LayerInfo m m) (T : m → ℂ) (t : ℝ) : Amps6 m :=
  if pol = 0 then withZ kx 0 l.epzi 0 (amps1d k0 pol kx l T t).1 (amps1d k0 pol kx l T t).2.1 0
  else withZ kx 0 l.epzi (fun i => -Complex.I * (amps1d k0 pol kx l T t).2.1 i) 0 0
    (fun i => -Complex.I * (amps1d k0 pol kx l T t).1 i)

noncomputable def mk1 (pol : ℝ) (S U : m → ℂ) (i : m) : Spec.Tangential :=
  if pol = 0 then ⟨0, S i, Complex.I * U i, 0⟩ else ⟨-Complex.I * U i, 0, 0, S i⟩

noncomputable def t1S (pol : ℝ) (τ : m → Spec.Tangential) (i : m) : ℂ := if pol = 0 then (τ i).Ey else (τ i).Hy
noncomputable def t1U (pol : ℝ) (τ : m → Spec.Tangential) (i : m) : ℂ :=
  if pol = 0 then -Complex.I * (τ i).Hx else Complex.I * (τ i).Ex

theorem t1S_mk1 (pol : ℝ) (S U : m → ℂ) : t1S pol (mk1 pol S U) = S := by
  funext i; unfold t1S mk1; by_cases h : pol = 0 <;> simp [h]
theorem t1U_mk1 (pol : ℝ) (S U : m → ℂ) : t1U pol (mk1 pol S U) = U := by
  funext i; unfold t1U mk1
  by_cases h : pol = 0 <;> simp only [h, if_true, if_false] <;> linear_combination (-U i) * Complex.I_sq

/-- The system of the TE/TM solver. -/
noncomputable def prP (pol : ℝ) (c : Conv m) : Matrix m m ℂ := if pol = 0 then 1 else c.epx
noncomputable def prR (pol : ℝ) (kx : m → ℂ) (c : Conv m) : Matrix m m ℂ :=
  if pol = 0 then diagonal (fun i => kx i ^ 2) - c.epy else diagonal kx * c.epzi * diagonal kx - 1

theorem modes_1d {la : LinAlg} {pol : ℝ} {kx : m → ℂ} {c : Conv m} {M : Modes m}
    (h : transfer_1d_2 la pol kx c false = .ok M) : PRModes (prP pol c) (prR pol kx c) M.W M.V M.q := by
  unfold transfer_1d_2 at h
  by_cases h0 : pol = 0
  · simp only [h0, if_true, Except.ok.injEq] at h
    subst h
    simp only [prP, prR, h0, if_true]
    constructor
    · simp only [Matrix.one_mul]
    · rw [la.eig_law, Matrix.mul_assoc, diag_csqrt_mul]
  · by_cases h1 : pol = 1
    · simp only [h1, one_ne_zero, if_true, if_false, Except.bind_ok, meeinv_false_ok, Except.ok.injEq] at h
      obtain ⟨E, ⟨hu, rfl⟩, rfl⟩ := h
      simp only [prP, prR, h1, one_ne_zero, if_false]
      constructor
      · simp only [← Matrix.mul_assoc]
        rw [mul_nonsing_inv _ hu, Matrix.one_mul]
      · have hE := la.eig_law (c.epx * (diagonal kx * c.epzi * diagonal kx - 1))
        rw [Matrix.mul_assoc] at hE
        have := congrArg (fun N => c.epx⁻¹ * N) hE
        simp only [← Matrix.mul_assoc] at this
        rw [nonsing_inv_mul _ hu, Matrix.one_mul] at this
        rw [this, Matrix.mul_assoc _ (diagonal _) (diagonal _), diag_csqrt_mul]
    · simp only [h0, h1, if_false] at h
      cases h

theorem mulVec_zero_fun (M : Matrix m m ℂ) (i : m) : (M *ᵥ fun _ => (0 : ℂ)) i = 0 :=
  congrFun (mulVec_zero M) i

theorem prR_te (kx : m → ℂ) (c : Conv m) (S : m → ℂ) (i : m) :
    (prR 0 kx c *ᵥ S) i = kx i ^ 2 * S i - (c.epy *ᵥ S) i := by
  simp only [prR, if_true, sub_mulVec, Pi.sub_apply, mulVec_diagonal]

theorem prR_tm {pol : ℝ} (h : pol ≠ 0) (kx : m → ℂ) (c : Conv m) (S : m → ℂ) (i : m) :
    (prR pol kx c *ᵥ S) i = kx i * (c.epzi *ᵥ fun j => kx j * S j) i - S i := by
  have e : (fun j => kx j * S j) = diagonal kx *ᵥ S := by ext j; rw [mulVec_diagonal]
  simp only [prR, h, if_false, sub_mulVec, Pi.sub_apply, ← mulVec_mulVec, mulVec_diagonal, one_mulVec, e]

/-- The system of the TE/TM solver inside the general one. -/
theorem pr6_of_pr {k0 pol : ℝ} {kx : m → ℂ} {c : Conv m} {D : Set ℝ} {S U : ℝ → m → ℂ}
    (h : PRSol k0 (prP pol c) (prR pol kx c) D S U) :
    PRSol k0 (omegaL kx 0 c) (omegaR kx 0 c) D
      (fun t => if pol = 0 then Sum.elim 0 (S t) else Sum.elim (fun i => -Complex.I * U t i) 0)
      (fun t => if pol = 0 then Sum.elim (U t) 0 else Sum.elim 0 fun i => -Complex.I * S t i) := by
  by_cases h0 : pol = 0
  · subst h0
    simp only [if_true]
    constructor
    · rintro t ht (i | i)
      · refine (hasDerivWithinAt_const t D (0 : ℂ)).congr_deriv ?_
        simp [omegaL_inl, mulVec_zero_fun]
      · refine (h.dS t ht i).congr_deriv ?_
        simp [omegaL_inr, mulVec_zero_fun, prP]
    · rintro t ht (i | i)
      · refine (h.dU t ht i).congr_deriv ?_
        rw [prR_te]
        simp [omegaR_inl]
      · refine (hasDerivWithinAt_const t D (0 : ℂ)).congr_deriv ?_
        simp [omegaR_inr, mulVec_zero_fun]
  · simp only [h0, if_false]
    constructor
    · rintro t ht (i | i)
      · refine ((h.dU t ht i).const_mul (-Complex.I)).congr_deriv ?_
        rw [prR_tm h0, omegaL_inl]
        have e : (c.epzi *ᵥ fun j => kx j * (-Complex.I * S t j)) i = -Complex.I * (c.epzi *ᵥ fun j => kx j * S t j) i := by
          rw [← mulVec_smul_fun]; congr 2; ext j; ring
        simp only [Sum.elim_inl, Sum.elim_inr, Pi.zero_apply, zero_mul, mulVec_zero_fun, e]
        ring
      · refine (hasDerivWithinAt_const t D (0 : ℂ)).congr_deriv ?_
        simp [omegaL_inr, mulVec_zero_fun]
    · rintro t ht (i | i)
      · refine (hasDerivWithinAt_const t D (0 : ℂ)).congr_deriv ?_
        simp [omegaR_inl, mulVec_zero_fun]
      · refine ((h.dS t ht i).const_mul (-Complex.I)).congr_deriv ?_
        rw [omegaR_inr]
        simp only [Sum.elim_inl, Sum.elim_inr, Pi.zero_apply, prP, h0, if_false, mulVec_smul_fun]
        ring

theorem pr_of_pr6 {k0 pol : ℝ} {kx : m → ℂ} {c : Conv m} {D : Set ℝ} {S U : ℝ → m ⊕ m → ℂ}
    (h : PRSol k0 (omegaL kx 0 c) (omegaR kx 0 c) D S U) :
    PRSol k0 (prP pol c) (prR pol kx c) D
      (fun t i => if pol = 0 then S t (.inr i) else Complex.I * U t (.inr i))
      (fun t i => if pol = 0 then U t (.inl i) else Complex.I * S t (.inl i)) := by
  by_cases h0 : pol = 0
  · subst h0
    simp only [if_true]
    constructor
    · intro t ht i
      refine (h.dS t ht (.inr i)).congr_deriv ?_
      simp [omegaL_inr, mulVec_zero_fun, prP]
    · intro t ht i
      refine (h.dU t ht (.inl i)).congr_deriv ?_
      rw [prR_te]
      simp [omegaR_inl]
  · simp only [h0, if_false]
    constructor
    · intro t ht i
      refine ((h.dU t ht (.inr i)).const_mul Complex.I).congr_deriv ?_
      simp only [omegaR_inr, prP, h0, if_false, mulVec_smul_fun, Pi.zero_apply]
      ring
    · intro t ht i
      refine ((h.dS t ht (.inl i)).const_mul Complex.I).congr_deriv ?_
      have e : (c.epzi *ᵥ fun j => kx j * (Complex.I * U t (.inr j))) i
          = Complex.I * (c.epzi *ᵥ fun j => kx j * U t (.inr j)) i := by
        rw [← mulVec_smul_fun]; congr 2; ext j; ring
      rw [prR_tm h0, omegaL_inl, e]
      simp only [Pi.zero_apply, zero_mul, mulVec_zero_fun]
      ring

theorem layer_1d {la : LinAlg} {p : Params} (hp : p.use_pinv = false) {k0 : ℝ} {kx : m → ℂ} {c : Conv m} {d : ℝ}
    {s : TState m} {r : TState m × LayerInfo m m} (h : step1d la p k0 kx c d s = .ok r) :
    Carries k0 kx 0 (mk1 p.pol) c d (view1d k0 r.2) (fun T => fieldsOf (amps16 k0 p.pol kx r.2 T)) ∧
    Complete k0 kx 0 (t1S p.pol) (t1U p.pol) c d (view1d k0 r.2) := by
  have hst := view1d_step la hp k0 kx c d s r h
  unfold step1d at h
  simp only [Except.bind_ok, hp] at h
  obtain ⟨M, hM, x, -, e⟩ := h
  obtain rfl := Except.ok.inj e
  have hm := modes_1d hM
  refine ⟨⟨fun T => ?_, fun T => ?_, fun T => ?_⟩, fun f hf => ?_⟩
  · refine maxwell_of_pr (fun t => ?_) ?_
    · unfold amps16; split <;> rfl
    · have := hm.sol (k0 := k0) d T (x.2.2 *ᵥ x.2.1 *ᵥ phaseX k0 M.q d *ᵥ T) (Set.uIcc 0 d)
      refine (pr6_of_pr (S := fun t => (amps1d k0 p.pol kx ⟨c.epzi, M, d, x.2.1, x.2.2⟩ T t).1)
        (U := fun t => (amps1d k0 p.pol kx ⟨c.epzi, M, d, x.2.1, x.2.2⟩ T t).2.1)
        (this.congr (fun t => rfl) fun t => ?_)).congr (fun t => ?_) fun t => ?_
      · simp only [amps1d, neg_mulVec]
      · unfold amps16 Amps6.S; split <;> rfl
      · unfold amps16 Amps6.U; split <;> rfl
  · funext i
    obtain ⟨e1, e2⟩ := amps1d_top k0 p.pol kx ⟨c.epzi, M, d, x.2.1, x.2.2⟩ T
    unfold Spec.OrderFields.tan mk1
    rw [← e1, ← e2]
    by_cases h0 : p.pol = 0 <;> simp only [fieldsOf, amps16, h0, if_true, if_false, withZ, Pi.zero_apply, mul_zero]
    congr 1
    linear_combination (-(amps1d k0 p.pol kx ⟨c.epzi, M, d, x.2.1, x.2.2⟩ T 0).1 i) * Complex.I_sq
  · funext i
    obtain ⟨e1, e2⟩ := amps1d_bottom k0 p.pol kx ⟨c.epzi, M, d, x.2.1, x.2.2⟩ T
    unfold Spec.OrderFields.tan mk1
    simp only at e1 e2
    rw [← e1, ← e2]
    by_cases h0 : p.pol = 0 <;> simp only [fieldsOf, amps16, h0, if_true, if_false, withZ, Pi.zero_apply, mul_zero]
    congr 1
    linear_combination (-(amps1d k0 p.pol kx ⟨c.epzi, M, d, x.2.1, x.2.2⟩ T d).1 i) * Complex.I_sq
  · obtain ⟨a, b, h1, h2, h3, h4⟩ := hm.rep hst.hW hst.hV (pr_of_pr6 (pol := p.pol) (pr_of_maxwell hf))
    have eS : ∀ t, t1S p.pol (f.tan t) = fun i => if p.pol = 0 then fS f t (.inr i) else Complex.I * fU f t (.inr i) := by
      intro t; funext i
      unfold t1S
      split
      · rfl
      · show f.Hy t i = Complex.I * (-Complex.I * f.Hy t i)
        linear_combination (f.Hy t i) * Complex.I_sq
    have eU : ∀ t, t1U p.pol (f.tan t) = fun i => if p.pol = 0 then fU f t (.inl i) else Complex.I * fS f t (.inl i) := by
      intro t; funext i; rfl
    exact ⟨a, b, (eS 0).trans h1, (eU 0).trans h2, (eS d).trans h3, (eU d).trans h4⟩

end Meent
