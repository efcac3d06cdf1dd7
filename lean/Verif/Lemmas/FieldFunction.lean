import Verif.Spec.FieldFunction
import Verif.Lemmas.TorchField
import Verif.Lemmas.FieldSpec
import Verif.Lemmas.Bare

/-!
# Sampled arrays as samples of a function of position
-/

set_option linter.unusedSectionVars false
set_option linter.unusedSimpArgs false
set_option linter.unusedVariables false

open Matrix

namespace Meent

theorem layerLoop_count {S C L : Type} {step : C → ℝ → S → Res (S × L)} {convs : List C} {th : List ℝ} :
    ∀ (i : ℕ) {s r : S × List L}, layerLoop step convs th i s = .ok r → r.2.length = s.2.length + i
  | 0, s, r, h => by rw [← Except.ok.inj h]; rfl
  | i + 1, s, r, h => by
    unfold layerLoop at h
    simp only [Except.bind_ok] at h
    obtain ⟨c, -, d, -, x, -, h⟩ := h
    rw [layerLoop_count i h, List.length_append, List.length_singleton]
    omega

theorem zSample_frac (rz : ℕ) (d : ℝ) (i : Fin rz) : zSample rz d i = Spec.samplePoint 1 rz i * d := by
  have h : (rz : ℝ) ≠ 0 := by
    have := i.pos
    exact_mod_cast this.ne'
  unfold zSample
  rw [linspace_eq]
  unfold Spec.samplePoint
  split_ifs with h1
  · rw [zero_div]
  · field_simp

section
variable {n m : Type} [Fintype n] [DecidableEq n] [Fintype m] [DecidableEq m]

/-! ### TE / TM -/

/-- The value at depth `z` and at `x`. -/
noncomputable def point1d (k0 pol : ℝ) (kx : n → ℂ) (L : LayerInfo n n) (T : n → ℂ) (z x : ℝ) : Field3 :=
  let a := amps1d k0 pol kx L T z
  let e := invFourier1d k0 kx x
  if pol = 0 then { Fy := e ⬝ᵥ a.1, Fx := Complex.I * (e ⬝ᵥ a.2.1), Fz := Complex.I * (e ⬝ᵥ a.2.2) }
  else { Fy := e ⬝ᵥ a.1, Fx := -Complex.I * (e ⬝ᵥ a.2.1), Fz := -Complex.I * (e ⬝ᵥ a.2.2) }

/-- The function sampled by `fieldLoop1d`. -/
noncomputable def fn1d (k0 pol : ℝ) (kx : n → ℂ) : List (LayerInfo n n) → (n → ℂ) → Spec.FieldFn Field3
  | [], _, _, _, _, _ => ⟨0, 0, 0⟩
  | L :: _, T, 0, z, _, x => point1d k0 pol kx L T (z * L.d) x
  | L :: Ls, T, k + 1, z, y, x => fn1d k0 pol kx Ls (L.A_i *ᵥ phaseX k0 L.modes.q L.d *ᵥ T) k z y x

theorem fieldLoop1d_length (k0 pol px : ℝ) (kx : n → ℂ) (rx rz : ℕ) :
    ∀ (ls : List (LayerInfo n n)) (T : n → ℂ), (fieldLoop1d k0 pol px kx rx rz ls T).length = ls.length
  | [], _ => rfl
  | L :: Ls, T => congrArg (· + 1) (fieldLoop1d_length k0 pol px kx rx rz Ls _)

theorem fieldLoop1d_value (k0 pol : ℝ) (per : ℝ × ℝ) (kx : n → ℂ) (rx rz : ℕ) :
    ∀ (ls : List (LayerInfo n n)) (T : n → ℂ) (k : ℕ) (a : Block rx 1 rz Field3),
      (fieldLoop1d k0 pol per.1 kx rx rz ls T)[k]? = some a → ∀ iz iy ix,
        a iz iy ix = fn1d k0 pol kx ls T k (Spec.samplePoint 1 rz iz) (Spec.samplePoint per.2 1 iy.rev) (Spec.samplePoint per.1 rx ix)
  | [], _, k, a, h => by simp [fieldLoop1d] at h
  | L :: Ls, T, 0, a, h => by
    intro iz iy ix
    simp only [fieldLoop1d, List.getElem?_cons_zero, Option.some.injEq] at h
    rw [← h]
    unfold block1d fn1d point1d
    rw [zSample_frac, linspace_eq]
  | L :: Ls, T, k + 1, a, h => by
    intro iz iy ix
    simp only [fieldLoop1d, List.getElem?_cons_succ] at h
    exact fieldLoop1d_value k0 pol per kx rx rz Ls _ k a h iz iy ix

theorem fn1d_quasi {k0 pol px : ℝ} {kx : n → ℂ} {c : ℂ} (hc : ∀ x i, invFourier1d k0 kx (x + px) i = c * invFourier1d k0 kx x i) :
    ∀ (ls : List (LayerInfo n n)) (T : n → ℂ) k z y x, fn1d k0 pol kx ls T k z y (x + px) = Spec.times3 c (fn1d k0 pol kx ls T k z y x)
  | [], _, k, z, y, x => by simp [fn1d, Spec.times3]
  | L :: Ls, T, 0, z, y, x => by
    have e : invFourier1d k0 kx (x + px) = c • invFourier1d k0 kx x := funext fun i => hc x i
    unfold fn1d point1d Spec.times3
    simp only [e, smul_dotProduct, smul_eq_mul]
    split_ifs <;> simp only [mul_left_comm]
  | L :: Ls, T, k + 1, z, y, x => fn1d_quasi hc Ls _ k z y x

theorem fn1d_y (k0 pol : ℝ) (kx : n → ℂ) : ∀ (ls : List (LayerInfo n n)) (T : n → ℂ) k z y y' x, fn1d k0 pol kx ls T k z y x = fn1d k0 pol kx ls T k z y' x
  | [], _, k, z, y, y', x => rfl
  | L :: Ls, T, 0, z, y, y', x => rfl
  | L :: Ls, T, k + 1, z, y, y', x => fn1d_y k0 pol kx Ls _ k z y y' x

/-! ### Conical and 2D -/

/-- The value at `x, y` from amplitudes. -/
noncomputable def point6 (k0 : ℝ) (kx ky : m → ℂ) (a : Amps6 m) (x y : ℝ) : Field6 :=
  let e := invFourier2d k0 kx ky x y
  { Ex := e ⬝ᵥ a.Sx, Ey := e ⬝ᵥ a.Sy, Ez := e ⬝ᵥ a.Sz,
    Hx := Complex.I * (e ⬝ᵥ a.Ux), Hy := Complex.I * (e ⬝ᵥ a.Uy), Hz := Complex.I * (e ⬝ᵥ a.Uz) }

/-- A layer as the loop sees it: amplitudes from the incoming vector, the vector handed on, the thickness. -/
structure LayerFn (m : Type) where
  d : ℝ
  amps : (m ⊕ m → ℂ) → ℝ → Amps6 m
  next : (m ⊕ m → ℂ) → m ⊕ m → ℂ

/-- The loop of both solvers. -/
noncomputable def loop6 (k0 : ℝ) (per : ℝ × ℝ) (kx ky : m → ℂ) (rx ry rz : ℕ) : List (LayerFn m) → (m ⊕ m → ℂ) → List (Block rx ry rz Field6)
  | [], _ => []
  | L :: Ls, T => block6 k0 per kx ky rx ry rz L.d (L.amps T) :: loop6 k0 per kx ky rx ry rz Ls (L.next T)

/-- The function sampled by it. -/
noncomputable def fn6 (k0 : ℝ) (kx ky : m → ℂ) : List (LayerFn m) → (m ⊕ m → ℂ) → Spec.FieldFn Field6
  | [], _, _, _, _, _ => ⟨0, 0, 0, 0, 0, 0⟩
  | L :: _, T, 0, z, y, x => point6 k0 kx ky (L.amps T (z * L.d)) x y
  | L :: Ls, T, k + 1, z, y, x => fn6 k0 kx ky Ls (L.next T) k z y x

noncomputable def layerCon (k0 : ℝ) (kx ky : m → ℂ) (L : LayerInfoCon m) : LayerFn m where
  d := L.d
  amps := ampsCon k0 kx ky L
  next := fun T => L.A_i *ᵥ bigX k0 L.modes.q1 L.modes.q2 L.d *ᵥ T

noncomputable def layer2d (k0 : ℝ) (kx ky : m → ℂ) (L : LayerInfo m (m ⊕ m)) : LayerFn m where
  d := L.d
  amps := amps2d k0 kx ky L
  next := fun T => L.A_i *ᵥ phaseX k0 L.modes.q L.d *ᵥ T

theorem fieldLoopCon_loop6 (k0 : ℝ) (per : ℝ × ℝ) (kx ky : m → ℂ) (rx ry rz : ℕ) : ∀ (ls : List (LayerInfoCon m)) (T : m ⊕ m → ℂ),
    fieldLoopCon k0 per kx ky rx ry rz ls T = loop6 k0 per kx ky rx ry rz (ls.map (layerCon k0 kx ky)) T
  | [], _ => rfl
  | L :: Ls, T => congrArg (List.cons _) (fieldLoopCon_loop6 k0 per kx ky rx ry rz Ls _)

theorem fieldLoop2d_loop6 (k0 : ℝ) (per : ℝ × ℝ) (kx ky : m → ℂ) (rx ry rz : ℕ) : ∀ (ls : List (LayerInfo m (m ⊕ m))) (T : m ⊕ m → ℂ),
    fieldLoop2d k0 per kx ky rx ry rz ls T = loop6 k0 per kx ky rx ry rz (ls.map (layer2d k0 kx ky)) T
  | [], _ => rfl
  | L :: Ls, T => congrArg (List.cons _) (fieldLoop2d_loop6 k0 per kx ky rx ry rz Ls _)

theorem loop6_length (k0 : ℝ) (per : ℝ × ℝ) (kx ky : m → ℂ) (rx ry rz : ℕ) :
    ∀ (ls : List (LayerFn m)) (T : m ⊕ m → ℂ), (loop6 k0 per kx ky rx ry rz ls T).length = ls.length
  | [], _ => rfl
  | L :: Ls, T => congrArg (· + 1) (loop6_length k0 per kx ky rx ry rz Ls _)

theorem loop6_value (k0 : ℝ) (per : ℝ × ℝ) (kx ky : m → ℂ) (rx ry rz : ℕ) :
    ∀ (ls : List (LayerFn m)) (T : m ⊕ m → ℂ) (k : ℕ) (a : Block rx ry rz Field6),
      (loop6 k0 per kx ky rx ry rz ls T)[k]? = some a → ∀ iz iy ix,
        a iz iy ix = fn6 k0 kx ky ls T k (Spec.samplePoint 1 rz iz) (Spec.samplePoint per.2 ry iy.rev) (Spec.samplePoint per.1 rx ix)
  | [], _, k, a, h => by simp [loop6] at h
  | L :: Ls, T, 0, a, h => by
    intro iz iy ix
    simp only [loop6, List.getElem?_cons_zero, Option.some.injEq] at h
    rw [← h]
    unfold block6 fn6 point6
    rw [zSample_frac, linspace_eq, linspace_eq]
  | L :: Ls, T, k + 1, a, h => by
    intro iz iy ix
    simp only [loop6, List.getElem?_cons_succ] at h
    exact loop6_value k0 per kx ky rx ry rz Ls _ k a h iz iy ix

theorem loop6_samples (k0 : ℝ) (per : ℝ × ℝ) (kx ky : m → ℂ) (rx ry rz : ℕ) (ls : List (LayerFn m)) (T : m ⊕ m → ℂ) :
    Spec.SamplesOf ls.length per (fn6 k0 kx ky ls T) (loop6 k0 per kx ky rx ry rz ls T) :=
  ⟨loop6_length .., loop6_value k0 per kx ky rx ry rz ls T⟩

theorem point6_smul {k0 : ℝ} {kx ky : m → ℂ} {a : Amps6 m} {x y x' y' : ℝ} {c : ℂ}
    (h : ∀ i, invFourier2d k0 kx ky x' y' i = c * invFourier2d k0 kx ky x y i) :
    point6 k0 kx ky a x' y' = Spec.times6 c (point6 k0 kx ky a x y) := by
  have e : invFourier2d k0 kx ky x' y' = c • invFourier2d k0 kx ky x y := funext h
  unfold point6 Spec.times6
  simp only [e, smul_dotProduct, smul_eq_mul, mul_left_comm]

theorem fn6_quasi {k0 dx dy : ℝ} {kx ky : m → ℂ} {c : ℂ}
    (hc : ∀ x y i, invFourier2d k0 kx ky (x + dx) (y + dy) i = c * invFourier2d k0 kx ky x y i) :
    ∀ (ls : List (LayerFn m)) (T : m ⊕ m → ℂ) k z y x, fn6 k0 kx ky ls T k z (y + dy) (x + dx) = Spec.times6 c (fn6 k0 kx ky ls T k z y x)
  | [], _, k, z, y, x => by simp [fn6, Spec.times6]
  | L :: Ls, T, 0, z, y, x => point6_smul fun i => hc x y i
  | L :: Ls, T, k + 1, z, y, x => fn6_quasi hc Ls _ k z y x

/-! ### Linearity -/

def Amps6.sum (a b : Amps6 m) : Amps6 m := ⟨a.Sx + b.Sx, a.Sy + b.Sy, a.Sz + b.Sz, a.Ux + b.Ux, a.Uy + b.Uy, a.Uz + b.Uz⟩

theorem withZ_add (kx ky : m → ℂ) (E : Matrix m m ℂ) (a b u v a' b' u' v' : m → ℂ) :
    withZ kx ky E (a + a') (b + b') (u + u') (v + v') = (withZ kx ky E a b u v).sum (withZ kx ky E a' b' u' v') := by
  unfold withZ Amps6.sum
  simp only [mulVec_add, ← smul_add, add_sub_add_comm]

theorem ampsCon_add (k0 : ℝ) (kx ky : m → ℂ) (L : LayerInfoCon m) (T T' : m ⊕ m → ℂ) (z : ℝ) :
    ampsCon k0 kx ky L (T + T') z = (ampsCon k0 kx ky L T z).sum (ampsCon k0 kx ky L T' z) := by
  have h : ∀ (v w : m ⊕ m → ℂ), (fun i => (v + w) (.inl i)) = (fun i => v (.inl i)) + fun i => w (.inl i) := fun _ _ => rfl
  have h' : ∀ (v w : m ⊕ m → ℂ), (fun i => (v + w) (.inr i)) = (fun i => v (.inr i)) + fun i => w (.inr i) := fun _ _ => rfl
  unfold ampsCon
  rw [← withZ_add]
  simp only [mulVec_add, h, h', neg_mulVec, mulVec_neg]
  congr 1 <;> abel

theorem amps2d_add (k0 : ℝ) (kx ky : m → ℂ) (L : LayerInfo m (m ⊕ m)) (T T' : m ⊕ m → ℂ) (z : ℝ) :
    amps2d k0 kx ky L (T + T') z = (amps2d k0 kx ky L T z).sum (amps2d k0 kx ky L T' z) := by
  have h : ∀ (v w : m ⊕ m → ℂ), (fun i => (v + w) (.inl i)) = (fun i => v (.inl i)) + fun i => w (.inl i) := fun _ _ => rfl
  have h' : ∀ (v w : m ⊕ m → ℂ), (fun i => (v + w) (.inr i)) = (fun i => v (.inr i)) + fun i => w (.inr i) := fun _ _ => rfl
  unfold amps2d
  rw [← withZ_add]
  simp only [mulVec_add, h, h', neg_mulVec, mulVec_neg]
  congr 1 <;> abel

/-- A layer whose amplitudes and outgoing vector are linear in the incoming one. -/
structure LayerFn.Linear (L : LayerFn m) : Prop where
  amps : ∀ (a b : ℂ) T T' z, L.amps (a • T + b • T') z = ((L.amps T z).scale a).sum ((L.amps T' z).scale b)
  next : ∀ (a b : ℂ) T T', L.next (a • T + b • T') = a • L.next T + b • L.next T'

theorem layerCon_linear (k0 : ℝ) (kx ky : m → ℂ) (L : LayerInfoCon m) : (layerCon k0 kx ky L).Linear where
  amps a b T T' z := by
    show ampsCon k0 kx ky L _ z = _
    rw [ampsCon_add, ampsCon_smul, ampsCon_smul]; rfl
  next a b T T' := by
    show _ *ᵥ _ *ᵥ _ = _
    simp only [mulVec_add, mulVec_smul]; rfl

theorem layer2d_linear (k0 : ℝ) (kx ky : m → ℂ) (L : LayerInfo m (m ⊕ m)) : (layer2d k0 kx ky L).Linear where
  amps a b T T' z := by
    show amps2d k0 kx ky L _ z = _
    rw [amps2d_add, amps2d_smul, amps2d_smul]; rfl
  next a b T T' := by
    show _ *ᵥ _ *ᵥ _ = _
    simp only [mulVec_add, mulVec_smul]; rfl

theorem fn6_linear (k0 : ℝ) (kx ky : m → ℂ) (a b : ℂ) : ∀ (ls : List (LayerFn m)), (∀ L ∈ ls, L.Linear) → ∀ (T T' : m ⊕ m → ℂ) k z y x,
    fn6 k0 kx ky ls (a • T + b • T') k z y x = Spec.plus6 (Spec.times6 a (fn6 k0 kx ky ls T k z y x)) (Spec.times6 b (fn6 k0 kx ky ls T' k z y x))
  | [], _, T, T', k, z, y, x => by simp [fn6, Spec.times6, Spec.plus6]
  | L :: Ls, h, T, T', 0, z, y, x => by
    unfold fn6
    rw [(h L (List.mem_cons_self ..)).amps]
    unfold point6 Spec.plus6 Spec.times6 Amps6.sum Amps6.scale
    simp only [dotProduct_add, dotProduct_smul, smul_eq_mul, mul_add, mul_left_comm]
  | L :: Ls, h, T, T', k + 1, z, y, x => by
    show fn6 k0 kx ky Ls (L.next _) k z y x = _
    rw [(h L (List.mem_cons_self ..)).next]
    exact fn6_linear k0 kx ky a b Ls (fun l hl => h l (List.mem_cons_of_mem _ hl)) _ _ k z y x

theorem finalB_linear (delta : m → ℂ) (psi theta nt : ℂ) :
    finalB delta psi theta nt = Complex.sin psi • finalB delta ((Real.pi / 2 : ℝ) : ℂ) theta nt + Complex.cos psi • finalB delta 0 theta nt := by
  funext i
  have h1 : Complex.sin ((Real.pi / 2 : ℝ) : ℂ) = 1 := by rw [← Complex.ofReal_sin, Real.sin_pi_div_two, Complex.ofReal_one]
  have h2 : Complex.cos ((Real.pi / 2 : ℝ) : ℂ) = 0 := by rw [← Complex.ofReal_cos, Real.cos_pi_div_two, Complex.ofReal_zero]
  rcases i with (i | i) | (i | i) <;>
  simp only [finalB, Pi.add_apply, Pi.smul_apply, smul_eq_mul, h1, h2, Complex.sin_zero, Complex.cos_zero] <;> ring

theorem tFinalB_linear (delta : m → ℂ) (psi theta nt : ℂ) :
    tFinalB delta psi theta nt = Complex.sin psi • tFinalB delta ((Real.pi / 2 : ℝ) : ℂ) theta nt + Complex.cos psi • tFinalB delta 0 theta nt := by
  funext i
  have h1 : Complex.sin ((Real.pi / 2 : ℝ) : ℂ) = 1 := by rw [← Complex.ofReal_sin, Real.sin_pi_div_two, Complex.ofReal_one]
  have h2 : Complex.cos ((Real.pi / 2 : ℝ) : ℂ) = 0 := by rw [← Complex.ofReal_cos, Real.cos_pi_div_two, Complex.ofReal_zero]
  rcases i with (i | i) | (i | i) <;>
  simp only [tFinalB, Pi.add_apply, Pi.smul_apply, smul_eq_mul, h1, h2, Complex.sin_zero, Complex.cos_zero] <;> ring

end

/-- The vectors for the three inputs superpose. -/
def Out4.Superposed {fx fy : ℕ} (o : Out4 fx fy) (psi : ℂ) : Prop := o.T1 = Complex.sin psi • o.T1_te + Complex.cos psi • o.T1_tm

theorem transfer_2d_4_superposed {fx fy : ℕ} {la : LinAlg} {s : TState (FlatIdx fx fy ⊕ FlatIdx fx fy)} {kzt kzb : FlatIdx fx fy → ℂ}
    {psi theta nt nb : ℂ} {b : Bool} {o : Out4 fx fy} (h : transfer_2d_4 la s kzt kzb psi theta nt nb b = .ok o) : o.Superposed psi := by
  unfold transfer_2d_4 at h
  simp only [Except.bind_ok] at h
  obtain ⟨M, -, e⟩ := h
  obtain rfl := Except.ok.inj e
  unfold Out4.Superposed
  funext i
  simp only
  rw [finalB_linear, mulVec_add, mulVec_smul, mulVec_smul]
  rfl

theorem tTransfer_2d_4_superposed {fx fy : ℕ} (la : LinAlg) (s : TState (FlatIdx fx fy ⊕ FlatIdx fx fy)) (kx : Fin (2 * fx + 1) → ℂ) (kzt kzb : FlatIdx fx fy → ℂ)
    (psi theta nt nb : ℂ) (b : Bool) : (tTransfer_2d_4 la s kx kzt kzb psi theta nt nb b).Superposed psi := by
  unfold tTransfer_2d_4 Out4.Superposed
  funext i
  simp only
  rw [tFinalB_linear, mulVec_add, mulVec_smul, mulVec_smul]
  rfl

/-! ### Phases over one period -/

theorem phase_order {wl P u : ℝ} (hw : wl ≠ 0) (hP : P ≠ 0) (j : ℤ) :
    Complex.exp (-Complex.I * ((P : ℂ) * ((u + j * (wl / P) : ℝ) : ℂ) * ((2 * Real.pi / wl : ℝ) : ℂ)))
      = Complex.exp (((-(2 * Real.pi / wl * u * P) : ℝ) : ℂ) * Complex.I) := by
  rw [Complex.exp_eq_exp_iff_exists_int]
  refine ⟨-j, ?_⟩
  have h1 : (wl : ℂ) ≠ 0 := by exact_mod_cast hw
  have h2 : (P : ℂ) ≠ 0 := by exact_mod_cast hP
  push_cast
  field_simp
  ring

section
variable {p : Params} (h : Spec.RealIllumination p)
include h

theorem factor_x (x : ℝ) (i : Fin (2 * p.fto.1 + 1)) :
    Complex.exp (-Complex.I * (((x + p.period.1 : ℝ) : ℂ) * kxVec p p.wavelength i * ((2 * Real.pi / p.wavelength : ℝ) : ℂ)))
      = Complex.exp (((-Spec.phaseAlongX p : ℝ) : ℂ) * Complex.I)
        * Complex.exp (-Complex.I * ((x : ℂ) * kxVec p p.wavelength i * ((2 * Real.pi / p.wavelength : ℝ) : ℂ))) := by
  have e := phase_order (u := p.n_top.re * Real.sin p.theta.re * Real.cos (p.phi.getD 0).re) h.wavelength_pos.ne' h.period_x_pos.ne' (Spec.colOrder i)
  rw [kxVec_order h]
  unfold Spec.phaseAlongX Spec.orderKx
  rw [← e, ← Complex.exp_add]
  congr 1
  rw [Complex.ofReal_add x]
  ring

theorem factor_y (y : ℝ) (i : Fin (2 * p.fto.2 + 1)) :
    Complex.exp (-Complex.I * (((y + p.period.2 : ℝ) : ℂ) * kyVec p p.wavelength i * ((2 * Real.pi / p.wavelength : ℝ) : ℂ)))
      = Complex.exp (((-Spec.phaseAlongY p : ℝ) : ℂ) * Complex.I)
        * Complex.exp (-Complex.I * ((y : ℂ) * kyVec p p.wavelength i * ((2 * Real.pi / p.wavelength : ℝ) : ℂ))) := by
  have e := phase_order (u := p.n_top.re * Real.sin p.theta.re * Real.sin (p.phi.getD 0).re) h.wavelength_pos.ne' h.period_y_pos.ne' (Spec.rowOrder i)
  rw [kyVec_order h]
  unfold Spec.phaseAlongY Spec.orderKy
  rw [← e, ← Complex.exp_add]
  congr 1
  rw [Complex.ofReal_add y]
  ring

theorem invFourier1d_period (x : ℝ) (i : Fin (2 * p.fto.1 + 1)) :
    invFourier1d (2 * Real.pi / p.wavelength) (kxVec p p.wavelength) (x + p.period.1) i
      = Complex.exp (((-Spec.phaseAlongX p : ℝ) : ℂ) * Complex.I) * invFourier1d (2 * Real.pi / p.wavelength) (kxVec p p.wavelength) x i :=
  factor_x h x i

theorem invFourier2d_period_x (x y : ℝ) (i : FlatIdx p.fto.1 p.fto.2) :
    invFourier2d (2 * Real.pi / p.wavelength) (tileX (kxVec p p.wavelength)) (tileY (kyVec p p.wavelength)) (x + p.period.1) (y + 0) i
      = Complex.exp (((-Spec.phaseAlongX p : ℝ) : ℂ) * Complex.I)
        * invFourier2d (2 * Real.pi / p.wavelength) (tileX (kxVec p p.wavelength)) (tileY (kyVec p p.wavelength)) x y i := by
  unfold invFourier2d tileX
  rw [factor_x h, add_zero, mul_assoc]

theorem invFourier2d_period_y (x y : ℝ) (i : FlatIdx p.fto.1 p.fto.2) :
    invFourier2d (2 * Real.pi / p.wavelength) (tileX (kxVec p p.wavelength)) (tileY (kyVec p p.wavelength)) (x + 0) (y + p.period.2) i
      = Complex.exp (((-Spec.phaseAlongY p : ℝ) : ℂ) * Complex.I)
        * invFourier2d (2 * Real.pi / p.wavelength) (tileX (kxVec p p.wavelength)) (tileY (kyVec p p.wavelength)) x y i := by
  unfold invFourier2d tileY
  rw [factor_y h, add_zero, mul_left_comm]

theorem fn6_period (ls : List (LayerFn (FlatIdx p.fto.1 p.fto.2))) (T : FlatIdx p.fto.1 p.fto.2 ⊕ FlatIdx p.fto.1 p.fto.2 → ℂ) :
    let F := fn6 (2 * Real.pi / p.wavelength) (tileX (kxVec p p.wavelength)) (tileY (kyVec p p.wavelength)) ls
    Spec.QuasiX Spec.times6 p.period.1 (-Spec.phaseAlongX p) (F T) ∧ Spec.QuasiY Spec.times6 p.period.2 (-Spec.phaseAlongY p) (F T) := by
  refine ⟨fun k z y x => ?_, fun k z y x => ?_⟩
  · have := fn6_quasi (invFourier2d_period_x h) ls T k z y x
    rwa [add_zero] at this
  · have := fn6_quasi (invFourier2d_period_y h) ls T k z y x
    rwa [add_zero] at this

end

theorem fn6_superposed {k0 : ℝ} {fx fy : ℕ} {kx ky : FlatIdx fx fy → ℂ} {psi : ℂ} {o : Out4 fx fy} (ho : o.Superposed psi)
    {ls : List (LayerFn (FlatIdx fx fy))} (hl : ∀ L ∈ ls, L.Linear) :
    Spec.Superposed psi (fn6 k0 kx ky ls o.T1) (fn6 k0 kx ky ls o.T1_te) (fn6 k0 kx ky ls o.T1_tm) := by
  intro k z y x
  unfold Out4.Superposed at ho
  rw [ho]
  exact fn6_linear _ _ _ _ _ ls hl _ _ k z y x

theorem sampled_select {fx fy rx ry rz n : ℕ} {per : ℝ × ℝ} {o : Out4 fx fy} (sel : Bool × Bool × Bool)
    {F : (FlatIdx fx fy ⊕ FlatIdx fx fy → ℂ) → Spec.FieldFn Field6} {loop : (FlatIdx fx fy ⊕ FlatIdx fx fy → ℂ) → List (Block rx ry rz Field6)}
    (h : ∀ T, Spec.SamplesOf n per (F T) (loop T)) :
    List.Forall₂ (fun f cell => Spec.SamplesOf n per f cell)
      ((if sel.1 then [F o.T1] else []) ++ (if sel.2.1 then [F o.T1_te] else []) ++ (if sel.2.2 then [F o.T1_tm] else []))
      ((selectT1 o sel).map loop) := by
  obtain ⟨a, b, c⟩ := sel
  unfold selectT1
  cases a <;> cases b <;> cases c <;> simp [h]

end Meent
