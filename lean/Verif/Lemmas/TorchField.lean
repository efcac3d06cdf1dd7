import Verif.Lemmas.TorchSolve
import Verif.Spec.TorchFields

/-!
# Fields of the two backends (helper lemmas)
-/

set_option linter.unusedSectionVars false
set_option linter.unusedSimpArgs false

open Matrix

namespace Meent

section
variable {m : Type} [Fintype m] [DecidableEq m]

/-- Multiple of a field. -/
def Field6.scale (c : ℂ) (f : Field6) : Field6 := ⟨c * f.Ex, c * f.Ey, c * f.Ez, c * f.Hx, c * f.Hy, c * f.Hz⟩

def Amps6.scale (c : ℂ) (a : Amps6 m) : Amps6 m := ⟨c • a.Sx, c • a.Sy, c • a.Sz, c • a.Ux, c • a.Uy, c • a.Uz⟩

theorem withZ_smul (c : ℂ) (kx ky : m → ℂ) (E : Matrix m m ℂ) (a b u v : m → ℂ) :
    withZ kx ky E (c • a) (c • b) (c • u) (c • v) = (withZ kx ky E a b u v).scale c := by
  unfold withZ Amps6.scale
  simp only [mulVec_smul, ← smul_sub, smul_comm c]

theorem ampsCon_smul (k0 : ℝ) (kx ky : m → ℂ) (L : LayerInfoCon m) (c : ℂ) (T : m ⊕ m → ℂ) (z : ℝ) :
    ampsCon k0 kx ky L (c • T) z = (ampsCon k0 kx ky L T z).scale c := by
  have h : ∀ (v : m ⊕ m → ℂ), (fun i => (c • v) (.inl i)) = c • fun i => v (.inl i) := fun _ => rfl
  have h' : ∀ (v : m ⊕ m → ℂ), (fun i => (c • v) (.inr i)) = c • fun i => v (.inr i) := fun _ => rfl
  unfold ampsCon
  rw [← withZ_smul]
  simp only [mulVec_smul, h, h', neg_mulVec, ← smul_neg, ← smul_add]

theorem amps2d_smul (k0 : ℝ) (kx ky : m → ℂ) (L : LayerInfo m (m ⊕ m)) (c : ℂ) (T : m ⊕ m → ℂ) (z : ℝ) :
    amps2d k0 kx ky L (c • T) z = (amps2d k0 kx ky L T z).scale c := by
  have h : ∀ (v : m ⊕ m → ℂ), (fun i => (c • v) (.inl i)) = c • fun i => v (.inl i) := fun _ => rfl
  have h' : ∀ (v : m ⊕ m → ℂ), (fun i => (c • v) (.inr i)) = c • fun i => v (.inr i) := fun _ => rfl
  unfold amps2d
  rw [← withZ_smul]
  simp only [mulVec_smul, h, h', neg_mulVec, ← smul_neg, ← smul_add]

theorem block6_scale (k0 : ℝ) (per : ℝ × ℝ) (kx ky : m → ℂ) (rx ry rz : ℕ) (d : ℝ) (c : ℂ) (a : ℝ → Amps6 m)
    (iz : Fin rz) (iy : Fin ry) (ix : Fin rx) :
    block6 k0 per kx ky rx ry rz d (fun z => (a z).scale c) iz iy ix
      = (block6 k0 per kx ky rx ry rz d a iz iy ix).scale c := by
  unfold block6 Amps6.scale Field6.scale
  simp only [dotProduct_smul, smul_eq_mul, mul_left_comm]

theorem fieldLoopCon_smul (k0 : ℝ) (per : ℝ × ℝ) (kx ky : m → ℂ) (rx ry rz : ℕ) (c : ℂ) :
    ∀ (ls : List (LayerInfoCon m)) (T : m ⊕ m → ℂ),
      List.Forall₂ (fun (a b : Block rx ry rz Field6) => ∀ iz iy ix, b iz iy ix = (a iz iy ix).scale c)
        (fieldLoopCon k0 per kx ky rx ry rz ls T) (fieldLoopCon k0 per kx ky rx ry rz ls (c • T))
  | [], _ => .nil
  | L :: Ls, T => by
    refine .cons ?_ ?_
    · intro iz iy ix
      rw [show ampsCon k0 kx ky L (c • T) = fun z => (ampsCon k0 kx ky L T z).scale c from
        funext fun z => ampsCon_smul _ _ _ _ _ _ _]
      exact block6_scale _ _ _ _ _ _ _ _ _ _ _ _ _
    · rw [mulVec_smul, mulVec_smul]
      exact fieldLoopCon_smul k0 per kx ky rx ry rz c Ls _

theorem fieldLoop2d_smul (k0 : ℝ) (per : ℝ × ℝ) (kx ky : m → ℂ) (rx ry rz : ℕ) (c : ℂ) :
    ∀ (ls : List (LayerInfo m (m ⊕ m))) (T : m ⊕ m → ℂ),
      List.Forall₂ (fun (a b : Block rx ry rz Field6) => ∀ iz iy ix, b iz iy ix = (a iz iy ix).scale c)
        (fieldLoop2d k0 per kx ky rx ry rz ls T) (fieldLoop2d k0 per kx ky rx ry rz ls (c • T))
  | [], _ => .nil
  | L :: Ls, T => by
    refine .cons ?_ ?_
    · intro iz iy ix
      rw [show amps2d k0 kx ky L (c • T) = fun z => (amps2d k0 kx ky L T z).scale c from
        funext fun z => amps2d_smul _ _ _ _ _ _ _]
      exact block6_scale _ _ _ _ _ _ _ _ _ _ _ _ _
    · rw [mulVec_smul, mulVec_smul]
      exact fieldLoop2d_smul k0 per kx ky rx ry rz c Ls _

end

theorem tSigns_mirrored (c : ℂ) (hc : c = 1 ∨ c = -1) (f : Field6) : Spec.Mirrored (-c) f (tSigns (f.scale c)) := by
  have hcs : star c = c := by rcases hc with rfl | rfl <;> simp
  have hcs' : (starRingEnd ℂ) c = c := hcs
  constructor <;> simp only [tSigns, Field6.scale, Complex.star_def, map_mul, hcs'] <;> ring

theorem mirroredCells_of {rx ry rz : ℕ} {c : ℂ} (hc : c = 1 ∨ c = -1) {a b : List (Block rx ry rz Field6)}
    (h : List.Forall₂ (fun (a b : Block rx ry rz Field6) => ∀ iz iy ix, b iz iy ix = (a iz iy ix).scale c) a b) :
    Spec.MirroredCells (-c) a (b.map (Block.map tSigns)) := by
  unfold Spec.MirroredCells
  rw [List.forall₂_map_right_iff]
  refine h.imp fun x y hxy iz iy ix => ?_
  rw [show Block.map tSigns y iz iy ix = tSigns (y iz iy ix) from rfl, hxy]
  exact tSigns_mirrored c hc _

/-- Selected vectors and their factors. -/
theorem select_factors {fx fy rx ry rz : ℕ} {x x' : Out4 fx fy} {c : ℂ} (hc : c = 1 ∨ c = -1)
    (h1 : x'.T1 = c • x.T1) (h2 : x'.T1_te = x.T1_te) (h3 : x'.T1_tm = (-1 : ℂ) • x.T1_tm)
    {L L' : (FlatIdx fx fy ⊕ FlatIdx fx fy → ℂ) → List (Block rx ry rz Field6)}
    (hL : ∀ c T, List.Forall₂ (fun (a b : Block rx ry rz Field6) => ∀ iz iy ix, b iz iy ix = (a iz iy ix).scale c)
      (L T) (L' (c • T))) (pol : ℝ) (sel : Bool × Bool × Bool) :
    Spec.SameFields pol (-c) sel (.vector ((selectT1 x sel).map L))
      (.vector (((selectT1 x' sel).map L').map (List.map (Block.map tSigns)))) := by
  have k1 : Spec.MirroredCells (-c) (L x.T1) ((L' x'.T1).map (Block.map tSigns)) := by
    rw [h1]; exact mirroredCells_of hc (hL _ _)
  have k2 : Spec.MirroredCells (-1) (L x.T1_te) ((L' x'.T1_te).map (Block.map tSigns)) := by
    have := hL 1 x.T1_te
    rw [one_smul] at this
    rw [h2]; exact mirroredCells_of (Or.inl rfl) this
  have k3 : Spec.MirroredCells 1 (L x.T1_tm) ((L' x'.T1_tm).map (Block.map tSigns)) := by
    have := mirroredCells_of (Or.inr rfl) (hL (-1) x.T1_tm)
    rw [neg_neg] at this
    rw [h3]; exact this
  obtain ⟨a, b, d⟩ := sel
  refine .vector ?_ ?_ ?_
  · cases a <;> cases b <;> cases d <;> rfl
  · cases a <;> cases b <;> cases d <;> rfl
  · intro k c' cell cell' e1 e2 e3
    have aux : ∀ (cs : List ℂ) (l l' : List (List (Block rx ry rz Field6))), cs.length = l.length → l.length = l'.length →
        (∀ t ∈ cs.zip (l.zip l'), Spec.MirroredCells t.1 t.2.1 t.2.2) → cs[k]? = some c' → l[k]? = some cell →
        l'[k]? = some cell' → Spec.MirroredCells c' cell cell' := by
      intro cs l l' _ _ h e1 e2 e3
      refine h (c', cell, cell') ?_
      refine List.mem_of_getElem? (i := k) ?_
      rw [List.getElem?_zip_eq_some, List.getElem?_zip_eq_some]
      exact ⟨e1, e2, e3⟩
    refine aux _ _ _ ?_ ?_ ?_ e1 e2 e3
    · cases a <;> cases b <;> cases d <;> rfl
    · cases a <;> cases b <;> cases d <;> rfl
    · cases a <;> cases b <;> cases d <;>
        simp [Spec.factors, selectT1, k1, k2, k3]

variable {p : Params}

theorem tetm_fields (h : Spec.RealIllumination p) (hpol : p.pol = 0 ∨ p.pol = 1) {o o' : Out1D (2 * p.fto.1 + 1)}
    (h1 : o'.T1 = o.T1) (h2 : o'.infos = o.infos) (rx ry rz : ℕ) (sel : Bool × Bool × Bool) :
    ∃ cell', tCalculate_field p (.tetm o') rx ry rz sel = .ok cell' ∧
      Spec.SameFields p.pol (if p.pol = 0 then -1 else 1) sel (.tetm (field_dist_1d p o rx rz)) cell' := by
  have e : tField_dist_1d p o' rx rz = field_dist_1d p o rx rz := by
    unfold tField_dist_1d field_dist_1d
    rw [tKxVec_eq h, h1, h2]
  refine ⟨_, rfl, .tetm ?_⟩
  simp only [e]
  unfold Spec.MirroredCells
  rw [List.forall₂_map_left_iff]
  rcases hpol with h0 | h0
  · simp only [h0, if_true, zero_ne_one, if_false]
    rw [List.forall₂_map_right_iff]
    refine List.forall₂_same.mpr fun b _ iz iy ix => ?_
    constructor <;> simp [Block.map, tSigns, tExpand, Spec.six]
  · simp only [h0, if_true, one_ne_zero, if_false]
    rw [List.forall₂_map_right_iff, List.forall₂_map_right_iff]
    refine List.forall₂_same.mpr fun b _ iz iy ix => ?_
    constructor <;> simp [Block.map, tSigns, tExpand, Spec.six, Field6.neg]

theorem con_fields (h : Spec.RealIllumination p) {psi0 c : ℂ} (hc : c = 1 ∨ c = -1) {o : OutCon p.fto.1 p.fto.2}
    {o' : OutCon p.fto.1 p.fto.2} (h1 : o'.out.T1 = c • o.out.T1) (h2 : o'.out.T1_te = o.out.T1_te)
    (h3 : o'.out.T1_tm = (-1 : ℂ) • o.out.T1_tm) (h4 : o'.infos = o.infos) (rx ry rz : ℕ) (sel : Bool × Bool × Bool) :
    ∃ cell', tCalculate_field p (.conical o') rx ry rz sel = .ok cell' ∧
      Spec.SameFields p.pol (-c) sel (.vector (field_dist_1d_conical { p with psi := psi0 } o rx ry rz sel)) cell' := by
  refine ⟨_, rfl, ?_⟩
  unfold tField_dist_1d_conical field_dist_1d_conical
  rw [tKxVec_eq h, tKyVec_eq h, h4]
  exact select_factors hc h1 h2 h3 (fun c T => fieldLoopCon_smul _ _ _ _ _ _ _ c _ T) _ _

theorem twoD_fields (h : Spec.RealIllumination p) {psi0 c : ℂ} (hc : c = 1 ∨ c = -1) {o : Out2D p.fto.1 p.fto.2}
    {o' : Out2D p.fto.1 p.fto.2} (h1 : o'.out.T1 = c • o.out.T1) (h2 : o'.out.T1_te = o.out.T1_te)
    (h3 : o'.out.T1_tm = (-1 : ℂ) • o.out.T1_tm) (h4 : o'.infos = o.infos) (rx ry rz : ℕ) (sel : Bool × Bool × Bool) :
    ∃ cell', tCalculate_field p (.twoD o') rx ry rz sel = .ok cell' ∧
      Spec.SameFields p.pol (-c) sel (.vector (field_dist_2d { p with psi := psi0 } o rx ry rz sel)) cell' := by
  refine ⟨_, rfl, ?_⟩
  unfold tField_dist_2d field_dist_2d
  rw [tKxVec_eq h, tKyVec_eq h, h4]
  exact select_factors hc h1 h2 h3 (fun c T => fieldLoop2d_smul _ _ _ _ _ _ _ c _ T) _ _

/-- Solution vectors of the two backends. -/
theorem TorchOf.vectors {fx fy : ℕ} {kx : Fin (2 * fx + 1) → ℂ} {psi0 psi theta nt nb c : ℂ} {x x' : Out4 fx fy}
    {t kzt kzb N} (h : TorchOf kx psi0 psi theta nt nb x x' t kzt kzb N)
    (he : tFinalB (m := FlatIdx fx fy) deltaI0 psi theta nt = c • finalB deltaI0 psi0 theta nt) :
    x'.T1 = c • x.T1 ∧ x'.T1_te = x.T1_te ∧ x'.T1_tm = (-1 : ℂ) • x.T1_tm := by
  rw [h.t1, h.t1_te, h.t1_tm, h.t1', h.t1_te', h.t1_tm']
  refine ⟨?_, ?_, ?_⟩
  · rw [he, mulVec_smul]; rfl
  · rw [tFinalB_of_cos _ (by push_cast; exact Complex.cos_pi_div_two), one_smul]
  · rw [tFinalB_of_sin _ Complex.sin_zero, mulVec_smul]; rfl

theorem tConv_solve_field_of {la : LinAlg} {s : TSettings} {rx ry rz : ℕ} {sel : Bool × Bool × Bool}
    {r : Solved s.p.fto.1 s.p.fto.2} {cell : TFieldCell rx ry rz} (h : tConv_solve la s = .ok r)
    (h' : tCalculate_field s.p r rx ry rz sel = .ok cell) :
    tConv_solve_field la s rx ry rz sel = .ok (r, cell) := by
  unfold tConv_solve_field
  rw [h]
  show (tCalculate_field s.p r rx ry rz sel >>= _) = _
  rw [h']
  rfl

end Meent
