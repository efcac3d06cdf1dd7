import Verif.Lemmas.ScaleVector
import Verif.Model.Field

/-!
# Fields of rescaled problems (helper lemmas)
-/

open Matrix

namespace Meent

set_option linter.unusedSectionVars false
set_option linter.unusedSimpArgs false

/-- The record of a layer with its thickness multiplied by `c`. -/
def stretchInfo {n m : Type} (c : ℝ) (L : LayerInfo n m) : LayerInfo n m := { L with d := c * L.d }

/-- The record of a layer of the conical solver with its thickness multiplied by `c`. -/
def stretchCon {m : Type} (c : ℝ) (L : LayerInfoCon m) : LayerInfoCon m := { L with d := c * L.d }

/-- What a solve leaves behind, with the recorded thicknesses multiplied by `c`. -/
def stretchSolved {fx fy : ℕ} (c : ℝ) : Solved fx fy → Solved fx fy
  | .tetm o => .tetm { o with infos := o.infos.map (stretchInfo c) }
  | .conical o => .conical { o with infos := o.infos.map (stretchCon c) }
  | .conicalSmm => .conicalSmm
  | .twoD o => .twoD { o with infos := o.infos.map (stretchInfo c) }

theorem layerLoop_stretch {S C L : Type} {step step' : C → ℝ → S → Res (S × L)} (f : ℝ → ℝ) (g : L → L)
    (h : ∀ c d s, step' c (f d) s = (step c d s).map (fun r => (r.1, g r.2))) (convs : List C) (th : List ℝ) (n : ℕ) :
    ∀ (s : S) (is : List L), layerLoop step' convs (th.map f) n (s, is.map g)
      = (layerLoop step convs th n (s, is)).map (fun r => (r.1, r.2.map g)) := by
  induction n with
  | zero => intro s is; rfl
  | succ n ih =>
    intro s is
    simp only [layerLoop, getIdx_map]
    cases hc : getIdx convs n with
    | error e => rfl
    | ok c =>
      cases hd : getIdx th n with
      | error e => rfl
      | ok d =>
        simp only [ok_bind, ok_map, h]
        cases step c d s with
        | error e => rfl
        | ok r =>
          simp only [ok_bind, ok_map]
          rw [← ih, List.map_append, List.map_singleton]

section
variable {k0 k0' c : ℝ} (hk : ∀ d : ℝ, k0' * (c * d) = k0 * d)
include hk

theorem hkC (d : ℝ) : (k0' : ℂ) * ((c * d : ℝ) : ℂ) = (k0 : ℂ) * (d : ℂ) := by
  rw [← Complex.ofReal_mul, hk d, Complex.ofReal_mul]

theorem step1d_stretch {n : Type} [Fintype n] [DecidableEq n] (la : LinAlg) (p p' : Params) (hpol : p'.pol = p.pol)
    (hpinv : p'.use_pinv = p.use_pinv) (kx : n → ℂ) (cv : Conv n) (d : ℝ) (st : TState n) :
    step1d la p' k0' kx cv (c * d) st = (step1d la p k0 kx cv d st).map (fun r => (r.1, stretchInfo c r.2)) := by
  unfold step1d transfer_1d_3
  rw [hpol, hpinv]
  cases transfer_1d_2 la p.pol kx cv p.use_pinv with
  | error e => simp only [err_bind, err_map]
  | ok m =>
    simp only [ok_bind, phaseX_of hk]
    cases tmmStep la p.use_pinv (phaseX k0 m.q d) m.W m.V st <;> rfl

theorem stepCon_stretch {m : Type} [Fintype m] [DecidableEq m] (la : LinAlg) (u : Bool) (kx ky v : m → ℂ) (cv : Conv m) (d : ℝ)
    (st : TState (m ⊕ m)) :
    stepCon la u k0' kx ky v cv (c * d) st = (stepCon la u k0 kx ky v cv d st).map (fun r => (r.1, stretchCon c r.2)) := by
  unfold stepCon
  cases transfer_1d_conical_2 la kx ky cv u with
  | error e => simp only [err_bind, err_map]
  | ok M =>
    have : transfer_1d_conical_3 la k0' M (c * d) v st u = transfer_1d_conical_3 la k0 M d v st u := by
      unfold transfer_1d_conical_3 bigX
      simp only [phaseX_of hk]
    simp only [ok_bind, this]
    cases transfer_1d_conical_3 la k0 M d v st u <;> rfl

theorem step2d_stretch {m : Type} [Fintype m] [DecidableEq m] (la : LinAlg) (u : Bool) (kx ky v : m → ℂ) (cv : Conv m) (d : ℝ)
    (st : TState (m ⊕ m)) :
    step2d la u k0' kx ky v cv (c * d) st = (step2d la u k0 kx ky v cv d st).map (fun r => (r.1, stretchInfo c r.2)) := by
  unfold step2d
  cases transfer_2d_2 la kx ky cv u with
  | error e => simp only [err_bind, err_map]
  | ok M =>
    have : transfer_2d_3 la k0' M (c * d) v st u = transfer_2d_3 la k0 M d v st u := by
      unfold transfer_2d_3 bigX
      simp only [phaseX_of hk]
    simp only [ok_bind, this]
    cases transfer_2d_3 la k0 M d v st u <;> rfl

theorem expDown_of {n : Type} [DecidableEq n] (q : n → ℂ) (z : ℝ) : expDown k0' q (c * z) = expDown k0 q z := by
  unfold expDown
  congr 1
  funext i
  congr 1
  linear_combination -q i * hkC hk z

theorem expUp_of {n : Type} [DecidableEq n] (q : n → ℂ) (d z : ℝ) : expUp k0' q (c * d) (c * z) = expUp k0 q d z := by
  unfold expUp
  congr 1
  funext i
  congr 1
  have := hkC hk (z - d)
  rw [← mul_sub]
  linear_combination q i * this

theorem amps1d_of {n : Type} [Fintype n] [DecidableEq n] (pol : ℝ) (kx : n → ℂ) (L : LayerInfo n n) (T : n → ℂ) (z : ℝ) :
    amps1d k0' pol kx (stretchInfo c L) T (c * z) = amps1d k0 pol kx L T z := by
  unfold amps1d stretchInfo
  simp only [phaseX_of hk, expDown_of hk, expUp_of hk]

theorem ampsCon_of {m : Type} [Fintype m] [DecidableEq m] (kx ky : m → ℂ) (L : LayerInfoCon m) (T : m ⊕ m → ℂ) (z : ℝ) :
    ampsCon k0' kx ky (stretchCon c L) T (c * z) = ampsCon k0 kx ky L T z := by
  unfold ampsCon stretchCon bigX
  simp only [phaseX_of hk, expDown_of hk, expUp_of hk]

theorem amps2d_of {m : Type} [Fintype m] [DecidableEq m] (kx ky : m → ℂ) (L : LayerInfo m (m ⊕ m)) (T : m ⊕ m → ℂ) (z : ℝ) :
    amps2d k0' kx ky (stretchInfo c L) T (c * z) = amps2d k0 kx ky L T z := by
  unfold amps2d stretchInfo
  simp only [phaseX_of hk, expDown_of hk, expUp_of hk]

omit hk in
theorem linspace_scaled (P : ℝ) (n : ℕ) (i : Fin n) : linspace 0 (c * P) n i = c * linspace 0 P n i := by
  unfold linspace
  split <;> ring

omit hk in
theorem zSample_scaled (n : ℕ) (d : ℝ) (i : Fin n) : zSample n (c * d) i = c * zSample n d i := by
  unfold zSample
  ring

theorem invFourier1d_of {n : Type} (kx : n → ℂ) (x : ℝ) : invFourier1d k0' kx (c * x) = invFourier1d k0 kx x := by
  unfold invFourier1d
  funext i
  congr 1
  linear_combination -Complex.I * kx i * hkC hk x

theorem invFourier2d_of {n : Type} (kx ky : n → ℂ) (x y : ℝ) : invFourier2d k0' kx ky (c * x) (c * y) = invFourier2d k0 kx ky x y := by
  unfold invFourier2d
  funext i
  congr 2
  · linear_combination -Complex.I * kx i * hkC hk x
  · linear_combination -Complex.I * ky i * hkC hk y

theorem fieldLoop1d_of {n : Type} [Fintype n] [DecidableEq n] (pol P : ℝ) (kx : n → ℂ) (rx rz : ℕ) (Ls : List (LayerInfo n n)) :
    ∀ T : n → ℂ, fieldLoop1d k0' pol (c * P) kx rx rz (Ls.map (stretchInfo c)) T = fieldLoop1d k0 pol P kx rx rz Ls T := by
  induction Ls with
  | nil => intro T; rfl
  | cons L Ls ih =>
    intro T
    simp only [List.map_cons, fieldLoop1d, ih]
    congr 1
    · funext iz iy ix
      unfold block1d
      have e : zSample rz (stretchInfo c L).d iz = c * zSample rz L.d iz := zSample_scaled rz L.d iz
      simp only [e, amps1d_of hk, linspace_scaled, invFourier1d_of hk]
    · have e : phaseX k0' (stretchInfo c L).modes.q (stretchInfo c L).d = phaseX k0 L.modes.q L.d := phaseX_of hk L.d L.modes.q
      rw [e]
      rfl

theorem block6_of {m : Type} [Fintype m] (P : ℝ × ℝ) (kx ky : m → ℂ) (rx ry rz : ℕ) (d : ℝ) {a a' : ℝ → Amps6 m}
    (h : ∀ z, a' (c * z) = a z) :
    block6 k0' (c * P.1, c * P.2) kx ky rx ry rz (c * d) a' = block6 k0 P kx ky rx ry rz d a := by
  funext iz iy ix
  unfold block6
  simp only [zSample_scaled, h, linspace_scaled, invFourier2d_of hk]

theorem fieldLoopCon_of {m : Type} [Fintype m] [DecidableEq m] (P : ℝ × ℝ) (kx ky : m → ℂ) (rx ry rz : ℕ) (Ls : List (LayerInfoCon m)) :
    ∀ T, fieldLoopCon k0' (c * P.1, c * P.2) kx ky rx ry rz (Ls.map (stretchCon c)) T = fieldLoopCon k0 P kx ky rx ry rz Ls T := by
  induction Ls with
  | nil => intro T; rfl
  | cons L Ls ih =>
    intro T
    simp only [List.map_cons, fieldLoopCon, ih]
    congr 1
    · exact block6_of hk P kx ky rx ry rz L.d (ampsCon_of hk kx ky L T)
    · have e : bigX k0' (stretchCon c L).modes.q1 (stretchCon c L).modes.q2 (stretchCon c L).d
          = bigX k0 L.modes.q1 L.modes.q2 L.d := by
        unfold bigX stretchCon
        simp only [phaseX_of hk]
      rw [e]
      rfl

theorem fieldLoop2d_of {m : Type} [Fintype m] [DecidableEq m] (P : ℝ × ℝ) (kx ky : m → ℂ) (rx ry rz : ℕ)
    (Ls : List (LayerInfo m (m ⊕ m))) :
    ∀ T, fieldLoop2d k0' (c * P.1, c * P.2) kx ky rx ry rz (Ls.map (stretchInfo c)) T = fieldLoop2d k0 P kx ky rx ry rz Ls T := by
  induction Ls with
  | nil => intro T; rfl
  | cons L Ls ih =>
    intro T
    simp only [List.map_cons, fieldLoop2d, ih]
    congr 1
    · exact block6_of hk P kx ky rx ry rz L.d (amps2d_of hk kx ky L T)
    · have e : phaseX k0' (stretchInfo c L).modes.q (stretchInfo c L).d = phaseX k0 L.modes.q L.d := phaseX_of hk L.d L.modes.q
      rw [e]
      rfl

end

section
variable {c : ℝ} (hc : c ≠ 0) (s : Settings)
include hc

theorem solve_1d_stretch (la : LinAlg) (convs : List (Conv (Fin (2 * s.p.fto.1 + 1)))) :
    solve_1d la (Spec.scaled c s).p (Spec.scaled c s).p.wavelength convs
      = (solve_1d la s.p s.p.wavelength convs).map (fun o => { o with infos := o.infos.map (stretchInfo c) }) := by
  unfold solve_1d
  simp only [map_bind, List.length_map, scaled_kx hc s]
  cases transfer_1d_1 s.p.pol (kxVec s.p s.p.wavelength) s.p.n_top s.p.n_bot with
  | error e => simp only [err_bind, err_map]
  | ok init =>
    simp only [ok_bind]
    have := layerLoop_stretch (c * ·) (stretchInfo c)
      (fun cv d st => step1d_stretch (k0_scaled hc s) la s.p (Spec.scaled c s).p rfl rfl (kxVec s.p s.p.wavelength) cv d st)
      convs s.p.thickness s.p.thickness.length init.2.2 []
    rw [List.map_nil] at this
    rw [this]
    cases layerLoop (step1d la s.p (2 * Real.pi / s.p.wavelength) (kxVec s.p s.p.wavelength)) convs s.p.thickness
        s.p.thickness.length (init.2.2, []) with
    | error e => rfl
    | ok r =>
      simp only [ok_bind, ok_map]

theorem solve_con_stretch (la : LinAlg) (convs : List (Conv (FlatIdx s.p.fto.1 s.p.fto.2))) :
    solve_1d_conical la (Spec.scaled c s).p (Spec.scaled c s).p.wavelength convs
      = (solve_1d_conical la s.p s.p.wavelength convs).map (fun o => { o with infos := o.infos.map (stretchCon c) }) := by
  unfold solve_1d_conical
  simp only [map_bind, List.length_map, scaled_kx hc s, scaled_ky hc s]
  cases transfer_2d_1 (tileX (fy := s.p.fto.2) (kxVec s.p s.p.wavelength))
      (tileY (fx := s.p.fto.1) (kyVec s.p s.p.wavelength)) s.p.n_top s.p.n_bot with
  | error e => simp only [err_bind, err_map]
  | ok init =>
    simp only [ok_bind]
    have := layerLoop_stretch (c * ·) (stretchCon c)
      (fun cv d st => stepCon_stretch (k0_scaled hc s) la s.p.use_pinv (tileX (fy := s.p.fto.2) (kxVec s.p s.p.wavelength))
        (tileY (fx := s.p.fto.1) (kyVec s.p s.p.wavelength)) init.2.2.1 cv d st)
      convs s.p.thickness s.p.thickness.length init.2.2.2 []
    rw [List.map_nil] at this
    rw [this]
    cases layerLoop (stepCon la s.p.use_pinv (2 * Real.pi / s.p.wavelength) (tileX (fy := s.p.fto.2) (kxVec s.p s.p.wavelength))
        (tileY (fx := s.p.fto.1) (kyVec s.p s.p.wavelength)) init.2.2.1) convs s.p.thickness
        s.p.thickness.length (init.2.2.2, []) with
    | error e => rfl
    | ok r =>
      simp only [ok_bind, ok_map]
      split
      · rfl
      · cases transfer_2d_4 la r.1 init.1 init.2.1 s.p.psi s.p.theta s.p.n_top s.p.n_bot s.p.use_pinv <;> rfl

theorem solve_2d_stretch (la : LinAlg) (convs : List (Conv (FlatIdx s.p.fto.1 s.p.fto.2))) :
    solve_2d la (Spec.scaled c s).p (Spec.scaled c s).p.wavelength convs
      = (solve_2d la s.p s.p.wavelength convs).map (fun o => { o with infos := o.infos.map (stretchInfo c) }) := by
  unfold solve_2d
  simp only [map_bind, List.length_map, scaled_kx hc s, scaled_ky hc s]
  cases transfer_2d_1 (tileX (fy := s.p.fto.2) (kxVec s.p s.p.wavelength))
      (tileY (fx := s.p.fto.1) (kyVec s.p s.p.wavelength)) s.p.n_top s.p.n_bot with
  | error e => simp only [err_bind, err_map]
  | ok init =>
    simp only [ok_bind]
    have := layerLoop_stretch (c * ·) (stretchInfo c)
      (fun cv d st => step2d_stretch (k0_scaled hc s) la s.p.use_pinv (tileX (fy := s.p.fto.2) (kxVec s.p s.p.wavelength))
        (tileY (fx := s.p.fto.1) (kyVec s.p s.p.wavelength)) init.2.2.1 cv d st)
      convs s.p.thickness s.p.thickness.length init.2.2.2 []
    rw [List.map_nil] at this
    rw [this]
    cases layerLoop (step2d la s.p.use_pinv (2 * Real.pi / s.p.wavelength) (tileX (fy := s.p.fto.2) (kxVec s.p s.p.wavelength))
        (tileY (fx := s.p.fto.1) (kyVec s.p s.p.wavelength)) init.2.2.1) convs s.p.thickness
        s.p.thickness.length (init.2.2.2, []) with
    | error e => rfl
    | ok r =>
      simp only [ok_bind, ok_map]

theorem conv_solve_stretch (la : LinAlg) (hcv : convMats la (Spec.scaled c s) = convMats la s) :
    conv_solve la (Spec.scaled c s) = (conv_solve la s).map (stretchSolved c) := by
  unfold conv_solve
  rw [map_bind, hcv]
  congr 1
  funext cs
  unfold solve_for_conv
  rw [gratingType_scaled]
  have e1 := solve_1d_stretch hc s la (cs.map Conv.row)
  have e2 := solve_con_stretch hc s la cs
  have e3 := solve_2d_stretch hc s la cs
  have ha : (Spec.scaled c s).algo = s.algo := rfl
  rw [ha]
  split
  · refine (congrArg (· >>= fun o => (Except.ok (Solved.tetm o) : Res (Solved s.p.fto.1 s.p.fto.2))) e1).trans ?_
    cases solve_1d la s.p s.p.wavelength (cs.map Conv.row) <;> rfl
  · rfl
  · refine (congrArg (· >>= fun o => (Except.ok (Solved.conical o) : Res (Solved s.p.fto.1 s.p.fto.2))) e2).trans ?_
    cases solve_1d_conical la s.p s.p.wavelength cs <;> rfl
  · rfl
  · rfl
  · refine (congrArg (· >>= fun o => (Except.ok (Solved.twoD o) : Res (Solved s.p.fto.1 s.p.fto.2))) e3).trans ?_
    cases solve_2d la s.p s.p.wavelength cs <;> rfl
  · rfl

theorem calculate_field_stretch (r : Solved s.p.fto.1 s.p.fto.2) (rx ry rz : ℕ) (sel : Bool × Bool × Bool) :
    calculate_field (Spec.scaled c s).p (stretchSolved c r) rx ry rz sel = calculate_field s.p r rx ry rz sel := by
  have hx := scaled_kx hc s
  have hy := scaled_ky hc s
  cases r with
  | tetm o =>
    refine congrArg (fun l => (Except.ok (FieldCell.tetm l) : Res (FieldCell rx ry rz))) ?_
    unfold field_dist_1d
    rw [hx]
    simp only [← List.map_reverse]
    exact fieldLoop1d_of (k0_scaled hc s) _ _ _ rx rz _ _
  | conical o =>
    refine congrArg (fun l => (Except.ok (FieldCell.vector l) : Res (FieldCell rx ry rz))) ?_
    unfold field_dist_1d_conical
    rw [hx, hy]
    simp only [← List.map_reverse]
    refine List.map_congr_left (fun T _ => ?_)
    exact fieldLoopCon_of (k0_scaled hc s) _ _ _ rx ry rz _ _
  | conicalSmm => rfl
  | twoD o =>
    refine congrArg (fun l => (Except.ok (FieldCell.vector l) : Res (FieldCell rx ry rz))) ?_
    unfold field_dist_2d
    rw [hx, hy]
    simp only [← List.map_reverse]
    refine List.map_congr_left (fun T _ => ?_)
    exact fieldLoop2d_of (k0_scaled hc s) _ _ _ rx ry rz _ _

omit hc in
theorem conv_solve_field_snd (la : LinAlg) (t : Settings) (rx ry rz : ℕ) (sel : Bool × Bool × Bool) :
    (conv_solve_field la t rx ry rz sel).map Prod.snd = conv_solve la t >>= fun r => calculate_field t.p r rx ry rz sel := by
  unfold conv_solve_field
  cases conv_solve la t with
  | error e => rfl
  | ok r =>
    simp only [ok_bind]
    cases calculate_field t.p r rx ry rz sel <;> rfl

omit hc in
theorem bind_map_left {α β γ : Type} (x : Res α) (f : α → β) (g : β → Res γ) : (x.map f >>= g) = x >>= fun a => g (f a) := by
  cases x <;> rfl

theorem conv_solve_field_stretch (la : LinAlg) (hcv : convMats la (Spec.scaled c s) = convMats la s) (rx ry rz : ℕ)
    (sel : Bool × Bool × Bool) :
    (conv_solve_field la (Spec.scaled c s) rx ry rz sel).map Prod.snd = (conv_solve_field la s rx ry rz sel).map Prod.snd := by
  rw [conv_solve_field_snd, conv_solve_field_snd, conv_solve_stretch hc s la hcv, bind_map_left]
  exact congrArg (conv_solve la s >>= ·) (funext fun r => calculate_field_stretch hc s r rx ry rz sel)

end

end Meent
