import Verif.Spec.Scale
import Verif.Lemmas.Dispatch

/-!
# Scale invariance (helper lemmas)
-/

open Matrix

namespace Meent

set_option linter.unusedSectionVars false
set_option linter.unusedSimpArgs false

theorem getIdx_map {α β : Type} (f : α → β) (l : List α) (i : ℕ) : getIdx (l.map f) i = (getIdx l i).map f := by
  unfold getIdx
  rw [List.getElem?_map]
  cases l[i]? <;> rfl

theorem layerLoop_map {S C L L' : Type} {step : C → ℝ → S → Res (S × L)} {step' : C → ℝ → S → Res (S × L')} (f : ℝ → ℝ)
    (h : ∀ c d s, (step' c (f d) s).map Prod.fst = (step c d s).map Prod.fst) (convs : List C) (th : List ℝ) (n : ℕ) :
    ∀ (s : S) (is : List L) (is' : List L'),
      (layerLoop step' convs (th.map f) n (s, is')).map Prod.fst = (layerLoop step convs th n (s, is)).map Prod.fst := by
  induction n with
  | zero => intro s is is'; rfl
  | succ n ih =>
    intro s is is'
    simp only [layerLoop, getIdx_map]
    cases hc : getIdx convs n with
    | error e => rfl
    | ok c =>
      cases hd : getIdx th n with
      | error e => rfl
      | ok d =>
        simp only [Except.map, bind, Except.bind]
        have := h c d s
        cases h1 : step' c (f d) s with
        | error e =>
          rw [h1] at this
          cases h2 : step c d s with
          | error e' => rw [h2] at this; cases this; rfl
          | ok r => rw [h2] at this; cases this
        | ok r' =>
          rw [h1] at this
          cases h2 : step c d s with
          | error e' => rw [h2] at this; cases this
          | ok r =>
            rw [h2] at this
            have e : r'.1 = r.1 := Except.ok.inj this
            simp only [e]
            exact ih r.1 _ _

/-- Sequencing after a computation whose first component alone matters. -/
theorem bind_map_fst {α β β' γ : Type} {x : Res (α × β)} {y : Res (α × β')} (h : x.map Prod.fst = y.map Prod.fst)
    {f : α × β → Res γ} {g : α × β' → Res γ} (hf : ∀ a b b', f (a, b) = g (a, b')) : (x >>= f) = (y >>= g) := by
  cases x with
  | error e => cases y with
    | error e' => cases h; rfl
    | ok b => cases h
  | ok a => cases y with
    | error e' => cases h
    | ok b =>
      have e : a.1 = b.1 := Except.ok.inj h
      obtain ⟨a1, a2⟩ := a
      obtain ⟨b1, b2⟩ := b
      simp only at e
      subst e
      exact hf _ _ _

theorem map_bind {α β γ : Type} (x : Res α) (f : α → Res β) (g : β → γ) :
    (x >>= f).map g = x >>= fun a => (f a).map g := by
  cases x <;> rfl

theorem err_bind {α β : Type} (e : Err) (f : α → Res β) : ((Except.error e : Res α) >>= f) = .error e := rfl

theorem ok_bind {α β : Type} (a : α) (f : α → Res β) : ((Except.ok a : Res α) >>= f) = f a := rfl

theorem err_map {α β : Type} (e : Err) (f : α → β) : (Except.error e : Res α).map f = .error e := rfl

theorem ok_map {α β : Type} (a : α) (f : α → β) : (Except.ok a : Res α).map f = .ok (f a) := rfl

theorem map_congr_fst {α β β' γ : Type} {x : Res (α × β)} {y : Res (α × β')} (h : x.map Prod.fst = y.map Prod.fst)
    {f : α × β → Res γ} {g : α × β' → Res γ} (hf : ∀ a b b', f (a, b) = g (a, b')) : (x >>= f) = (y >>= g) :=
  bind_map_fst h hf

section
variable {c : ℝ} (hc : c ≠ 0) (s : Settings)

include hc

theorem scaled_kx : kxVec (Spec.scaled c s).p (Spec.scaled c s).p.wavelength = kxVec s.p s.p.wavelength := by
  funext i
  unfold kxVec
  simp only [mul_div_mul_left _ _ hc]

theorem scaled_ky : kyVec (Spec.scaled c s).p (Spec.scaled c s).p.wavelength = kyVec s.p s.p.wavelength := by
  funext i
  unfold kyVec
  simp only [mul_div_mul_left _ _ hc]

theorem phaseX_scaled {n : Type} [DecidableEq n] (wl d : ℝ) (q : n → ℂ) :
    phaseX (2 * Real.pi / (c * wl)) q (c * d) = phaseX (2 * Real.pi / wl) q d := by
  unfold phaseX
  congr 1
  funext i
  congr 1
  have : (2 * Real.pi / (c * wl)) * (c * d) = 2 * Real.pi / wl * d := by field_simp
  have : (((2 * Real.pi / (c * wl) : ℝ) : ℂ)) * ((c * d : ℝ) : ℂ) = ((2 * Real.pi / wl : ℝ) : ℂ) * (d : ℂ) := by
    rw [← Complex.ofReal_mul, this, Complex.ofReal_mul]
  linear_combination -q i * this

end

section
variable {k0 k0' c : ℝ} (hk : ∀ d : ℝ, k0' * (c * d) = k0 * d)
include hk

theorem phaseX_of {n : Type} [DecidableEq n] (d : ℝ) (q : n → ℂ) : phaseX k0' q (c * d) = phaseX k0 q d := by
  unfold phaseX
  congr 1
  funext i
  congr 1
  have : ((k0' : ℝ) : ℂ) * ((c * d : ℝ) : ℂ) = (k0 : ℂ) * (d : ℂ) := by
    rw [← Complex.ofReal_mul, hk d, Complex.ofReal_mul]
  linear_combination -q i * this

theorem step1d_scaled {n : Type} [Fintype n] [DecidableEq n] (la : LinAlg) (p p' : Params) (hpol : p'.pol = p.pol)
    (hpinv : p'.use_pinv = p.use_pinv) (kx : n → ℂ) (cv : Conv n) (d : ℝ) (st : TState n) :
    (step1d la p' k0' kx cv (c * d) st).map Prod.fst = (step1d la p k0 kx cv d st).map Prod.fst := by
  unfold step1d transfer_1d_3
  rw [hpol, hpinv]
  cases transfer_1d_2 la p.pol kx cv p.use_pinv with
  | error e => simp only [err_bind, err_map]
  | ok m =>
    simp only [ok_bind, phaseX_of hk]
    cases tmmStep la p.use_pinv (phaseX k0 m.q d) m.W m.V st <;> simp only [err_bind, ok_bind, err_map, ok_map, Solved.result]

theorem stepCon_scaled {m : Type} [Fintype m] [DecidableEq m] (la : LinAlg) (u : Bool) (kx ky v : m → ℂ) (cv : Conv m) (d : ℝ)
    (st : TState (m ⊕ m)) :
    (stepCon la u k0' kx ky v cv (c * d) st).map Prod.fst = (stepCon la u k0 kx ky v cv d st).map Prod.fst := by
  unfold stepCon
  cases transfer_1d_conical_2 la kx ky cv u with
  | error e => simp only [err_bind, err_map]
  | ok M =>
    have : transfer_1d_conical_3 la k0' M (c * d) v st u = transfer_1d_conical_3 la k0 M d v st u := by
      unfold transfer_1d_conical_3 bigX
      simp only [phaseX_of hk]
    simp only [ok_bind, this]
    cases transfer_1d_conical_3 la k0 M d v st u <;> simp only [err_bind, ok_bind, err_map, ok_map, Solved.result]

theorem step2d_scaled {m : Type} [Fintype m] [DecidableEq m] (la : LinAlg) (u : Bool) (kx ky v : m → ℂ) (cv : Conv m) (d : ℝ)
    (st : TState (m ⊕ m)) :
    (step2d la u k0' kx ky v cv (c * d) st).map Prod.fst = (step2d la u k0 kx ky v cv d st).map Prod.fst := by
  unfold step2d
  cases transfer_2d_2 la kx ky cv u with
  | error e => simp only [err_bind, err_map]
  | ok M =>
    have : transfer_2d_3 la k0' M (c * d) v st u = transfer_2d_3 la k0 M d v st u := by
      unfold transfer_2d_3 bigX
      simp only [phaseX_of hk]
    simp only [ok_bind, this]
    cases transfer_2d_3 la k0 M d v st u <;> simp only [err_bind, ok_bind, err_map, ok_map, Solved.result]

end

section
variable {c : ℝ} (hc : c ≠ 0) (s : Settings)
include hc

theorem k0_scaled (d : ℝ) : 2 * Real.pi / (c * s.p.wavelength) * (c * d) = 2 * Real.pi / s.p.wavelength * d := by
  rw [div_mul_eq_mul_div, mul_left_comm, mul_div_mul_left _ _ hc, div_mul_eq_mul_div]

theorem solve_1d_scaled (la : LinAlg) (convs : List (Conv (Fin (2 * s.p.fto.1 + 1)))) :
    (solve_1d la (Spec.scaled c s).p (Spec.scaled c s).p.wavelength convs).map (·.res)
      = (solve_1d la s.p s.p.wavelength convs).map (·.res) := by
  unfold solve_1d
  simp only [map_bind, List.length_map, scaled_kx hc s]
  cases transfer_1d_1 s.p.pol (kxVec s.p s.p.wavelength) s.p.n_top s.p.n_bot with
  | error e => simp only [err_bind, err_map]
  | ok init =>
    simp only [ok_bind]
    refine map_congr_fst (layerLoop_map (c * ·) (fun cv d st => step1d_scaled (k0_scaled hc s) la s.p _ rfl rfl _ cv d st) _ _ _ _ _ _) ?_
    intro a b b'
    dsimp only
    cases transfer_1d_4 la s.p.pol a init.1 init.2.1 s.p.theta s.p.n_top s.p.n_bot s.p.use_pinv <;> simp only [err_bind, ok_bind, err_map, ok_map, Solved.result]

theorem solve_con_scaled (la : LinAlg) (convs : List (Conv (FlatIdx s.p.fto.1 s.p.fto.2))) :
    (solve_1d_conical la (Spec.scaled c s).p (Spec.scaled c s).p.wavelength convs).map (·.out)
      = (solve_1d_conical la s.p s.p.wavelength convs).map (·.out) := by
  unfold solve_1d_conical
  simp only [map_bind, List.length_map, scaled_kx hc s, scaled_ky hc s]
  cases transfer_2d_1 (tileX (fy := s.p.fto.2) (kxVec s.p s.p.wavelength))
      (tileY (fx := s.p.fto.1) (kyVec s.p s.p.wavelength)) s.p.n_top s.p.n_bot with
  | error e => simp only [err_bind, err_map]
  | ok init =>
    simp only [ok_bind]
    refine map_congr_fst (layerLoop_map (c * ·) (fun cv d st => stepCon_scaled (k0_scaled hc s) la _ _ _ _ cv d st) _ _ _ _ _ _) ?_
    intro a b b'
    dsimp only
    split
    · rfl
    · cases transfer_2d_4 la a init.1 init.2.1 s.p.psi s.p.theta s.p.n_top s.p.n_bot s.p.use_pinv <;> simp only [err_bind, ok_bind, err_map, ok_map, Solved.result]

theorem solve_2d_scaled (la : LinAlg) (convs : List (Conv (FlatIdx s.p.fto.1 s.p.fto.2))) :
    (solve_2d la (Spec.scaled c s).p (Spec.scaled c s).p.wavelength convs).map (·.out)
      = (solve_2d la s.p s.p.wavelength convs).map (·.out) := by
  unfold solve_2d
  simp only [map_bind, List.length_map, scaled_kx hc s, scaled_ky hc s]
  cases transfer_2d_1 (tileX (fy := s.p.fto.2) (kxVec s.p s.p.wavelength))
      (tileY (fx := s.p.fto.1) (kyVec s.p s.p.wavelength)) s.p.n_top s.p.n_bot with
  | error e => simp only [err_bind, err_map]
  | ok init =>
    simp only [ok_bind]
    refine map_congr_fst (layerLoop_map (c * ·) (fun cv d st => step2d_scaled (k0_scaled hc s) la _ _ _ _ cv d st) _ _ _ _ _ _) ?_
    intro a b b'
    dsimp only
    cases transfer_2d_4 la a init.1 init.2.1 s.p.psi s.p.theta s.p.n_top s.p.n_bot s.p.use_pinv <;> simp only [err_bind, ok_bind, err_map, ok_map, Solved.result]

end

theorem gratingType_scaled (c : ℝ) (s : Settings) : gratingType (Spec.scaled c s) = gratingType s := by
  obtain ⟨p, u, ft, en, al⟩ := s
  cases u <;> rfl

theorem map_comp_eq {α β γ δ : Type} {x : Res α} {y : Res β} {f : α → γ} {g : β → γ} (h : x.map f = y.map g) (k : γ → δ) :
    x.map (fun a => k (f a)) = y.map (fun b => k (g b)) := by
  cases x <;> cases y <;> simp_all [Except.map]

theorem conv_solve_scaled {c : ℝ} (hc : c ≠ 0) (la : LinAlg) (s : Settings)
    (hcv : convMats la (Spec.scaled c s) = convMats la s) :
    (conv_solve la (Spec.scaled c s)).map Solved.result = (conv_solve la s).map Solved.result := by
  unfold conv_solve
  rw [map_bind, map_bind, hcv]
  congr 1
  funext cs
  unfold solve_for_conv
  rw [gratingType_scaled]
  have e1 := map_comp_eq (solve_1d_scaled hc s la (cs.map Conv.row))
    (fun r => (⟨some (r.row1 s.p.fto.2), none, none⟩ : Result s.p.fto.1 s.p.fto.2))
  have e2 := map_comp_eq (solve_con_scaled hc s la cs)
    (fun r => (⟨some r.res, some r.res_te, some r.res_tm⟩ : Result s.p.fto.1 s.p.fto.2))
  have e3 := map_comp_eq (solve_2d_scaled hc s la cs)
    (fun r => (⟨some r.res, some r.res_te, some r.res_tm⟩ : Result s.p.fto.1 s.p.fto.2))
  match gratingType s, s.algo with
  | 0, .tmm => simpa only [map_bind] using (Eq.trans (by cases solve_1d la (Spec.scaled c s).p (Spec.scaled c s).p.wavelength (cs.map Conv.row) <;> simp only [err_bind, ok_bind, err_map, ok_map, Solved.result]) (e1.trans (by cases solve_1d la s.p s.p.wavelength (cs.map Conv.row) <;> simp only [err_bind, ok_bind, err_map, ok_map, Solved.result])))
  | 0, .smm => rfl
  | 0, .other => rfl
  | 1, .tmm => simpa only [map_bind] using (Eq.trans (by cases solve_1d_conical la (Spec.scaled c s).p (Spec.scaled c s).p.wavelength cs <;> simp only [err_bind, ok_bind, err_map, ok_map, Solved.result]) (e2.trans (by cases solve_1d_conical la s.p s.p.wavelength cs <;> simp only [err_bind, ok_bind, err_map, ok_map, Solved.result])))
  | 1, .smm => rfl
  | 1, .other => rfl
  | n+2, .tmm => simpa only [map_bind] using (Eq.trans (by cases solve_2d la (Spec.scaled c s).p (Spec.scaled c s).p.wavelength cs <;> simp only [err_bind, ok_bind, err_map, ok_map, Solved.result]) (e3.trans (by cases solve_2d la s.p s.p.wavelength cs <;> simp only [err_bind, ok_bind, err_map, ok_map, Solved.result])))
  | n+2, .smm => rfl
  | n+2, .other => rfl

end Meent
