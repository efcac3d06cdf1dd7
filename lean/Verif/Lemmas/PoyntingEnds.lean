import Verif.Lemmas.Poynting
import Verif.Lemmas.ReciprocitySolve
import Verif.Lemmas.Passive1D

/-!
# The power of sampled fields, continued: stacks and the outside waves (helper lemmas)
-/

set_option linter.unusedSectionVars false
set_option linter.unusedSimpArgs false
set_option linter.unusedVariables false

open Matrix

namespace Meent

theorem samplePoint_first {d : ℝ} {n : ℕ} {z : Fin n} (h : z.val = 0) : Spec.samplePoint d n z = 0 := by
  unfold Spec.samplePoint
  split_ifs
  · rfl
  · simp [h]

theorem samplePoint_last {d : ℝ} {n : ℕ} {z : Fin n} (h : z.val + 1 = n) (hn : 2 ≤ n) : Spec.samplePoint d n z = d := by
  unfold Spec.samplePoint
  have h0 : ((n : ℝ) - 1) ≠ 0 := by
    have : (2 : ℝ) ≤ n := by exact_mod_cast hn
    linarith
  have h1 : (z.val : ℝ) = n - 1 := by
    have : ((z.val + 1 : ℕ) : ℝ) = n := by rw [h]
    push_cast at this
    linarith
  rw [if_neg (by omega), h1]
  field_simp

theorem samplePoint_mem (d : ℝ) {n : ℕ} (z : Fin n) : Spec.samplePoint d n z ∈ Set.uIcc 0 d := by
  unfold Spec.samplePoint
  split_ifs with h
  · exact Set.left_mem_uIcc
  · have hz := z.isLt
    have hz' : (z.val : ℝ) ≤ n - 1 := by
      rw [le_sub_iff_add_le]; exact_mod_cast hz
    have hn : (0 : ℝ) < n - 1 := by
      have : (2 : ℝ) ≤ n := by exact_mod_cast (by omega : 2 ≤ n)
      linarith
    have h0 : (0 : ℝ) ≤ z.val := Nat.cast_nonneg _
    have e : (z.val : ℝ) * d / (n - 1) = (z.val / (n - 1)) * d := by ring
    rw [e]
    have a1 : 0 ≤ (z.val : ℝ) / (n - 1) := div_nonneg h0 hn.le
    have a2 : (z.val : ℝ) / (n - 1) ≤ 1 := (div_le_one hn).mpr hz'
    rw [Set.mem_uIcc]
    rcases le_total 0 d with hd | hd
    · exact .inl ⟨mul_nonneg a1 hd, by nlinarith⟩
    · exact .inr ⟨by nlinarith, mul_nonpos_of_nonneg_of_nonpos a1 hd⟩

theorem samplePoint_mono {d : ℝ} (hd : 0 ≤ d) {n : ℕ} {z z' : Fin n} (h : z ≤ z') : Spec.samplePoint d n z ≤ Spec.samplePoint d n z' := by
  unfold Spec.samplePoint
  split_ifs with h1
  · exact le_rfl
  · have hn : (0 : ℝ) ≤ n - 1 := by
      have := z.isLt
      have : (2 : ℝ) ≤ n := by exact_mod_cast (by omega : 2 ≤ n)
      linarith
    have : (z.val : ℝ) ≤ z'.val := by exact_mod_cast h
    gcongr

section stack
variable {m : Type} [Fintype m] [DecidableEq m] {k0 : ℝ} {kx ky : m → ℂ} {rx ry rz : ℕ} {α : Type} {six : α → Field6}

/-- The mean power in the planes of the samples `cell` is that of the orders. -/
def ByOrders (six : α → Field6) (ls : List (Conv m × ℝ)) (fs : List (Spec.OrderFields m)) (cell : List (Block rx ry rz α)) : Prop :=
  ∀ (k : ℕ) (l : Conv m × ℝ) (f : Spec.OrderFields m) (a : Block rx ry rz α), ls[k]? = some l → fs[k]? = some f → cell[k]? = some a → ∀ iz, Spec.meanPower six a iz = tanPower (f.tan (Spec.samplePoint l.2 rz iz))

theorem ByOrders.tail {l : Conv m × ℝ} {ls f fs a} {cell : List (Block rx ry rz α)} (h : ByOrders six (l :: ls) (f :: fs) (a :: cell)) : ByOrders six ls fs cell :=
  fun k l f a h1 h2 h3 => h (k + 1) l f a (by simpa using h1) (by simpa using h2) (by simpa using h3)

/-- A power account in absolute terms. -/
structure RawAccount (six : α → Field6) (u w : ℝ) (cell : List (Block rx ry rz α)) : Prop where
  top : ∀ a, cell.head? = some a → ∀ z : Fin rz, z.val = 0 → Spec.meanPower six a z = u
  inside : ∀ (k : ℕ) (a b : Block rx ry rz α), cell[k]? = some a → cell[k + 1]? = some b →
    ∀ (top bottom : Fin rz), top.val = 0 → bottom.val + 1 = rz → 2 ≤ rz → Spec.meanPower six a bottom = Spec.meanPower six b top
  bottom : ∀ a, cell.getLast? = some a → ∀ z : Fin rz, z.val + 1 = rz → 2 ≤ rz → Spec.meanPower six a z = w
  losses : ∀ hz : 2 ≤ rz, (cell.map (Spec.absorbedIn hz six)).sum = u - w

theorem RawAccount.spec {u w inc R T : ℝ} {cell : List (Block rx ry rz α)} (h : RawAccount six u w cell) (hu : u = inc * (1 - R)) (hw : w = inc * T) :
    Spec.PowerAccount six inc R T cell := by
  subst hu hw
  exact ⟨h.top, h.inside, h.bottom, fun hz => by rw [h.losses hz]; ring⟩

theorem stack_account : ∀ {ls : List (Conv m × ℝ)} {fs} {cell : List (Block rx ry rz α)} {top bottom : m → Spec.Tangential},
    Spec.SolvesStack k0 kx ky ls fs top bottom → ls.length = cell.length → ByOrders six ls fs cell → RawAccount six (tanPower top) (tanPower bottom) cell
  | [], [], [], top, bottom, h, _, _ => by
    refine ⟨by simp, by simp, by simp, fun hz => ?_⟩
    have e : top = bottom := h
    simp [e]
  | [], [], _ :: _, _, _, _, h, _ => by simp at h
  | [], _ :: _, _, _, _, h, _, _ => by simp [Spec.SolvesStack] at h
  | _ :: _, [], _, _, _, h, _, _ => by simp [Spec.SolvesStack] at h
  | _ :: _, _ :: _, [], _, _, _, h, _ => by simp at h
  | (c, d) :: ls, f :: fs, a :: cell, top, bottom, h, hl, ho => by
    obtain ⟨-, h2, h3⟩ := h
    simp only [List.length_cons, Nat.add_right_cancel_iff] at hl
    have h0 := ho 0 (c, d) f a rfl rfl rfl
    have hfirst : ∀ z : Fin rz, z.val = 0 → Spec.meanPower six a z = tanPower top := by
      intro z hz
      rw [h0, samplePoint_first hz, h2]
    have hlast : ∀ z : Fin rz, z.val + 1 = rz → 2 ≤ rz → Spec.meanPower six a z = tanPower (f.tan d) := by
      intro z hz hr
      rw [h0, samplePoint_last hz hr]
    have ih := stack_account h3 hl ho.tail
    have hab : ∀ hz : 2 ≤ rz, Spec.absorbedIn hz six a = tanPower top - tanPower (f.tan d) := fun hz => by
      unfold Spec.absorbedIn
      rw [hfirst _ rfl, hlast _ (by show rz - 1 + 1 = rz; omega) hz]
    refine ⟨?_, ?_, ?_, fun hz => ?_⟩
    · intro a' ha'; obtain rfl := Option.some.inj ha'; exact hfirst
    · intro k a' b ha' hb tp bt htp hbt hr
      rcases k with _ | k
      · obtain rfl : a = a' := by simpa using ha'
        rw [hlast bt hbt hr]
        refine (ih.top b ?_ tp htp).symm
        rw [List.head?_eq_getElem?]
        simpa using hb
      · exact ih.inside k a' b (by simpa using ha') (by simpa using hb) tp bt htp hbt hr
    · intro a' ha' z hz hr
      rcases cell with _ | ⟨b, cell⟩
      · obtain rfl : a = a' := by simpa using ha'
        obtain rfl : ls = [] := List.length_eq_zero_iff.mp hl
        rcases fs with _ | ⟨_, _⟩
        · rw [hlast z hz hr]
          exact congrArg _ (show f.tan d = bottom from h3)
        · exact absurd h3 (by simp [Spec.SolvesStack])
      · exact ih.bottom a' (by simpa using ha') z hz hr
    · rw [List.map_cons, List.sum_cons, ih.losses hz, hab hz]
      ring

theorem stack_falls (hk : 0 < k0) (hx : ∀ i, star (kx i) = kx i) (hy : ∀ i, star (ky i) = ky i) :
    ∀ {ls : List (Conv m × ℝ)} {fs} {cell : List (Block rx ry rz α)} {top bottom : m → Spec.Tangential},
    Spec.SolvesStack k0 kx ky ls fs top bottom → ls.length = cell.length → ByOrders six ls fs cell → (∀ l ∈ ls, LossyConv l.1 ∧ 0 ≤ l.2) →
    Spec.PowerFalls six cell
  | [], _, [], top, bottom, h, _, _, _ => by simp [Spec.PowerFalls]
  | [], _, _ :: _, _, _, _, h, _, _ => by simp at h
  | _ :: _, [], _, _, _, h, _, _, _ => by simp [Spec.SolvesStack] at h
  | _ :: _, _ :: _, [], _, _, _, h, _, _ => by simp at h
  | (c, d) :: ls, f :: fs, a :: cell, top, bottom, h, hl, ho, hc => by
    obtain ⟨h1, h2, h3⟩ := h
    simp only [List.length_cons, Nat.add_right_cancel_iff] at hl
    have h0 := ho 0 (c, d) f a rfl rfl rfl
    have ih := stack_falls hk hx hy h3 hl ho.tail fun l hl => hc l (List.mem_cons_of_mem _ hl)
    obtain ⟨hc1, hc2⟩ := hc (c, d) List.mem_cons_self
    intro a' ha' z z' hz
    rcases List.mem_cons.mp ha' with rfl | ha'
    · rw [h0, h0]
      exact tanPower_antitone hk hx hy hc1 h1 (samplePoint_mem d z) (samplePoint_mem d z') (samplePoint_mono hc2 hz)
    · exact ih a' ha' z z' hz

theorem stack_constant (hk : 0 < k0) (hx : ∀ i, star (kx i) = kx i) (hy : ∀ i, star (ky i) = ky i) :
    ∀ {ls : List (Conv m × ℝ)} {fs} {cell : List (Block rx ry rz α)} {top bottom : m → Spec.Tangential},
    Spec.SolvesStack k0 kx ky ls fs top bottom → ls.length = cell.length → ByOrders six ls fs cell →
    (∀ l ∈ ls, l.1.epx.IsHermitian ∧ l.1.epy.IsHermitian ∧ l.1.epzi.IsHermitian) →
    tanPower bottom = tanPower top ∧ Spec.PowerConstant six (tanPower top) cell
  | [], [], [], top, bottom, h, _, _, _ => by
    have e : top = bottom := h
    simp [Spec.PowerConstant, e]
  | [], [], _ :: _, _, _, _, h, _, _ => by simp at h
  | [], _ :: _, _, _, _, h, _, _, _ => by simp [Spec.SolvesStack] at h
  | _ :: _, [], _, _, _, h, _, _, _ => by simp [Spec.SolvesStack] at h
  | _ :: _, _ :: _, [], _, _, _, h, _, _ => by simp at h
  | (c, d) :: ls, f :: fs, a :: cell, top, bottom, h, hl, ho, hc => by
    obtain ⟨h1, h2, h3⟩ := h
    simp only [List.length_cons, Nat.add_right_cancel_iff] at hl
    have h0 := ho 0 (c, d) f a rfl rfl rfl
    obtain ⟨ih1, ih2⟩ := stack_constant hk hx hy h3 hl ho.tail fun l hl => hc l (List.mem_cons_of_mem _ hl)
    obtain ⟨hc1, hc2, hc3⟩ := hc (c, d) List.mem_cons_self
    have hcon := fun t ht => tanPower_constant hk hx hy hc1 hc2 hc3 h1 (t := t) (t' := 0) ht Set.left_mem_uIcc
    rw [h2] at hcon
    have e := hcon d Set.right_mem_uIcc
    rw [e] at ih1 ih2
    refine ⟨ih1, ?_⟩
    intro a' ha' z
    rcases List.mem_cons.mp ha' with rfl | ha'
    · rw [h0]
      exact hcon _ (samplePoint_mem d z)
    · exact ih2 a' ha' z

end stack

/-! ### The waves outside -/

theorem wave_power {n φ κ₁ κ₂ e₁ e₂ h₁ h₂ : ℂ} (hφ : star φ = φ) {a : Spec.Tangential}
    (ha : a = Spec.planeWave n φ κ₁ e₁ h₁ + Spec.planeWave n φ κ₂ e₂ h₂) :
    a.Ey * star a.Hx - a.Ex * star a.Hy
      = (e₁ + e₂) * star (κ₁ * e₁ + κ₂ * e₂) + (κ₁ * h₁ + κ₂ * h₂) / n ^ 2 * star (h₁ + h₂) := by
  have hc : star (Complex.cos φ) = Complex.cos φ := by
    rw [Complex.star_def, ← Complex.cos_conj]; exact congrArg _ hφ
  have hs : star (Complex.sin φ) = Complex.sin φ := by
    rw [Complex.star_def, ← Complex.sin_conj]; exact congrArg _ hφ
  have e1 : a.Ex = -(e₁ + e₂) * Complex.sin φ - (κ₁ * h₁ + κ₂ * h₂) / n ^ 2 * Complex.cos φ := by
    rw [ha]; show _ + _ = _; simp only [Spec.planeWave]; ring
  have e2 : a.Ey = (e₁ + e₂) * Complex.cos φ - (κ₁ * h₁ + κ₂ * h₂) / n ^ 2 * Complex.sin φ := by
    rw [ha]; show _ + _ = _; simp only [Spec.planeWave]; ring
  have e3 : a.Hx = (κ₁ * e₁ + κ₂ * e₂) * Complex.cos φ - (h₁ + h₂) * Complex.sin φ := by
    rw [ha]; show _ + _ = _; simp only [Spec.planeWave]; ring
  have e4 : a.Hy = (κ₁ * e₁ + κ₂ * e₂) * Complex.sin φ + (h₁ + h₂) * Complex.cos φ := by
    rw [ha]; show _ + _ = _; simp only [Spec.planeWave]; ring
  rw [e1, e2, e3, e4]
  generalize e₁ + e₂ = A
  generalize κ₁ * e₁ + κ₂ * e₂ = B
  generalize (κ₁ * h₁ + κ₂ * h₂) / n ^ 2 = Q
  generalize h₁ + h₂ = H
  simp only [star_sub, star_add, star_mul', hc, hs]
  linear_combination (A * star B + Q * star H) * Complex.sin_sq_add_cos_sq φ

theorem azimuth_real {kx ky : ℂ} (hx : star kx = kx) (hy : star ky = ky) : star (Spec.azimuth kx ky) = Spec.azimuth kx ky := by
  obtain ⟨a, rfl⟩ := Complex.conj_eq_iff_real.mp hx
  obtain ⟨b, rfl⟩ := Complex.conj_eq_iff_real.mp hy
  unfold Spec.azimuth
  split_ifs
  · rw [star_neg, Complex.star_def, Complex.conj_ofReal]
  · rw [Complex.star_def, Complex.conj_ofReal]
  · rw [← Complex.ofReal_div, ← Complex.ofReal_arctan, Complex.star_def, Complex.conj_ofReal]

/-- Power of incident and reflected waves of one order: `k` is the normal wavenumber of the incident wave, which is present when `δ = 1`. -/
theorem above_power {φ κ e₁ h₁ e₂ h₂ : ℂ} {n k δ : ℝ} (hn : n ≠ 0) (hφ : star φ = φ) (hδ : (δ = 1 ∧ κ = k) ∨ (δ = 0 ∧ e₁ = 0 ∧ h₁ = 0)) {a : Spec.Tangential}
    (ha : a = Spec.planeWave n φ k e₁ h₁ + Spec.planeWave n φ (-κ) e₂ h₂) :
    (a.Ey * star a.Hx - a.Ex * star a.Hy).re
      = k * (δ * (Complex.normSq e₁ + Complex.normSq h₁ / n ^ 2)) - (κ.re * Complex.normSq e₂ + κ.re / n ^ 2 * Complex.normSq h₂) := by
  rw [wave_power hφ ha, ← Complex.ofReal_pow]
  rcases hδ with ⟨rfl, rfl⟩ | ⟨rfl, rfl, rfl⟩ <;>
  · simp only [Complex.star_def, Complex.sub_re, Complex.add_re, Complex.neg_re, Complex.mul_re, Complex.mul_im, Complex.conj_re, Complex.conj_im,
      Complex.sub_im, Complex.add_im, Complex.neg_im, Complex.ofReal_re, Complex.ofReal_im, Complex.div_ofReal_re, Complex.div_ofReal_im, Complex.normSq_apply,
      Complex.zero_re, Complex.zero_im]
    field_simp
    ring

/-- Power of the transmitted wave of one order. -/
theorem below_power {φ n κ e h : ℂ} (hφ : star φ = φ) {a : Spec.Tangential} (ha : a = Spec.planeWave n φ κ e h) :
    (a.Ey * star a.Hx - a.Ex * star a.Hy).re = κ.re * Complex.normSq e + (κ / n ^ 2).re * Complex.normSq h := by
  have := wave_power (n := n) (κ₁ := κ) (κ₂ := 0) (e₁ := e) (e₂ := 0) (h₁ := h) (h₂ := 0) hφ (a := a) (by
    rw [ha]
    show _ = Spec.Tangential.mk _ _ _ _
    simp [Spec.planeWave])
  rw [this]
  simp only [mul_zero, zero_mul, add_zero]
  have e1 : κ * h / n ^ 2 = κ / n ^ 2 * h := by ring
  rw [e1]
  simp only [Complex.star_def, Complex.add_re, Complex.mul_re, Complex.mul_im, Complex.conj_re, Complex.conj_im, Complex.normSq_apply]
  ring

theorem ntop_cos' {p : Params} (h : Spec.RealIllumination p) : p.n_top * Complex.cos p.theta = ((Spec.incidentPower p : ℝ) : ℂ) := by
  have hi := RealIncidence.of_spec h
  rw [hi.cos_eq]; conv_lhs => rw [hi.hn]
  unfold Spec.incidentPower
  push_cast; rfl

theorem incidentPower_pos {p : Params} (h : Spec.RealIllumination p) : 0 < Spec.incidentPower p :=
  mul_pos h.n_top_pos (RealIncidence.of_spec h).cos_pos

theorem kx_star {p : Params} (h : Spec.RealIllumination p) (i) : star (kxVec p p.wavelength i) = kxVec p p.wavelength i := by
  rw [(RealIncidence.of_spec h).kx_eq' (phi_getD_real h), Complex.star_def, Complex.conj_ofReal]

theorem ky_star {p : Params} (h : Spec.RealIllumination p) (i) : star (kyVec p p.wavelength i) = kyVec p p.wavelength i := by
  rw [(RealIncidence.of_spec h).ky_eq' (phi_getD_real h), Complex.star_def, Complex.conj_ofReal]

theorem sum_divMod {fx fy : ℕ} (g : Fin (2 * fy + 1) → Fin (2 * fx + 1) → ℝ) : ∑ i : FlatIdx fx fy, g i.divNat i.modNat = ∑ j, ∑ i, g j i := by
  rw [← Fintype.sum_prod_type' g, ← finProdFinEquiv.sum_comp]
  refine Finset.sum_congr rfl fun q _ => ?_
  rw [modNat_prod, divNat_prod]

theorem normSq_trig {ψ : ℂ} (h : Spec.IsReal ψ) : Complex.normSq (Complex.sin ψ) + Complex.normSq (Complex.cos ψ) = 1 := by
  have : ψ = (ψ.re : ℂ) := Complex.ext rfl h
  rw [this, ← Complex.ofReal_sin, ← Complex.ofReal_cos, Complex.normSq_ofReal, Complex.normSq_ofReal]
  linear_combination Real.sin_sq_add_cos_sq ψ.re

theorem normSq_negI (z : ℂ) : Complex.normSq (-Complex.I * z) = Complex.normSq z := by simp

theorem above_total {s : Settings} (h : Spec.RealIllumination s.p) (hg : gratingType s ≠ 0) {ψ : ℂ} (hψ : Spec.IsReal ψ) {r}
    (he : EffBy (weights s 0) (weights s 1) (weights s 2) (weights s 3) r) :
    tanPower (fun i : FlatIdx s.p.fto.1 s.p.fto.2 => Spec.above s.p ψ r i.divNat i.modNat) = Spec.incidentPower s.p * (1 - Spec.totalR r) := by
  have hi := RealIncidence.of_spec h
  have hw : ∀ k, weights s k = _ := fun k => congrFun (if_neg hg) k
  have ht := ntop_cos' h
  have hpos := incidentPower_pos h
  have hn : s.p.n_top.re ≠ 0 := h.n_top_pos.ne'
  have hnt : s.p.n_top ^ 2 = ((s.p.n_top.re ^ 2 : ℝ) : ℂ) := by
    conv_lhs => rw [hi.hn]
    push_cast; rfl
  unfold tanPower
  refine (sum_divMod (g := fun j i => ((Spec.above s.p ψ r j i).Ey * star (Spec.above s.p ψ r j i).Hx - (Spec.above s.p ψ r j i).Ex * star (Spec.above s.p ψ r j i).Hy).re)).trans ?_
  have key : ∀ j i, ((Spec.above s.p ψ r j i).Ey * star (Spec.above s.p ψ r j i).Hx - (Spec.above s.p ψ r j i).Ex * star (Spec.above s.p ψ r j i).Hy).re
      = Spec.incidentPower s.p * ((if j.val = s.p.fto.2 ∧ i.val = s.p.fto.1 then 1 else 0) - r.de_ri j i) := by
    intro j i
    have ha : Spec.above s.p ψ r j i = Spec.planeWave (s.p.n_top.re : ℂ) (Spec.azimuth (kxVec s.p s.p.wavelength i) (kyVec s.p s.p.wavelength j))
        ((Spec.incidentPower s.p : ℝ) : ℂ) (Complex.sin ψ * Spec.incidentOrder j i) (s.p.n_top * Complex.cos ψ * Spec.incidentOrder j i)
      + Spec.planeWave (s.p.n_top.re : ℂ) (Spec.azimuth (kxVec s.p s.p.wavelength i) (kyVec s.p s.p.wavelength j))
        (-Spec.kzOf s.p.n_top (kxVec s.p s.p.wavelength i) (kyVec s.p s.p.wavelength j)) (r.R_s j i) (-Complex.I * r.R_p j i) := by
      rw [← hi.hn, ← ht]; rfl
    have hkz : Spec.kzOf s.p.n_top (kxVec s.p s.p.wavelength i) (kyVec s.p s.p.wavelength j)
        = kz2d s.p.n_top (kxF s.p s.p.wavelength) (kyF s.p s.p.wavelength) (finProdFinEquiv (j, i)) := by
      unfold kz2d Spec.kzOf kxF kyF tileX tileY
      rw [modNat_prod, divNat_prod]
    have hri : r.de_ri j i = Complex.normSq (r.R_s j i) * ((Spec.kzOf s.p.n_top (kxVec s.p s.p.wavelength i) (kyVec s.p s.p.wavelength j)).re / Spec.incidentPower s.p)
        + Complex.normSq (r.R_p j i) * ((Spec.kzOf s.p.n_top (kxVec s.p s.p.wavelength i) (kyVec s.p s.p.wavelength j)).re / s.p.n_top.re ^ 2 / Spec.incidentPower s.p) := by
      rw [he.ri, he.ri_s, he.ri_p, effOf_eq, effOf_eq, hw, hw, hkz]
      show _ * (_ / (s.p.n_top * Complex.cos s.p.theta)).re + _ * (_ / s.p.n_top ^ 2 / (s.p.n_top * Complex.cos s.p.theta)).re = _
      rw [ht, hnt, Complex.div_ofReal_re, Complex.div_ofReal_re, Complex.div_ofReal_re]
    by_cases hc : j.val = s.p.fto.2 ∧ i.val = s.p.fto.1
    · have hkc : Spec.kzOf s.p.n_top (kxVec s.p s.p.wavelength i) (kyVec s.p s.p.wavelength j) = ((Spec.incidentPower s.p : ℝ) : ℂ) := by
        rw [hkz]
        have := hi.kz_ctr2 (phi_getD_real h) s.p.wavelength
        obtain rfl : j = ctr s.p.fto.2 := Fin.ext hc.1
        obtain rfl : i = ctr s.p.fto.1 := Fin.ext hc.2
        exact this
      rw [above_power (δ := 1) hn (azimuth_real (kx_star h i) (ky_star h j)) (.inl ⟨rfl, hkc⟩) ha, hri, if_pos hc, normSq_negI]
      have e1 : Spec.incidentOrder j i = 1 := if_pos hc
      have e2 : Complex.normSq s.p.n_top = s.p.n_top.re ^ 2 := by
        conv_lhs => rw [hi.hn, Complex.normSq_ofReal]
        ring
      rw [e1, mul_one, mul_one, map_mul, e2]
      have := normSq_trig hψ
      have e3 : Complex.normSq (Complex.cos ψ) = 1 - Complex.normSq (Complex.sin ψ) := by linarith
      rw [e3]
      field_simp
      ring
    · have e1 : Spec.incidentOrder j i = 0 := if_neg hc
      rw [above_power (δ := 0) hn (azimuth_real (kx_star h i) (ky_star h j)) (.inr ⟨rfl, by rw [e1, mul_zero], by rw [e1, mul_zero]⟩) ha, hri, if_neg hc, normSq_negI]
      field_simp
      ring
  simp only [key]
  simp only [← Finset.mul_sum, Finset.sum_sub_distrib]
  congr 2
  have : ∀ j : Fin (2 * s.p.fto.2 + 1), ∀ i : Fin (2 * s.p.fto.1 + 1), (if j.val = s.p.fto.2 ∧ i.val = s.p.fto.1 then (1 : ℝ) else 0)
      = if j = ctr _ then (if i = ctr _ then 1 else 0) else 0 := by
    intro j i
    rw [← ite_and]
    refine if_congr ?_ rfl rfl
    rw [Fin.ext_iff, Fin.ext_iff]
    rfl
  simp [this]

theorem below_total {s : Settings} (h : Spec.RealIllumination s.p) (hg : gratingType s ≠ 0) {r}
    (he : EffBy (weights s 0) (weights s 1) (weights s 2) (weights s 3) r) :
    tanPower (fun i : FlatIdx s.p.fto.1 s.p.fto.2 => Spec.below s.p r i.divNat i.modNat) = Spec.incidentPower s.p * Spec.totalT r := by
  have hw : ∀ k, weights s k = _ := fun k => congrFun (if_neg hg) k
  have ht := ntop_cos' h
  have hpos := incidentPower_pos h
  unfold tanPower
  refine (sum_divMod (g := fun j i => ((Spec.below s.p r j i).Ey * star (Spec.below s.p r j i).Hx - (Spec.below s.p r j i).Ex * star (Spec.below s.p r j i).Hy).re)).trans ?_
  unfold Spec.totalT
  simp only [Finset.mul_sum]
  refine Finset.sum_congr rfl fun j _ => Finset.sum_congr rfl fun i _ => ?_
  have ha : Spec.below s.p r j i = Spec.planeWave s.p.n_bot (Spec.azimuth (kxVec s.p s.p.wavelength i) (kyVec s.p s.p.wavelength j))
      (Spec.kzOf s.p.n_bot (kxVec s.p s.p.wavelength i) (kyVec s.p s.p.wavelength j)) (r.T_s j i) (-Complex.I * r.T_p j i) := rfl
  rw [below_power (azimuth_real (kx_star h i) (ky_star h j)) ha, normSq_negI]
  have hkz : Spec.kzOf s.p.n_bot (kxVec s.p s.p.wavelength i) (kyVec s.p s.p.wavelength j)
      = kz2d s.p.n_bot (kxF s.p s.p.wavelength) (kyF s.p s.p.wavelength) (finProdFinEquiv (j, i)) := by
    unfold kz2d Spec.kzOf kxF kyF tileX tileY
    rw [modNat_prod, divNat_prod]
  rw [he.ti, he.ti_s, he.ti_p, effOf_eq, effOf_eq, hw, hw, hkz]
  show _ = _ * (_ * (_ / (s.p.n_top * Complex.cos s.p.theta)).re + _ * (_ / s.p.n_bot ^ 2 / (s.p.n_top * Complex.cos s.p.theta)).re)
  rw [ht, Complex.div_ofReal_re, Complex.div_ofReal_re]
  field_simp

theorem tetm_eff {la : LinAlg} {s : Settings} {o : Out1D (2 * s.p.fto.1 + 1)} (hs : conv_solve la s = .ok (.tetm o)) :
    EffBy (fun _ i => kz1d s.p.n_top (kxVec s.p s.p.wavelength) i / (s.p.n_top * Complex.cos s.p.theta))
      (fun _ i => kz1d s.p.n_top (kxVec s.p s.p.wavelength) i / (s.p.n_top * Complex.cos s.p.theta))
      (fun _ i => kz1d s.p.n_bot (kxVec s.p s.p.wavelength) i / (s.p.n_top * Complex.cos s.p.theta))
      (fun _ i => kz1d s.p.n_bot (kxVec s.p s.p.wavelength) i / s.p.n_bot ^ 2 / (Complex.cos s.p.theta / s.p.n_top)) o.res := by
  obtain ⟨cs, hc, -, -, h4⟩ := conv_solve_tetm.mp hs
  unfold solve_1d at h4
  simp only [Except.bind_ok, Except.ok.injEq] at h4
  obtain ⟨init, hinit, r, -, y, hy, rfl⟩ := h4
  obtain ⟨e1, e2⟩ := transfer_1d_1_kz hinit
  rw [e1, e2] at hy
  exact transfer_1d_4_eff hy

theorem kzOf_kz1d (n : ℂ) {f : ℕ} (kx : Fin f → ℂ) (i : Fin f) : Spec.kzOf n (kx i) 0 = kz1d n kx i := by
  unfold Spec.kzOf kz1d
  congr 2
  ring

theorem ends_1d {la : LinAlg} {s : Settings} {o : Out1D (2 * s.p.fto.1 + 1)} (hp : s.p.use_pinv = false) (h : Spec.RealIllumination s.p)
    (hs : conv_solve la s = .ok (.tetm o)) :
    tanPower (Spec.above1d s.p o.res) = Spec.incidentPower1d s.p * (1 - Spec.totalR o.res) ∧
    tanPower (Spec.below1d s.p o.res) = Spec.incidentPower1d s.p * Spec.totalT o.res := by
  have hi := RealIncidence.of_spec h
  have he := tetm_eff hs
  have ht := ntop_cos' h
  have hpos := incidentPower_pos h
  obtain ⟨-, -, hg, -, -⟩ := conv_solve_tetm.mp hs
  obtain ⟨u, -, -, -, hphi, hf⟩ := gratingType_zero hg
  have hn : s.p.n_top.re ≠ 0 := h.n_top_pos.ne'
  have hcos : Real.cos s.p.theta.re ≠ 0 := hi.cos_pos.ne'
  have ht' : Complex.cos s.p.theta / s.p.n_top = ((Real.cos s.p.theta.re / s.p.n_top.re : ℝ) : ℂ) := by
    rw [hi.cos_eq]; conv_lhs => rw [hi.hn]
    push_cast; rfl
  have h0 : star (0 : ℂ) = 0 := star_zero ℂ
  have hctr : ∀ i : Fin (2 * s.p.fto.1 + 1), i.val = s.p.fto.1 → kz1d s.p.n_top (kxVec s.p s.p.wavelength) i = ((Spec.incidentPower s.p : ℝ) : ℂ) := by
    intro i hc
    obtain rfl : i = ctr s.p.fto.1 := Fin.ext hc
    exact hi.kz_ctr hphi s.p.wavelength
  have hδ : ∑ i : Fin (2 * s.p.fto.1 + 1), (if i.val = s.p.fto.1 then (1 : ℝ) else 0) = 1 := by
    have : ∀ i : Fin (2 * s.p.fto.1 + 1), (if i.val = s.p.fto.1 then (1 : ℝ) else 0) = if i = ctr _ then 1 else 0 := by
      intro i
      refine if_congr ?_ rfl rfl
      rw [Fin.ext_iff]
      rfl
    simp [this]
  rcases tetm_other hp hs with ⟨hpol, hR, hT⟩ | ⟨hpol, hR, hT⟩
  · have hinc : Spec.incidentPower1d s.p = Spec.incidentPower s.p := if_pos hpol
    rw [hinc]
    have hri : ∀ i, o.res.de_ri 0 i = Complex.normSq (o.res.R_s 0 i) * ((kz1d s.p.n_top (kxVec s.p s.p.wavelength) i).re / Spec.incidentPower s.p) := by
      intro i
      rw [he.ri, he.ri_s, he.ri_p, effOf_eq, effOf_eq, hR, map_zero, zero_mul, add_zero, ht, Complex.div_ofReal_re]
    have hti : ∀ i, o.res.de_ti 0 i = Complex.normSq (o.res.T_s 0 i) * ((kz1d s.p.n_bot (kxVec s.p s.p.wavelength) i).re / Spec.incidentPower s.p) := by
      intro i
      rw [he.ti, he.ti_s, he.ti_p, effOf_eq, effOf_eq, hT, map_zero, zero_mul, add_zero, ht, Complex.div_ofReal_re]
    constructor
    · have key : ∀ i, ((Spec.above1d s.p o.res i).Ey * star (Spec.above1d s.p o.res i).Hx - (Spec.above1d s.p o.res i).Ex * star (Spec.above1d s.p o.res i).Hy).re
          = Spec.incidentPower s.p * ((if i.val = s.p.fto.1 then 1 else 0) - o.res.de_ri 0 i) := by
        intro i
        have ha : Spec.above1d s.p o.res i = Spec.planeWave (s.p.n_top.re : ℂ) 0 ((Spec.incidentPower s.p : ℝ) : ℂ) (if i.val = s.p.fto.1 then 1 else 0) 0
            + Spec.planeWave (s.p.n_top.re : ℂ) 0 (-kz1d s.p.n_top (kxVec s.p s.p.wavelength) i) (o.res.R_s 0 i) 0 := by
          rw [← hi.hn, ← ht, ← kzOf_kz1d]
          exact if_pos hpol
        by_cases hc : i.val = s.p.fto.1
        · rw [above_power (δ := 1) hn h0 (.inl ⟨rfl, hctr i hc⟩) ha, hri, if_pos hc, if_pos hc]
          simp only [map_zero, map_one]
          field_simp
          ring
        · rw [above_power (δ := 0) hn h0 (.inr ⟨rfl, if_neg hc, rfl⟩) ha, hri, if_neg hc, if_neg hc]
          simp only [map_zero]
          field_simp
          ring
      unfold tanPower Spec.totalR
      rw [Finset.sum_congr rfl fun i _ => key i, ← Finset.mul_sum, Finset.sum_sub_distrib, hδ, Fin.sum_univ_one]
    · unfold tanPower Spec.totalT
      rw [Fin.sum_univ_one, Finset.mul_sum]
      refine Finset.sum_congr rfl fun i _ => ?_
      have ha : Spec.below1d s.p o.res i = Spec.planeWave s.p.n_bot 0 (kz1d s.p.n_bot (kxVec s.p s.p.wavelength) i) (o.res.T_s 0 i) 0 := by
        rw [← kzOf_kz1d]
        exact if_pos hpol
      rw [below_power h0 ha, hti, map_zero]
      field_simp
      ring
  · have hpol' : s.p.pol ≠ 0 := by rw [hpol]; norm_num
    have hinc : Spec.incidentPower1d s.p = Real.cos s.p.theta.re / s.p.n_top.re := if_neg hpol'
    have hinc' : Spec.incidentPower s.p = s.p.n_top.re * Real.cos s.p.theta.re := rfl
    rw [hinc]
    have hri : ∀ i, o.res.de_ri 0 i = Complex.normSq (o.res.R_p 0 i) * ((kz1d s.p.n_top (kxVec s.p s.p.wavelength) i).re / Spec.incidentPower s.p) := by
      intro i
      rw [he.ri, he.ri_s, he.ri_p, effOf_eq, effOf_eq, hR, map_zero, zero_mul, zero_add, ht, Complex.div_ofReal_re]
    have hti : ∀ i, o.res.de_ti 0 i = Complex.normSq (o.res.T_p 0 i) * ((kz1d s.p.n_bot (kxVec s.p s.p.wavelength) i / s.p.n_bot ^ 2).re
        / (Real.cos s.p.theta.re / s.p.n_top.re)) := by
      intro i
      rw [he.ti, he.ti_s, he.ti_p, effOf_eq, effOf_eq, hT, map_zero, zero_mul, zero_add, ht', Complex.div_ofReal_re]
    constructor
    · have key : ∀ i, ((Spec.above1d s.p o.res i).Ey * star (Spec.above1d s.p o.res i).Hx - (Spec.above1d s.p o.res i).Ex * star (Spec.above1d s.p o.res i).Hy).re
          = Real.cos s.p.theta.re / s.p.n_top.re * ((if i.val = s.p.fto.1 then 1 else 0) - o.res.de_ri 0 i) := by
        intro i
        have ha : Spec.above1d s.p o.res i = Spec.planeWave (s.p.n_top.re : ℂ) 0 ((Spec.incidentPower s.p : ℝ) : ℂ) 0 (if i.val = s.p.fto.1 then 1 else 0)
            + Spec.planeWave (s.p.n_top.re : ℂ) 0 (-kz1d s.p.n_top (kxVec s.p s.p.wavelength) i) 0 (o.res.R_p 0 i) := by
          rw [← hi.hn, ← ht, ← kzOf_kz1d]
          exact if_neg hpol'
        by_cases hc : i.val = s.p.fto.1
        · rw [above_power (δ := 1) hn h0 (.inl ⟨rfl, hctr i hc⟩) ha, hri, if_pos hc, if_pos hc, hinc']
          simp only [map_zero, map_one]
          field_simp
          ring
        · rw [above_power (δ := 0) hn h0 (.inr ⟨rfl, rfl, if_neg hc⟩) ha, hri, if_neg hc, if_neg hc, hinc']
          simp only [map_zero]
          field_simp
          ring
      unfold tanPower Spec.totalR
      rw [Finset.sum_congr rfl fun i _ => key i, ← Finset.mul_sum, Finset.sum_sub_distrib, hδ, Fin.sum_univ_one]
    · unfold tanPower Spec.totalT
      rw [Fin.sum_univ_one, Finset.mul_sum]
      refine Finset.sum_congr rfl fun i _ => ?_
      have ha : Spec.below1d s.p o.res i = Spec.planeWave s.p.n_bot 0 (kz1d s.p.n_bot (kxVec s.p s.p.wavelength) i) 0 (o.res.T_p 0 i) := by
        rw [← kzOf_kz1d]
        exact if_neg hpol'
      rw [below_power h0 ha, hti, map_zero]
      field_simp
      ring

/-! ### Orthogonality of the sampled orders -/

theorem k0_kx {p : Params} (h : Spec.RealIllumination p) (a b : Fin (2 * p.fto.1 + 1)) :
    (Spec.k0Of p : ℂ) * p.period.1 * (kxVec p p.wavelength a - kxVec p p.wavelength b) = 2 * Real.pi * (((a : ℤ) - (b : ℤ) : ℤ) : ℂ) := by
  have hi := RealIncidence.of_spec h
  have h1 : (p.wavelength : ℂ) ≠ 0 := by exact_mod_cast h.wavelength_pos.ne'
  have h2 : (p.period.1 : ℂ) ≠ 0 := by exact_mod_cast h.period_x_pos.ne'
  rw [hi.kx_eq' (phi_getD_real h), hi.kx_eq' (phi_getD_real h)]
  unfold Spec.k0Of
  push_cast
  field_simp
  ring

theorem k0_ky {p : Params} (h : Spec.RealIllumination p) (a b : Fin (2 * p.fto.2 + 1)) :
    (Spec.k0Of p : ℂ) * p.period.2 * (kyVec p p.wavelength a - kyVec p p.wavelength b) = 2 * Real.pi * (((a : ℤ) - (b : ℤ) : ℤ) : ℂ) := by
  have hi := RealIncidence.of_spec h
  have h1 : (p.wavelength : ℂ) ≠ 0 := by exact_mod_cast h.wavelength_pos.ne'
  have h2 : (p.period.2 : ℂ) ≠ 0 := by exact_mod_cast h.period_y_pos.ne'
  rw [hi.ky_eq' (phi_getD_real h), hi.ky_eq' (phi_getD_real h)]
  unfold Spec.k0Of
  push_cast
  field_simp
  ring

theorem orth_2d {p : Params} (h : Spec.RealIllumination p) {rx ry : ℕ} (hx : Spec.EnoughSamples p.fto.1 rx) (hy : Spec.EnoughSamples p.fto.2 ry)
    (i j : FlatIdx p.fto.1 p.fto.2) :
    ∑ q ∈ Spec.distinctSamples ry ×ˢ Spec.distinctSamples rx,
      Complex.exp (-Complex.I * (Spec.k0Of p * (Spec.samplePoint p.period.1 rx q.2 * kxVec p p.wavelength i.modNat
          + Spec.samplePoint p.period.2 ry q.1.rev * kyVec p p.wavelength i.divNat)))
        * star (Complex.exp (-Complex.I * (Spec.k0Of p * (Spec.samplePoint p.period.1 rx q.2 * kxVec p p.wavelength j.modNat
          + Spec.samplePoint p.period.2 ry q.1.rev * kyVec p p.wavelength j.divNat))))
      = if i = j then ((Spec.distinctSamples ry).card : ℂ) * (Spec.distinctSamples rx).card else 0 := by
  have ex := sample_orth hx (kx_star h) (k0_kx h) i.modNat j.modNat
  have ey := sample_orth_rev hy (ky_star h) (k0_ky h) i.divNat j.divNat
  have es : ∀ (i : FlatIdx p.fto.1 p.fto.2) (x y : ℝ), Complex.exp (-Complex.I * (Spec.k0Of p * (x * kxVec p p.wavelength i.modNat + y * kyVec p p.wavelength i.divNat)))
      = Complex.exp (-Complex.I * (Spec.k0Of p * (x * kxVec p p.wavelength i.modNat))) * Complex.exp (-Complex.I * (Spec.k0Of p * (y * kyVec p p.wavelength i.divNat))) := by
    intro i x y
    rw [← Complex.exp_add]
    congr 1; ring
  have e2 : (if i = j then ((Spec.distinctSamples ry).card : ℂ) * (Spec.distinctSamples rx).card else 0)
      = (if i.divNat = j.divNat then ((Spec.distinctSamples ry).card : ℂ) else 0) * (if i.modNat = j.modNat then ((Spec.distinctSamples rx).card : ℂ) else 0) := by
    by_cases hij : i = j
    · subst hij; simp
    · rw [if_neg hij]
      by_cases h1 : i.divNat = j.divNat
      · have h2 : i.modNat ≠ j.modNat := fun h2 => hij (by rw [← flat_eta i, ← flat_eta j, h1, h2])
        rw [if_neg h2, mul_zero]
      · rw [if_neg h1, zero_mul]
  rw [e2, ← ex, ← ey, Finset.sum_mul_sum, Finset.sum_product]
  refine Finset.sum_congr rfl fun y _ => Finset.sum_congr rfl fun x _ => ?_
  rw [es, es, star_mul']
  ring

theorem orth_1d {p : Params} (h : Spec.RealIllumination p) {rx : ℕ} (hx : Spec.EnoughSamples p.fto.1 rx) (y : Fin 1 → ℝ) (i j : Fin (2 * p.fto.1 + 1)) :
    ∑ q ∈ Spec.distinctSamples 1 ×ˢ Spec.distinctSamples rx,
      Complex.exp (-Complex.I * (Spec.k0Of p * (Spec.samplePoint p.period.1 rx q.2 * kxVec p p.wavelength i + y q.1 * (0 : Fin (2 * p.fto.1 + 1) → ℂ) i)))
        * star (Complex.exp (-Complex.I * (Spec.k0Of p * (Spec.samplePoint p.period.1 rx q.2 * kxVec p p.wavelength j + y q.1 * (0 : Fin (2 * p.fto.1 + 1) → ℂ) j))))
      = if i = j then ((Spec.distinctSamples 1).card : ℂ) * (Spec.distinctSamples rx).card else 0 := by
  have ex := sample_orth hx (kx_star h) (k0_kx h) i j
  simp only [Pi.zero_apply, mul_zero, add_zero]
  rw [Finset.sum_product]
  simp only [ex, Finset.sum_const, nsmul_eq_mul]
  split_ifs <;> simp

theorem samples_by_orders {m : Type} [Fintype m] [DecidableEq m] {k0 : ℝ} {kx ky : m → ℂ} {period : ℝ × ℝ} {rx ry rz : ℕ} {α : Type} {six : α → Field6}
    {cs : List (Conv m)} {ds : List ℝ} {fs : List (Spec.OrderFields m)} {cell : List (Block rx ry rz α)} {top bottom}
    (hS : Spec.SolvesStack k0 kx ky (cs.zip ds) fs top bottom) (h : Spec.Samples k0 kx ky period six ds fs cell)
    (hx : 0 < (Spec.distinctSamples rx).card) (hy : 0 < (Spec.distinctSamples ry).card)
    (ho : ∀ i j, ∑ q ∈ Spec.distinctSamples ry ×ˢ Spec.distinctSamples rx,
      Complex.exp (-Complex.I * (k0 * (Spec.samplePoint period.1 rx q.2 * kx i + Spec.samplePoint period.2 ry q.1.rev * ky i)))
        * star (Complex.exp (-Complex.I * (k0 * (Spec.samplePoint period.1 rx q.2 * kx j + Spec.samplePoint period.2 ry q.1.rev * ky j))))
      = if i = j then ((Spec.distinctSamples ry).card : ℂ) * (Spec.distinctSamples rx).card else 0) :
    (cs.zip ds).length = cell.length ∧ ByOrders six (cs.zip ds) fs cell := by
  obtain ⟨h1, h2, h3⟩ := h
  have hlen : ∀ {ls : List (Conv m × ℝ)} {fs : List (Spec.OrderFields m)} {top bottom}, Spec.SolvesStack k0 kx ky ls fs top bottom → ls.length = fs.length := by
    intro ls
    induction ls with
    | nil => intro fs t b h; cases fs <;> simp_all [Spec.SolvesStack]
    | cons l ls ih =>
      intro fs t b h
      cases fs with
      | nil => simp [Spec.SolvesStack] at h
      | cons f fs => simp [ih h.2.2]
  refine ⟨by rw [hlen hS, h2, h1], ?_⟩
  intro k l f a hl hf ha iz
  have hd : ds[k]? = some l.2 := by
    rw [List.getElem?_zip_eq_some] at hl
    exact hl.2
  exact meanPower_eq (x := Spec.samplePoint period.1 rx) (y := fun iy => Spec.samplePoint period.2 ry iy.rev) (h3 k l.2 f a hd hf ha iz) hx hy ho

/-! ### All solves -/

theorem forall₂_mem_imp {A B : Type} {R S : A → B → Prop} : ∀ {l : List A} {l' : List B}, List.Forall₂ R l l' → (∀ a ∈ l, ∀ b, R a b → S a b) → List.Forall₂ S l l'
  | _, _, .nil, _ => .nil
  | _, _, .cons h t, H => .cons (H _ List.mem_cons_self _ h) (forall₂_mem_imp t fun a ha => H a (List.mem_cons_of_mem _ ha))

/-- What is known of the samples of one solve. -/
structure CarriesPower {m : Type} [Fintype m] [DecidableEq m] (p : Params) (cs : List (Conv m)) {rx ry rz : ℕ} {α : Type} (six : α → Field6) (inc R T : ℝ)
    (cell : List (Block rx ry rz α)) (kx ky : m → ℂ) (fs : List (Spec.OrderFields m)) (top bottom : m → Spec.Tangential) : Prop where
  kx_real : ∀ i, star (kx i) = kx i
  ky_real : ∀ i, star (ky i) = ky i
  solves : Spec.SolvesStack (Spec.k0Of p) kx ky (cs.zip p.thickness) fs top bottom
  len : (cs.zip p.thickness).length = cell.length
  orders : ByOrders six (cs.zip p.thickness) fs cell
  top_eq : tanPower top = inc * (1 - R)
  bottom_eq : tanPower bottom = inc * T

theorem forFields_of {la : LinAlg} {s : Settings} (hp : s.p.use_pinv = false) (h : Spec.RealIllumination s.p) {rx ry rz : ℕ}
    (hx : Spec.EnoughSamples s.p.fto.1 rx) (hy : Spec.EnoughSamples s.p.fto.2 ry) {sel : Bool × Bool × Bool} {r : Solved s.p.fto.1 s.p.fto.2} {cell : FieldCell rx ry rz}
    {cs : List (Conv (FlatIdx s.p.fto.1 s.p.fto.2))} (hs : conv_solve la s = .ok r) (hm : Spec.MaxwellFields s.p cs r sel cell)
    {P : {ry : ℕ} → {α : Type} → (α → Field6) → ℝ → ℝ → ℝ → List (Block rx ry rz α) → Prop}
    (h1 : ∀ {ry : ℕ} {α : Type} {six : α → Field6} {inc R T : ℝ} {cell : List (Block rx ry rz α)} {kx ky fs top bottom},
      CarriesPower s.p cs six inc R T cell kx ky fs top bottom → P six inc R T cell)
    (h2 : ∀ {ry : ℕ} {α : Type} {six : α → Field6} {inc R T : ℝ} {cell : List (Block rx ry rz α)} {kx ky fs top bottom},
      CarriesPower s.p (cs.map Conv.row) six inc R T cell kx ky fs top bottom → P six inc R T cell) :
    Spec.ForFields s.p P r sel cell := by
  have hx0 : 0 < (Spec.distinctSamples rx).card := lt_of_le_of_lt (Nat.zero_le _) hx
  have hy0 : 0 < (Spec.distinctSamples ry).card := lt_of_le_of_lt (Nat.zero_le _) hy
  have hpi : Spec.IsReal ((Real.pi / 2 : ℝ) : ℂ) := Complex.ofReal_im _
  have h0 : Spec.IsReal 0 := Complex.zero_im
  have two : ∀ {ψ : ℂ} {x : SubRes (2 * s.p.fto.2 + 1) (2 * s.p.fto.1 + 1)} {c : List (Block rx ry rz Field6)}, gratingType s ≠ 0 → Spec.Reports r.result x → Spec.IsReal ψ →
      (∃ fs, Spec.Diffraction s.p cs ψ x fs ∧
      Spec.Samples (Spec.k0Of s.p) (fun i => kxVec s.p s.p.wavelength i.modNat) (fun i => kyVec s.p s.p.wavelength i.divNat) s.p.period id
        s.p.thickness fs c) → P id (Spec.incidentPower s.p) (Spec.totalR x) (Spec.totalT x) c := by
    rintro ψ x c hg hr hψ ⟨fs, hd, hsm⟩
    obtain ⟨a1, a2⟩ := samples_by_orders hd hsm hx0 hy0 (orth_2d h hx hy)
    have he := conv_solve_eff hs hr
    exact h1 ⟨fun i => kx_star h _, fun i => ky_star h _, hd, a1, a2, above_total h hg hψ he, below_total h hg he⟩
  have sel_real : ∀ {a b c : SubRes (2 * s.p.fto.2 + 1) (2 * s.p.fto.1 + 1)} {i}, i ∈ Spec.selectedInputs s.p.psi a b c sel →
      Spec.IsReal i.1 ∧ (i.2 = a ∨ i.2 = b ∨ i.2 = c) := by
    intro a b c i hi
    unfold Spec.selectedInputs at hi
    simp only [List.mem_append] at hi
    rcases hi with (hi | hi) | hi
    · split_ifs at hi
      · rw [List.mem_singleton.mp hi]; exact ⟨h.psi_real, .inl rfl⟩
      · cases hi
    · split_ifs at hi
      · rw [List.mem_singleton.mp hi]; exact ⟨hpi, .inr (.inl rfl)⟩
      · cases hi
    · split_ifs at hi
      · rw [List.mem_singleton.mp hi]; exact ⟨h0, .inr (.inr rfl)⟩
      · cases hi
  cases r with
  | tetm o =>
    cases cell with
    | vector _ => exact hm
    | tetm cell =>
      obtain ⟨fs, hd, hsm⟩ := hm
      obtain ⟨e1, e2⟩ := ends_1d hp h hs
      have hone : 0 < (Spec.distinctSamples 1).card := by decide
      obtain ⟨a1, a2⟩ := samples_by_orders (kx := kxVec s.p s.p.wavelength) (ky := 0) hd hsm hx0 hone
        (fun i j => orth_1d h hx (fun iy => Spec.samplePoint s.p.period.2 1 iy.rev) i j)
      exact h2 ⟨kx_star h, fun i => star_zero ℂ, hd, a1, a2, e1, e2⟩
  | conical o =>
    cases cell with
    | tetm _ => exact hm
    | vector cells =>
      obtain ⟨-, -, hg, -, -⟩ := conv_solve_conical.mp hs
      refine forall₂_mem_imp hm fun i hi c hc => ?_
      obtain ⟨b1, b2⟩ := sel_real hi
      refine two (by rw [hg]; decide) ?_ b1 hc
      rcases b2 with b2 | b2 | b2 <;> rw [b2]
      · exact .inl rfl
      · exact .inr (.inl rfl)
      · exact .inr (.inr rfl)
  | conicalSmm => exact hm
  | twoD o =>
    cases cell with
    | tetm _ => exact hm
    | vector cells =>
      obtain ⟨-, -, hg, -, -⟩ := conv_solve_twoD.mp hs
      refine forall₂_mem_imp hm fun i hi c hc => ?_
      obtain ⟨b1, b2⟩ := sel_real hi
      refine two (by rw [hg]; decide) ?_ b1 hc
      rcases b2 with b2 | b2 | b2 <;> rw [b2]
      · exact .inl rfl
      · exact .inr (.inl rfl)
      · exact .inr (.inr rfl)

theorem field_solves {la : LinAlg} {s : Settings} {rx ry rz : ℕ} {sel r} {cell : FieldCell rx ry rz} (h : conv_solve_field la s rx ry rz sel = .ok (r, cell)) :
    conv_solve la s = .ok r := by
  unfold conv_solve_field at h
  simp only [Except.bind_ok] at h
  obtain ⟨r', h1, c', h2, e⟩ := h
  obtain ⟨rfl, rfl⟩ := Prod.mk.inj (Except.ok.inj e)
  exact h1

end Meent
