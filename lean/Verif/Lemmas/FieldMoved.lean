import Verif.Lemmas.FieldUnique
import Verif.Lemmas.Shift
import Verif.Lemmas.Orders
import Verif.Spec.FieldMoved

/-!
# The fields of a moved structure (helper lemmas)
-/

open Matrix

namespace Meent

set_option linter.unusedSectionVars false
set_option linter.unusedSimpArgs false
set_option linter.unusedVariables false

section
variable {m : Type} [Fintype m] [DecidableEq m]

/-- Every order times a factor. -/
def gaugeFields (G : m → ℂ) (f : Spec.OrderFields m) : Spec.OrderFields m :=
  ⟨fun t i => G i * f.Ex t i, fun t i => G i * f.Ey t i, fun t i => G i * f.Ez t i,
    fun t i => G i * f.Hx t i, fun t i => G i * f.Hy t i, fun t i => G i * f.Hz t i⟩

theorem gauge_mulVec {G : m → ℂ} (hG : ∀ i, G i ≠ 0) (A : Matrix m m ℂ) (u : m → ℂ) :
    gConj G A *ᵥ (fun i => G i * u i) = fun i => G i * (A *ᵥ u) i := by
  funext i
  simp only [mulVec, dotProduct, gConj_apply, Finset.mul_sum]
  refine Finset.sum_congr rfl fun j _ => ?_
  field_simp [hG j]

theorem maxwell_gauge {k0 : ℝ} {kx ky : m → ℂ} {c : Conv m} {D : Set ℝ} {f : Spec.OrderFields m} {G : m → ℂ} (hG : ∀ i, G i ≠ 0)
    (h : Spec.Maxwell k0 kx ky c D f) : Spec.Maxwell k0 kx ky (c.gauge G) D (gaugeFields G f) := by
  obtain ⟨zEx, zEy, zHx, zHy, h1, h2, h3, h4, he⟩ := h
  have hd : ∀ {u du : ℝ → m → ℂ}, Spec.DerivZ D u du → Spec.DerivZ D (fun t i => G i * u t i) (fun t i => G i * du t i) := by
    intro u du h t ht i
    have := (h t ht i).const_mul (G i)
    rwa [mul_neg] at this
  refine ⟨fun t i => G i * zEx t i, fun t i => G i * zEy t i, fun t i => G i * zHx t i, fun t i => G i * zHy t i,
    hd h1, hd h2, hd h3, hd h4, fun t ht => ?_⟩
  obtain ⟨e1, e2, e3, e4, e5, e6⟩ := he t ht
  simp only [gaugeFields, Conv.gauge]
  refine ⟨?_, ?_, ?_, ?_, ?_, ?_⟩
  · funext i
    have := congrFun e1 i
    simp only [Pi.sub_apply, Pi.smul_apply, smul_eq_mul] at this ⊢
    linear_combination (G i) * this
  · funext i
    have := congrFun e2 i
    simp only [Pi.sub_apply, Pi.smul_apply, smul_eq_mul] at this ⊢
    linear_combination (G i) * this
  · funext i
    have := congrFun e3 i
    simp only [Pi.sub_apply, Pi.smul_apply, smul_eq_mul] at this ⊢
    linear_combination (G i) * this
  · rw [gauge_mulVec hG]
    funext i
    have := congrFun e4 i
    simp only [Pi.sub_apply, Pi.smul_apply, smul_eq_mul] at this ⊢
    linear_combination (G i) * this
  · rw [gauge_mulVec hG]
    funext i
    have := congrFun e5 i
    simp only [Pi.sub_apply, Pi.smul_apply, smul_eq_mul] at this ⊢
    linear_combination (G i) * this
  · have hs : ((fun i => -Complex.I * k0 * kx i * (G i * f.Hy t i)) - fun i => -Complex.I * k0 * ky i * (G i * f.Hx t i))
        = fun i => G i * ((fun i => -Complex.I * k0 * kx i * f.Hy t i) - fun i => -Complex.I * k0 * ky i * f.Hx t i) i := by
      funext i
      simp only [Pi.sub_apply]
      ring
    rw [hs, gauge_mulVec hG]
    funext i
    have := congrFun e6 i
    simp only [Pi.smul_apply, smul_eq_mul] at this ⊢
    rw [this]
    ring

theorem tan_gauge (G : m → ℂ) (f : Spec.OrderFields m) (t : ℝ) : (gaugeFields G f).tan t = fun i => (f.tan t i).scale (G i) := rfl

theorem solvesStack_gauge {k0 : ℝ} {kx ky : m → ℂ} {G : m → ℂ} (hG : ∀ i, G i ≠ 0) : ∀ {ls : List (Conv m × ℝ)}
    {fs : List (Spec.OrderFields m)} {top bot : m → Spec.Tangential}, Spec.SolvesStack k0 kx ky ls fs top bot →
    Spec.SolvesStack k0 kx ky (ls.map fun l => (l.1.gauge G, l.2)) (fs.map (gaugeFields G)) (fun i => (top i).scale (G i)) (fun i => (bot i).scale (G i))
  | [], [], _, _, h => by
    have h : _ = _ := h
    rw [h]
    exact rfl
  | (c, d) :: ls, f :: fs, _, _, h => by
    refine ⟨maxwell_gauge hG h.1, ?_, ?_⟩
    · rw [tan_gauge, h.2.1]
    · rw [tan_gauge]
      exact solvesStack_gauge hG h.2.2
  | [], _ :: _, _, _, h => h.elim
  | (_, _) :: _, [], _, _, h => h.elim

theorem zip_gauge (G : m → ℂ) : ∀ (cs : List (Conv m)) (ds : List ℝ), (cs.zip ds).map (fun l => (l.1.gauge G, l.2)) = (cs.map (Conv.gauge G)).zip ds
  | [], _ => by simp
  | _ :: _, [] => by simp
  | c :: cs, d :: ds => by simp [zip_gauge G cs ds]

end

theorem planeWave_scale (n φ κ e h c : ℂ) : (Spec.planeWave n φ κ e h).scale c = Spec.planeWave n φ κ (c * e) (c * h) := by
  unfold Spec.planeWave Spec.Tangential.scale
  congr 1 <;> ring

theorem scale_add (c : ℂ) (a b : Spec.Tangential) : (a + b).scale c = a.scale c + b.scale c := by
  show Spec.Tangential.mk _ _ _ _ = Spec.Tangential.mk _ _ _ _
  congr 1 <;> exact mul_add _ _ _

theorem prod_eta {fx fy : ℕ} (i : FlatIdx fx fy) : finProdFinEquiv (i.divNat, i.modNat) = i :=
  finProdFinEquiv.apply_symm_apply i

theorem incident_delta {fx fy : ℕ} (i : FlatIdx fx fy) : Spec.incidentOrder (fx := fx) (fy := fy) i.divNat i.modNat = deltaI0 i := by
  conv_rhs => rw [← prod_eta i]
  rw [deltaI0_order]
  unfold Spec.incidentOrder
  unfold Spec.colOrder Spec.rowOrder
  congr 1
  apply propext
  constructor
  · rintro ⟨a, b⟩
    constructor <;> omega
  · rintro ⟨a, b⟩
    constructor <;> omega

variable {p : Params}

theorem diffraction_gauge {cs : List (Conv (FlatIdx p.fto.1 p.fto.2))} {ψ : ℂ} {r r' : SubRes (2 * p.fto.2 + 1) (2 * p.fto.1 + 1)}
    {fs : List (Spec.OrderFields (FlatIdx p.fto.1 p.fto.2))} {D : FlatIdx p.fto.1 p.fto.2 → ℂ} (hD : ∀ i, D i ≠ 0)
    (h0 : ∀ i, D i * deltaI0 i = deltaI0 i) (hr : r.Scaled (fun j i => D (finProdFinEquiv (j, i))) r')
    (h : Spec.Diffraction p cs ψ r fs) : Spec.Diffraction p (cs.map (Conv.gauge D)) ψ r' (fs.map (gaugeFields D)) := by
  unfold Spec.Diffraction at h ⊢
  have := solvesStack_gauge hD h
  rw [zip_gauge] at this
  refine cast (congrArg₂ _ (funext fun i => ?_) (funext fun i => ?_)) this
  · unfold Spec.above
    simp only [scale_add, planeWave_scale, hr.R_s, hr.R_p, prod_eta, incident_delta]
    have e := h0 i
    congr 2
    · linear_combination (Complex.sin ψ) * e
    · linear_combination (p.n_top * Complex.cos ψ) * e
    · ring
  · unfold Spec.below
    simp only [planeWave_scale, hr.T_s, hr.T_p, prod_eta]
    congr 1
    ring

theorem diffraction1d_gauge {cs : List (Conv (Fin (2 * p.fto.1 + 1)))} {r r' : SubRes 1 (2 * p.fto.1 + 1)}
    {fs : List (Spec.OrderFields (Fin (2 * p.fto.1 + 1)))} {D : Fin (2 * p.fto.1 + 1) → ℂ} (hD : ∀ i, D i ≠ 0)
    (h0 : ∀ i, i.val = p.fto.1 → D i = 1) (hr : r.Scaled (fun _ => D) r')
    (h : Spec.Diffraction1d p cs r fs) : Spec.Diffraction1d p (cs.map (Conv.gauge D)) r' (fs.map (gaugeFields D)) := by
  unfold Spec.Diffraction1d at h ⊢
  have := solvesStack_gauge hD h
  rw [zip_gauge] at this
  refine cast (congrArg₂ _ (funext fun i => ?_) (funext fun i => ?_)) this
  · have e : D i * (if i.val = p.fto.1 then (1 : ℂ) else 0) = if i.val = p.fto.1 then 1 else 0 := by
      split_ifs with hi
      · rw [h0 i hi, one_mul]
      · rw [mul_zero]
    unfold Spec.above1d
    simp only
    split_ifs with hp hi hi <;> simp [scale_add, planeWave_scale, hr.R_s, hr.R_p, h0, hi]
  · unfold Spec.below1d
    simp only
    split_ifs with hp <;> simp only [planeWave_scale, hr.T_s, hr.T_p, mul_zero]

/-! ### Fields of a whole problem -/

/-- The three reported components among six. -/
noncomputable def unsix (pol : ℝ) (f : Field6) : Field3 := if pol = 0 then ⟨f.Ey, f.Hx, f.Hz⟩ else ⟨f.Hy, f.Ex, f.Ez⟩

theorem unsix_six (pol : ℝ) (f : Field3) : unsix pol (Spec.six pol f) = f := by
  unfold unsix Spec.six
  split_ifs <;> rfl

/-- The field function for one incident wave. -/
def WaveField (p : Params) (cs : List (Conv (FlatIdx p.fto.1 p.fto.2))) (ψ : ℂ) (r : SubRes (2 * p.fto.2 + 1) (2 * p.fto.1 + 1))
    (F : Spec.FieldFn Field6) : Prop :=
  ∃ fs, Spec.Diffraction p cs ψ r fs ∧
    F = stackFn (Spec.k0Of p) (fun i => kxVec p p.wavelength i.modNat) (fun i => kyVec p p.wavelength i.divNat) p.thickness fs

/-- The field functions of a solved problem. -/
def ProblemFields (p : Params) (cs : List (Conv (FlatIdx p.fto.1 p.fto.2))) : Solved p.fto.1 p.fto.2 → Spec.Fields Field3 → Prop
  | .tetm o, .tetm F => ∃ fs, Spec.Diffraction1d p (cs.map Conv.row) o.res fs ∧
      F = fun k z y x => unsix p.pol (stackFn (Spec.k0Of p) (kxVec p p.wavelength) 0 p.thickness fs k z y x)
  | .conical o, .vector F G H => WaveField p cs p.psi o.out.res F ∧ WaveField p cs ((Real.pi / 2 : ℝ) : ℂ) o.out.res_te G ∧ WaveField p cs 0 o.out.res_tm H
  | .twoD o, .vector F G H => WaveField p cs p.psi o.out.res F ∧ WaveField p cs ((Real.pi / 2 : ℝ) : ℂ) o.out.res_te G ∧ WaveField p cs 0 o.out.res_tm H
  | _, _ => False

theorem zip_snd {α : Type} {cs : List α} {ds : List ℝ} (h : (cs.zip ds).length = ds.length) : (cs.zip ds).map Prod.snd = ds := by
  rw [List.length_zip] at h
  exact List.map_snd_zip (by omega)

/-- Samples of one solution are samples of every solution with the same fields at the top. -/
theorem samples_fn {m : Type} [Fintype m] [DecidableEq m] {k0 : ℝ} (hk : k0 ≠ 0) {kx ky : m → ℂ} {period : ℝ × ℝ} {rx ry rz : ℕ} {α : Type}
    {conv6 : α → Field6} {cs : List (Conv m)} {ds : List ℝ} {fs fs' : List (Spec.OrderFields m)} {cell : List (Block rx ry rz α)}
    {top bot bot' : m → Spec.Tangential} (hs : Spec.Samples k0 kx ky period conv6 ds fs cell)
    (h : Spec.SolvesStack k0 kx ky (cs.zip ds) fs top bot) (h' : Spec.SolvesStack k0 kx ky (cs.zip ds) fs' top bot') :
    cell.length = ds.length ∧ ∀ (k : ℕ) (a : Block rx ry rz α), cell[k]? = some a → ∀ iz iy ix,
      conv6 (a iz iy ix) = stackFn k0 kx ky ds fs' k (Spec.samplePoint 1 rz iz) (Spec.samplePoint period.2 ry iy.rev) (Spec.samplePoint period.1 rx ix) := by
  obtain ⟨h1, h2, h3⟩ := hs
  refine ⟨h1, fun k a ha iz iy ix => ?_⟩
  have hl := solvesStack_length h
  have hl' := solvesStack_length h'
  have hz : (cs.zip ds).length = ds.length := by omega
  have hkc : k < cell.length := by
    rw [List.getElem?_eq_some_iff] at ha
    exact ha.1
  have hd : ds[k]? = some (ds[k]'(by omega)) := List.getElem?_eq_getElem _
  have hf : fs[k]? = some (fs[k]'(by omega)) := List.getElem?_eq_getElem _
  have hf' : fs'[k]? = some (fs'[k]'(by omega)) := List.getElem?_eq_getElem _
  rw [h3 k _ _ a hd hf ha]
  unfold stackFn
  rw [hd, hf']
  simp only
  rw [samplePoint_one (ds[k]'(by omega))]
  refine at_same (solvesStack_unique hk h h' k _ _ _ (by rw [zip_snd hz]; exact hd) hf hf' _ (mul_mem_uIcc (samplePoint_unit _ _))) _ _

theorem k0Of_ne (hw : p.wavelength ≠ 0) : Spec.k0Of p ≠ 0 := by
  unfold Spec.k0Of
  exact div_ne_zero (by positivity) hw

theorem wave_samples (hw : p.wavelength ≠ 0) {cs : List (Conv (FlatIdx p.fto.1 p.fto.2))} {rx ry rz : ℕ} {i : ℂ × SubRes (2 * p.fto.2 + 1) (2 * p.fto.1 + 1)}
    {cell : List (Block rx ry rz Field6)} {F : Spec.FieldFn Field6}
    (h : ∃ fs, Spec.Diffraction p cs i.1 i.2 fs ∧
      Spec.Samples (Spec.k0Of p) (fun i => kxVec p p.wavelength i.modNat) (fun i => kyVec p p.wavelength i.divNat) p.period id p.thickness fs cell)
    (hF : WaveField p cs i.1 i.2 F) : Spec.SamplesOf p.thickness.length p.period F cell := by
  obtain ⟨fs, h1, h2⟩ := h
  obtain ⟨fs', h3, rfl⟩ := hF
  obtain ⟨a, b⟩ := samples_fn (k0Of_ne hw) h2 h1 h3
  exact ⟨a, b⟩

theorem select_samples (hw : p.wavelength ≠ 0) {cs : List (Conv (FlatIdx p.fto.1 p.fto.2))} {rx ry rz : ℕ} {o : Out4 p.fto.1 p.fto.2}
    {cells : List (List (Block rx ry rz Field6))} {F G H : Spec.FieldFn Field6} (sel : Bool × Bool × Bool)
    (h : List.Forall₂ (fun i cell => ∃ fs, Spec.Diffraction p cs i.1 i.2 fs ∧
      Spec.Samples (Spec.k0Of p) (fun i => kxVec p p.wavelength i.modNat) (fun i => kyVec p p.wavelength i.divNat) p.period id
        p.thickness fs cell) (Spec.selectedInputs p.psi o.res o.res_te o.res_tm sel) cells)
    (hF : WaveField p cs p.psi o.res F) (hG : WaveField p cs ((Real.pi / 2 : ℝ) : ℂ) o.res_te G) (hH : WaveField p cs 0 o.res_tm H) :
    List.Forall₂ (fun f cell => Spec.SamplesOf p.thickness.length p.period f cell)
      ((if sel.1 then [F] else []) ++ (if sel.2.1 then [G] else []) ++ (if sel.2.2 then [H] else [])) cells := by
  have key : List.Forall₂ (fun f i => WaveField p cs i.1 i.2 f)
      ((if sel.1 then [F] else []) ++ (if sel.2.1 then [G] else []) ++ (if sel.2.2 then [H] else []))
      (Spec.selectedInputs p.psi o.res o.res_te o.res_tm sel) := by
    obtain ⟨a, b, c⟩ := sel
    unfold Spec.selectedInputs
    cases a <;> cases b <;> cases c <;> simp [hF, hH] <;> simpa using hG
  revert key h
  generalize Spec.selectedInputs p.psi o.res o.res_te o.res_tm sel = is
  generalize (if sel.1 then [F] else []) ++ (if sel.2.1 then [G] else []) ++ (if sel.2.2 then [H] else []) = fns
  intro h key
  induction key generalizing cells with
  | nil => cases h; exact .nil
  | cons h1 _ ih =>
    cases h with
    | cons h2 h3 => exact .cons (wave_samples hw h2 h1) (ih h3)

section
variable {s : Settings} (hp : s.p.use_pinv = false) (hn : s.p.n_top ≠ 0) (hw : s.p.wavelength ≠ 0)
include hp hn hw

theorem problem_sampled {la : LinAlg} {r : Solved s.p.fto.1 s.p.fto.2} (h : conv_solve la s = .ok r)
    {cs : List (Conv (FlatIdx s.p.fto.1 s.p.fto.2))} (hc : convMats la s = .ok cs) {fields : Spec.Fields Field3}
    (hf : ProblemFields s.p cs r fields) : Spec.AlwaysSampled s.p r fields := by
  intro rx ry rz sel
  cases r with
  | tetm o =>
    cases fields with
    | vector F G H => exact hf.elim
    | tetm F =>
      obtain ⟨cs', hc', -, -, ho⟩ := conv_solve_tetm.mp h
      obtain rfl := Except.ok.inj (hc.symm.trans hc')
      obtain ⟨fs, h1, h2⟩ := (solve_1d_bvp hp hn ho).1 rx rz
      obtain ⟨fs', h3, rfl⟩ := hf
      obtain ⟨a, b⟩ := samples_fn (k0Of_ne hw) h2 h1 h3
      refine ⟨_, rfl, a, fun k c hk iz iy ix => ?_⟩
      rw [← b k c hk iz iy ix, unsix_six]
  | conical o =>
    cases fields with
    | tetm F => exact hf.elim
    | vector F G H =>
      obtain ⟨cs', hc', hg, -, ho⟩ := conv_solve_conical.mp h
      obtain rfl := Except.ok.inj (hc.symm.trans hc')
      obtain ⟨u, hu, hy, -⟩ := gratingType_one hg
      have hz := convMats_epzi_epy hp hu (fun l _ i i' j => by
        have hs : i = i' := by ext; have := i.isLt; have := i'.isLt; omega
        rw [hs]) hc
      exact ⟨_, rfl, select_samples hw sel ((solve_con_bvp hp hn hz ho).1 rx ry rz sel) hf.1 hf.2.1 hf.2.2⟩
  | conicalSmm => exact hf.elim
  | twoD o =>
    cases fields with
    | tetm F => exact hf.elim
    | vector F G H =>
      obtain ⟨cs', hc', -, -, ho⟩ := conv_solve_twoD.mp h
      obtain rfl := Except.ok.inj (hc.symm.trans hc')
      exact ⟨_, rfl, select_samples hw sel ((solve_2d_bvp hp hn ho).1 rx ry rz sel) hf.1 hf.2.1 hf.2.2⟩

omit hw in
theorem problem_fields {la : LinAlg} {r : Solved s.p.fto.1 s.p.fto.2} (h : conv_solve la s = .ok r) (hr : r ≠ .conicalSmm)
    {cs : List (Conv (FlatIdx s.p.fto.1 s.p.fto.2))} (hc : convMats la s = .ok cs) : ∃ fields, ProblemFields s.p cs r fields := by
  have key : ∀ {o : Out4 s.p.fto.1 s.p.fto.2}, (∀ i ∈ Spec.selectedInputs s.p.psi o.res o.res_te o.res_tm (true, true, true),
      ∀ r, (∃ fs, Spec.Diffraction s.p cs i.1 r fs) ↔ Spec.SameAmplitudes r i.2) →
      ∃ F G H, WaveField s.p cs s.p.psi o.res F ∧ WaveField s.p cs ((Real.pi / 2 : ℝ) : ℂ) o.res_te G ∧ WaveField s.p cs 0 o.res_tm H := by
    intro o hu
    have get : ∀ i ∈ Spec.selectedInputs s.p.psi o.res o.res_te o.res_tm (true, true, true), ∃ F, WaveField s.p cs i.1 i.2 F := by
      intro i hi
      obtain ⟨fs, hfs⟩ := (hu i hi i.2).mpr ⟨rfl, rfl, rfl, rfl⟩
      exact ⟨_, fs, hfs, rfl⟩
    obtain ⟨F, hF⟩ := get (s.p.psi, o.res) (by simp [Spec.selectedInputs])
    obtain ⟨G, hG⟩ := get (((Real.pi / 2 : ℝ) : ℂ), o.res_te) (by simp [Spec.selectedInputs])
    obtain ⟨H, hH⟩ := get (0, o.res_tm) (by simp [Spec.selectedInputs])
    exact ⟨F, G, H, hF, hG, hH⟩
  cases r with
  | tetm o =>
    obtain ⟨cs', hc', -, -, ho⟩ := conv_solve_tetm.mp h
    obtain rfl := Except.ok.inj (hc.symm.trans hc')
    obtain ⟨fs, h1, -⟩ := (solve_1d_bvp hp hn ho).1 1 1
    exact ⟨.tetm _, fs, h1, rfl⟩
  | conical o =>
    obtain ⟨cs', hc', hg, -, ho⟩ := conv_solve_conical.mp h
    obtain rfl := Except.ok.inj (hc.symm.trans hc')
    obtain ⟨u, hu, hy, -⟩ := gratingType_one hg
    have hz := convMats_epzi_epy hp hu (fun l _ i i' j => by
      have hs : i = i' := by ext; have := i.isLt; have := i'.isLt; omega
      rw [hs]) hc
    obtain ⟨F, G, H, hF, hG, hH⟩ := key (solve_con_bvp hp hn hz ho).2
    exact ⟨.vector F G H, hF, hG, hH⟩
  | conicalSmm => exact (hr rfl).elim
  | twoD o =>
    obtain ⟨cs', hc', -, -, ho⟩ := conv_solve_twoD.mp h
    obtain rfl := Except.ok.inj (hc.symm.trans hc')
    obtain ⟨F, G, H, hF, hG, hH⟩ := key (solve_2d_bvp hp hn ho).2
    exact ⟨.vector F G H, hF, hG, hH⟩

end


/-! ### Moved structures -/

theorem at_gauge {m : Type} [Fintype m] {k0 : ℝ} {kx ky : m → ℂ} {G : m → ℂ} {e : ℂ} {a b x y : ℝ}
    (h : ∀ i, Complex.exp (-Complex.I * (k0 * (x * kx i + y * ky i))) * G i
      = e * Complex.exp (-Complex.I * (k0 * (((x + a : ℝ) : ℂ) * kx i + ((y + b : ℝ) : ℂ) * ky i)))) (f : Spec.OrderFields m) (t : ℝ) :
    (gaugeFields G f).at k0 kx ky x y t = Spec.times6 e (f.at k0 kx ky (x + a) (y + b) t) := by
  have key : ∀ u : m → ℂ, ∑ i, Complex.exp (-Complex.I * (k0 * (x * kx i + y * ky i))) * (G i * u i)
      = e * ∑ i, Complex.exp (-Complex.I * (k0 * (((x + a : ℝ) : ℂ) * kx i + ((y + b : ℝ) : ℂ) * ky i))) * u i := by
    intro u
    rw [Finset.mul_sum]
    refine Finset.sum_congr rfl fun i _ => ?_
    rw [← mul_assoc, h i, mul_assoc]
  unfold Spec.OrderFields.at gaugeFields Spec.times6
  simp only [key]

theorem stackFn_gauge {m : Type} [Fintype m] [DecidableEq m] {k0 : ℝ} {kx ky : m → ℂ} {G : m → ℂ} {e : ℂ} {a b : ℝ}
    (h : ∀ x y : ℝ, ∀ i, Complex.exp (-Complex.I * (k0 * (x * kx i + y * ky i))) * G i
      = e * Complex.exp (-Complex.I * (k0 * (((x + a : ℝ) : ℂ) * kx i + ((y + b : ℝ) : ℂ) * ky i))))
    (ds : List ℝ) (fs : List (Spec.OrderFields m)) (k : ℕ) (z y x : ℝ) :
    stackFn k0 kx ky ds (fs.map (gaugeFields G)) k z y x = Spec.times6 e (stackFn k0 kx ky ds fs k z (y + b) (x + a)) := by
  unfold stackFn
  rw [List.getElem?_map]
  cases fs[k]? with
  | none => simp [Spec.times6]
  | some f =>
    cases ds[k]? with
    | none => simp [Spec.times6]
    | some d => exact at_gauge (h x y) f _

theorem unsix_times (pol : ℝ) (c : ℂ) (f : Field6) : unsix pol (Spec.times6 c f) = Spec.times3 c (unsix pol f) := by
  unfold unsix Spec.times6 Spec.times3
  split_ifs <;> rfl

theorem move_x (h : Spec.RealIllumination p) (q x : ℝ) (i : Fin (2 * p.fto.1 + 1)) :
    Complex.exp (-Complex.I * ((Spec.k0Of p : ℂ) * (x * kxVec p p.wavelength i))) * Spec.shiftPhase (Spec.colOrder i) q
      = Complex.exp (((q * Spec.phaseAlongX p : ℝ) : ℂ) * Complex.I) *
        Complex.exp (-Complex.I * ((Spec.k0Of p : ℂ) * (((x + q * p.period.1 : ℝ) : ℂ) * kxVec p p.wavelength i))) := by
  have h1 : (p.wavelength : ℂ) ≠ 0 := by exact_mod_cast h.wavelength_pos.ne'
  have h2 : (p.period.1 : ℂ) ≠ 0 := by exact_mod_cast h.period_x_pos.ne'
  rw [kxVec_order h]
  unfold Spec.shiftPhase Spec.phaseAlongX Spec.orderKx Spec.k0Of
  rw [← Complex.exp_add, ← Complex.exp_add]
  congr 1
  push_cast
  field_simp
  ring

theorem move_y (h : Spec.RealIllumination p) (q y : ℝ) (i : Fin (2 * p.fto.2 + 1)) :
    Complex.exp (-Complex.I * ((Spec.k0Of p : ℂ) * (y * kyVec p p.wavelength i))) * Spec.shiftPhase (Spec.rowOrder i) q
      = Complex.exp (((q * Spec.phaseAlongY p : ℝ) : ℂ) * Complex.I) *
        Complex.exp (-Complex.I * ((Spec.k0Of p : ℂ) * (((y + q * p.period.2 : ℝ) : ℂ) * kyVec p p.wavelength i))) := by
  have h1 : (p.wavelength : ℂ) ≠ 0 := by exact_mod_cast h.wavelength_pos.ne'
  have h2 : (p.period.2 : ℂ) ≠ 0 := by exact_mod_cast h.period_y_pos.ne'
  rw [kyVec_order h]
  unfold Spec.shiftPhase Spec.phaseAlongY Spec.orderKy Spec.k0Of
  rw [← Complex.exp_add, ← Complex.exp_add]
  congr 1
  push_cast
  field_simp
  ring

/-- The phases of the orders are those of a move by `q` periods. -/
def MovePhases (p : Params) (q : ℝ × ℝ) (D : FlatIdx p.fto.1 p.fto.2 → ℂ) : Prop :=
  ∀ j i, D (finProdFinEquiv (j, i)) = Spec.shiftPhase (Spec.colOrder i) q.1 * Spec.shiftPhase (Spec.rowOrder j) q.2

theorem MovePhases.ne {q : ℝ × ℝ} {D : FlatIdx p.fto.1 p.fto.2 → ℂ} (h : MovePhases p q D) (i) : D i ≠ 0 := by
  rw [← prod_eta i, h]
  exact mul_ne_zero (Complex.exp_ne_zero _) (Complex.exp_ne_zero _)

theorem MovePhases.delta {q : ℝ × ℝ} {D : FlatIdx p.fto.1 p.fto.2 → ℂ} (h : MovePhases p q D) (i) : D i * deltaI0 i = deltaI0 i := by
  rw [← prod_eta i, h, deltaI0_order]
  split_ifs with hi
  · rw [hi.1, hi.2]
    simp [Spec.shiftPhase]
  · rw [mul_zero]

theorem wave_gauge (hR : Spec.RealIllumination p) {q : ℝ × ℝ} {D : FlatIdx p.fto.1 p.fto.2 → ℂ} (hD : MovePhases p q D)
    {cs : List (Conv (FlatIdx p.fto.1 p.fto.2))} {ψ : ℂ} {r r' : SubRes (2 * p.fto.2 + 1) (2 * p.fto.1 + 1)} {F : Spec.FieldFn Field6}
    (hr : r.Scaled (fun j i => D (finProdFinEquiv (j, i))) r') (h : WaveField p cs ψ r F) :
    WaveField p (cs.map (Conv.gauge D)) ψ r' (Spec.movedFn Spec.times6 p.period (Spec.phaseAlongX p, Spec.phaseAlongY p) q F) := by
  obtain ⟨fs, h1, rfl⟩ := h
  refine ⟨_, diffraction_gauge hD.ne hD.delta hr h1, ?_⟩
  funext k z y x
  unfold Spec.movedFn
  refine (stackFn_gauge (fun x y i => ?_) _ _ _ _ _ _).symm
  have ex := move_x hR q.1 x i.modNat
  have ey := move_y hR q.2 y i.divNat
  rw [mul_add, mul_add, Complex.exp_add, ← prod_eta i, hD, prod_eta i]
  rw [mul_mul_mul_comm, ex, ey, mul_mul_mul_comm, ← Complex.exp_add, ← Complex.exp_add]
  congr 2
  · push_cast; ring
  · ring

theorem tetm_gauge (hR : Spec.RealIllumination p) (hphi : p.phi = none) (hfy : p.fto.2 = 0) {q : ℝ × ℝ} {D : FlatIdx p.fto.1 p.fto.2 → ℂ} (hD : MovePhases p q D)
    {cs : List (Conv (FlatIdx p.fto.1 p.fto.2))} {r r' : SubRes 1 (2 * p.fto.1 + 1)} {F : Spec.FieldFn Field3}
    (hr : (r.row1 p.fto.2).Scaled (fun j i => D (finProdFinEquiv (j, i))) (r'.row1 p.fto.2))
    (h : ∃ fs, Spec.Diffraction1d p (cs.map Conv.row) r fs ∧
      F = fun k z y x => unsix p.pol (stackFn (Spec.k0Of p) (kxVec p p.wavelength) 0 p.thickness fs k z y x)) :
    ∃ fs, Spec.Diffraction1d p ((cs.map (Conv.gauge D)).map Conv.row) r' fs ∧
      Spec.movedFn Spec.times3 p.period (Spec.phaseAlongX p, Spec.phaseAlongY p) q F
        = fun k z y x => unsix p.pol (stackFn (Spec.k0Of p) (kxVec p p.wavelength) 0 p.thickness fs k z y x) := by
  obtain ⟨fs, h1, rfl⟩ := h
  have h0 : (0 : Fin (2 * p.fto.2 + 1)).val = p.fto.2 := by rw [hfy]; rfl
  have hd : ∀ i, D (rowIdx i) = Spec.shiftPhase (Spec.colOrder i) q.1 := by
    intro i
    have : D (rowIdx i) = _ := hD 0 i
    rw [this]
    have : Spec.rowOrder (0 : Fin (2 * p.fto.2 + 1)) = 0 := by unfold Spec.rowOrder; rw [h0]; simp
    rw [this]
    simp [Spec.shiftPhase]
  have hy0 : Spec.phaseAlongY p = 0 := by
    unfold Spec.phaseAlongY
    rw [hphi]
    simp
  have e : (cs.map (Conv.gauge D)).map Conv.row = (cs.map Conv.row).map (Conv.gauge (D ∘ rowIdx)) := by
    rw [List.map_map, List.map_map]
    congr 1
    funext c
    exact Conv.gauge_row D c
  rw [e]
  refine ⟨_, diffraction1d_gauge (fun i => hD.ne _) (fun i hi => ?_) ⟨fun j i => ?_, fun j i => ?_, fun j i => ?_, fun j i => ?_⟩ h1, ?_⟩
  · show D (rowIdx i) = 1
    rw [hd]
    have : Spec.colOrder i = 0 := by unfold Spec.colOrder; rw [hi]; simp
    rw [this]
    simp [Spec.shiftPhase]
  · obtain rfl : j = 0 := Subsingleton.elim _ _
    exact hr.R_s 0 i
  · obtain rfl : j = 0 := Subsingleton.elim _ _
    exact hr.R_p 0 i
  · obtain rfl : j = 0 := Subsingleton.elim _ _
    exact hr.T_s 0 i
  · obtain rfl : j = 0 := Subsingleton.elim _ _
    exact hr.T_p 0 i
  · funext k z y x
    unfold Spec.movedFn
    rw [← unsix_times]
    congr 1
    refine (stackFn_gauge (fun x y i => ?_) _ _ _ _ _ _).symm
    have ex := move_x hR q.1 x i
    simp only [Pi.zero_apply, mul_zero, add_zero, Function.comp, hd, hy0, ex]

theorem problem_gauge (hR : Spec.RealIllumination p) {q : ℝ × ℝ} {D : FlatIdx p.fto.1 p.fto.2 → ℂ} (hD : MovePhases p q D)
    {cs : List (Conv (FlatIdx p.fto.1 p.fto.2))} {r r' : Solved p.fto.1 p.fto.2} {fields : Spec.Fields Field3}
    (ht : ∀ o, r = .tetm o → p.phi = none ∧ p.fto.2 = 0) (hr : r.result.Scaled D r'.result)
    (h : ProblemFields p cs r fields) : ProblemFields p (cs.map (Conv.gauge D)) r' (fields.moved p q) := by
  obtain ⟨S1, S2, S3⟩ := hr
  cases r with
  | conicalSmm => exact h.elim
  | tetm o =>
    cases fields with
    | vector F G H => exact h.elim
    | tetm F =>
      obtain ⟨hphi, hfy⟩ := ht o rfl
      cases r' with
      | tetm o' =>
        cases S1 with
        | some S1 => exact tetm_gauge hR hphi hfy hD S1 h
      | conical o' => cases S2
      | conicalSmm => cases S1
      | twoD o' => cases S2
  | conical o =>
    cases fields with
    | tetm F => exact h.elim
    | vector F G H =>
      cases r' with
      | tetm o' => cases S2
      | conicalSmm => cases S1
      | conical o' =>
        cases S1 with
        | some S1 => cases S2 with
          | some S2 => cases S3 with
            | some S3 => exact ⟨wave_gauge hR hD S1 h.1, wave_gauge hR hD S2 h.2.1, wave_gauge hR hD S3 h.2.2⟩
      | twoD o' =>
        cases S1 with
        | some S1 => cases S2 with
          | some S2 => cases S3 with
            | some S3 => exact ⟨wave_gauge hR hD S1 h.1, wave_gauge hR hD S2 h.2.1, wave_gauge hR hD S3 h.2.2⟩
  | twoD o =>
    cases fields with
    | tetm F => exact h.elim
    | vector F G H =>
      cases r' with
      | tetm o' => cases S2
      | conicalSmm => cases S1
      | conical o' =>
        cases S1 with
        | some S1 => cases S2 with
          | some S2 => cases S3 with
            | some S3 => exact ⟨wave_gauge hR hD S1 h.1, wave_gauge hR hD S2 h.2.1, wave_gauge hR hD S3 h.2.2⟩
      | twoD o' =>
        cases S1 with
        | some S1 => cases S2 with
          | some S2 => cases S3 with
            | some S3 => exact ⟨wave_gauge hR hD S1 h.1, wave_gauge hR hD S2 h.2.1, wave_gauge hR hD S3 h.2.2⟩

/-- Only the results matter. -/
theorem problem_congr {cs : List (Conv (FlatIdx p.fto.1 p.fto.2))} {r r' : Solved p.fto.1 p.fto.2} {fields : Spec.Fields Field3}
    (hfy : ∀ o, r = .tetm o → p.fto.2 = 0) (hr : r'.result = r.result) (h : ProblemFields p cs r fields) : ProblemFields p cs r' fields := by
  cases r with
  | conicalSmm => exact h.elim
  | tetm o =>
    cases fields with
    | vector F G H => exact h.elim
    | tetm F =>
      cases r' with
      | tetm o' =>
        have e : o'.res.row1 p.fto.2 = o.res.row1 p.fto.2 := Option.some.inj (congrArg Result.res hr)
        obtain ⟨fs, h1, h2⟩ := h
        refine ⟨fs, ?_, h2⟩
        have e1 : o'.res.R_s = o.res.R_s := by
          funext j i; obtain rfl : j = 0 := Subsingleton.elim _ _
          exact congrFun (congrFun (congrArg SubRes.R_s e) 0) i
        have e2 : o'.res.R_p = o.res.R_p := by
          funext j i; obtain rfl : j = 0 := Subsingleton.elim _ _
          exact congrFun (congrFun (congrArg SubRes.R_p e) 0) i
        have e3 : o'.res.T_s = o.res.T_s := by
          funext j i; obtain rfl : j = 0 := Subsingleton.elim _ _
          exact congrFun (congrFun (congrArg SubRes.T_s e) 0) i
        have e4 : o'.res.T_p = o.res.T_p := by
          funext j i; obtain rfl : j = 0 := Subsingleton.elim _ _
          exact congrFun (congrFun (congrArg SubRes.T_p e) 0) i
        unfold Spec.Diffraction1d Spec.above1d Spec.below1d at h1 ⊢
        rw [e1, e2, e3, e4]
        exact h1
      | conical o' => cases congrArg Result.res_te_inc hr
      | conicalSmm => cases congrArg Result.res hr
      | twoD o' => cases congrArg Result.res_te_inc hr
  | conical o =>
    cases fields with
    | tetm F => exact h.elim
    | vector F G H =>
      cases r' with
      | tetm o' => cases congrArg Result.res_te_inc hr
      | conicalSmm => cases congrArg Result.res hr
      | conical o' =>
        have e1 : o'.out.res = o.out.res := Option.some.inj (congrArg Result.res hr)
        have e2 : o'.out.res_te = o.out.res_te := Option.some.inj (congrArg Result.res_te_inc hr)
        have e3 : o'.out.res_tm = o.out.res_tm := Option.some.inj (congrArg Result.res_tm_inc hr)
        exact ⟨e1 ▸ h.1, e2 ▸ h.2.1, e3 ▸ h.2.2⟩
      | twoD o' =>
        have e1 : o'.out.res = o.out.res := Option.some.inj (congrArg Result.res hr)
        have e2 : o'.out.res_te = o.out.res_te := Option.some.inj (congrArg Result.res_te_inc hr)
        have e3 : o'.out.res_tm = o.out.res_tm := Option.some.inj (congrArg Result.res_tm_inc hr)
        exact ⟨e1 ▸ h.1, e2 ▸ h.2.1, e3 ▸ h.2.2⟩
  | twoD o =>
    cases fields with
    | tetm F => exact h.elim
    | vector F G H =>
      cases r' with
      | tetm o' => cases congrArg Result.res_te_inc hr
      | conicalSmm => cases congrArg Result.res hr
      | conical o' =>
        have e1 : o'.out.res = o.out.res := Option.some.inj (congrArg Result.res hr)
        have e2 : o'.out.res_te = o.out.res_te := Option.some.inj (congrArg Result.res_te_inc hr)
        have e3 : o'.out.res_tm = o.out.res_tm := Option.some.inj (congrArg Result.res_tm_inc hr)
        exact ⟨e1 ▸ h.1, e2 ▸ h.2.1, e3 ▸ h.2.2⟩
      | twoD o' =>
        have e1 : o'.out.res = o.out.res := Option.some.inj (congrArg Result.res hr)
        have e2 : o'.out.res_te = o.out.res_te := Option.some.inj (congrArg Result.res_te_inc hr)
        have e3 : o'.out.res_tm = o.out.res_tm := Option.some.inj (congrArg Result.res_tm_inc hr)
        exact ⟨e1 ▸ h.1, e2 ▸ h.2.1, e3 ▸ h.2.2⟩

theorem samplesOf_inj {rx ry rz n : ℕ} {α : Type} {per : ℝ × ℝ} {F : Spec.FieldFn α} {cell cell' : List (Block rx ry rz α)}
    (h : Spec.SamplesOf n per F cell) (h' : Spec.SamplesOf n per F cell') : cell = cell' := by
  apply List.ext_getElem (h.layers.trans h'.layers.symm)
  intro k h1 h2
  funext iz iy ix
  rw [h.value k _ (List.getElem?_eq_getElem h1), h'.value k _ (List.getElem?_eq_getElem h2)]

theorem samplesList_inj {rx ry rz n : ℕ} {α : Type} {per : ℝ × ℝ} {fns : List (Spec.FieldFn α)} {c c' : List (List (Block rx ry rz α))}
    (h : List.Forall₂ (fun f cell => Spec.SamplesOf n per f cell) fns c) (h' : List.Forall₂ (fun f cell => Spec.SamplesOf n per f cell) fns c') :
    c = c' := by
  induction h generalizing c' with
  | nil => cases h'; rfl
  | cons a _ ih =>
    cases h' with
    | cons a' b' => rw [samplesOf_inj a a', ih b']

theorem sampled_inj {rx ry rz n : ℕ} {sel : Bool × Bool × Bool} {fields : Spec.Fields Field3} {cell cell' : FieldCell rx ry rz}
    (h : fields.Sampled p n sel cell) (h' : fields.Sampled p n sel cell') : cell = cell' := by
  cases fields with
  | tetm F =>
    cases cell with
    | vector c => exact h.elim
    | tetm c =>
      cases cell' with
      | vector c' => exact h'.elim
      | tetm c' => exact congrArg _ (samplesOf_inj h h')
  | vector F G H =>
    cases cell with
    | tetm c => exact h.elim
    | vector c =>
      cases cell' with
      | tetm c' => exact h'.elim
      | vector c' =>
        exact congrArg _ (samplesList_inj h h')

end Meent
