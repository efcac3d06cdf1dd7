import Verif.Lemmas.Ellipse
import Verif.Lemmas.Pinv
import Verif.Lemmas.DiscreteConv
import Verif.Lemmas.LayerCount
import Verif.Model.Jax
import Verif.Spec.Pinv
import Verif.Spec.Backends

/-!
# The JAX backend against the NumPy backend (helper lemmas)
-/

set_option linter.unusedSectionVars false
set_option linter.unusedSimpArgs false
set_option linter.unusedVariables false

open Matrix

namespace Meent

/-- Two calls succeed together and with the same value. -/
def Both {α : Type} (x y : Res α) : Prop := Refines x y ∧ Refines y x

theorem Both.refl {α : Type} (x : Res α) : Both x x := ⟨.refl _, .refl _⟩

theorem Both.bind {α β : Type} {x y : Res α} {f g : α → Res β} (h : Both x y) (h' : ∀ a, Both (f a) (g a)) :
    Both (x >>= f) (y >>= g) :=
  ⟨h.1.bind fun a => (h' a).1, h.2.bind fun a => (h' a).2⟩

namespace Jax

variable (env : Env) {n : Type} [Fintype n] [DecidableEq n]

theorem both_inv (A : Matrix n n ℂ) : Both (npInv A) (inv A) := by
  unfold npInv inv
  by_cases h : IsUnit A.det
  · simp only [h, if_true]; exact .refl _
  · simp only [h, if_false]
    exact ⟨fun _ h => by simp at h, fun _ h => by simp at h⟩

theorem both_meeinv (A : Matrix n n ℂ) (b : Bool) : Both (Meent.meeinv env.la A b) (meeinv env A b) := by
  unfold Meent.meeinv meeinv
  cases b
  · exact both_inv A
  · exact .refl _

/-- On the way back the pseudo-inverse may stand in for the inverse. -/
theorem refines_meeinv_false (A : Matrix n n ℂ) (b : Bool) : Refines (meeinv env A false) (Meent.meeinv env.la A b) := by
  cases b
  · exact (both_meeinv env A false).2
  · exact fun M hM => refines_meeinv env.la A M ((both_meeinv env A false).2 M hM)

theorem both_invIf {ι : Type} (b : Bool) (a : ι → Matrix n n ℂ) : Both (Meent.invIf b a) (invIf b a) := by
  unfold Meent.invIf invIf npInvStack
  cases b
  · exact .refl _
  · by_cases h : ∀ i, IsUnit (a i).det
    · simp only [h, if_true, implies_true]; exact .refl _
    · simp only [h, if_false, if_true]
      exact ⟨fun _ h => by simp at h, fun _ h => by simp at h⟩

theorem fancy_eq {N : ℕ} {ι κ : Type} [Fintype ι] [Fintype κ] [DecidableEq ι] [DecidableEq κ]
    {a : Fin N → ℂ} {idx : ι → κ → ℤ} {m : Matrix ι κ ℂ} (h : Meent.fancy a idx = .ok m) : fancy env a idx = m := by
  obtain ⟨h1, h2⟩ := fancy_ok.mp h
  funext r c
  have hs : (pyIdx N (idx r c)).isSome := pyIdx_isSome.mpr (h1 r c)
  rw [h2 r c hs]
  obtain ⟨i, hi⟩ := Option.isSome_iff_exists.mp hs
  simp [fancy, hi]

/-- A NumPy table of reads followed by a computation, against the JAX one. -/
theorem refines_table {α : Type} {N M : ℕ} {ι κ : Type} [Fintype ι] [Fintype κ] [DecidableEq ι] [DecidableEq κ]
    {a : Fin M → Fin N → ℂ} {idx : ι → κ → ℤ} {f g : (Fin M → Matrix ι κ ℂ) → Res α} (h : ∀ x, Refines (f x) (g x)) :
    Refines (forAllFin (fun x => Meent.fancy (a x) idx) >>= f) (g fun x => fancy env (a x) idx) := by
  intro r hr
  obtain ⟨t, ht, hr⟩ := Except.bind_ok.mp hr
  have : (fun x => fancy env (a x) idx) = t := funext fun x => fancy_eq env (forAllFin_ok.mp ht x)
  rw [this]
  exact h _ _ hr

theorem refines_table' {α : Type} {N M : ℕ} {ι κ : Type} [Fintype ι] [Fintype κ] [DecidableEq ι] [DecidableEq κ]
    {a : Fin M → Fin N → ℂ} {idx : ι → κ → ℤ} {f g : (Fin M → Matrix ι κ ℂ) → Res α} (h : ∀ x, Refines (g x) (f x))
    (hr : ∀ r c, -(N : ℤ) ≤ idx r c ∧ idx r c < N) :
    Refines (g fun x => fancy env (a x) idx) (forAllFin (fun x => Meent.fancy (a x) idx) >>= f) := by
  intro r hg
  refine Except.bind_ok.mpr ⟨fun x => fancy env (a x) idx, forAllFin_ok.mpr fun x => ?_, h _ _ hg⟩
  refine fancy_ok.mpr ⟨hr, fun r c hs => ?_⟩
  obtain ⟨i, hi⟩ := Option.isSome_iff_exists.mp hs
  simp [fancy, hi]

theorem refines_table2 {α : Type} {N M : ℕ} {ι κ : Type} [Fintype ι] [Fintype κ] [DecidableEq ι] [DecidableEq κ]
    {a : Fin M → Fin M → Fin N → ℂ} {idx : ι → κ → ℤ} {f g : (Fin M → Fin M → Matrix ι κ ℂ) → Res α}
    (h : ∀ x, Refines (f x) (g x)) :
    Refines (forAllFin (fun x => forAllFin fun y => Meent.fancy (a x y) idx) >>= f) (g fun x y => fancy env (a x y) idx) := by
  intro r hr
  obtain ⟨t, ht, hr⟩ := Except.bind_ok.mp hr
  have : (fun x y => fancy env (a x y) idx) = t :=
    funext fun x => funext fun y => fancy_eq env (forAllFin_ok.mp (forAllFin_ok.mp ht x) y)
  rw [this]
  exact h _ _ hr

theorem refines_table2' {α : Type} {N M : ℕ} {ι κ : Type} [Fintype ι] [Fintype κ] [DecidableEq ι] [DecidableEq κ]
    {a : Fin M → Fin M → Fin N → ℂ} {idx : ι → κ → ℤ} {f g : (Fin M → Fin M → Matrix ι κ ℂ) → Res α}
    (h : ∀ x, Refines (g x) (f x)) (hr : ∀ r c, -(N : ℤ) ≤ idx r c ∧ idx r c < N) :
    Refines (g fun x y => fancy env (a x y) idx) (forAllFin (fun x => forAllFin fun y => Meent.fancy (a x y) idx) >>= f) := by
  intro r hg
  refine Except.bind_ok.mpr ⟨fun x y => fancy env (a x y) idx,
    forAllFin_ok.mpr fun x => forAllFin_ok.mpr fun y => ?_, h _ _ hg⟩
  refine fancy_ok.mpr ⟨hr, fun r c hs => ?_⟩
  obtain ⟨i, hi⟩ := Option.isSome_iff_exists.mp hs
  simp [fancy, hi]

theorem both_invEnd (b : Bool) (A : Matrix n n ℂ) :
    Both (if b then .ok A else npInv A) (if b then .ok A else inv A) := by
  cases b
  · exact both_inv A
  · exact .refl _

theorem refines_dfs2d (cell : Raster) (cx cy : Bool) (fx fy : ℕ) :
    Refines (Meent.dfs2d cell cx cy fx fy) (dfs2d env cell cx cy fx fy) := by
  unfold Meent.dfs2d dfs2d
  refine (Refines.refl _).bind fun cellT => ?_
  refine refines_table env (g := fun t => invIf (cx ^^ cy) t >>= _) fun t => ?_
  refine (both_invIf _ _).1.bind fun conv1d => ?_
  refine refines_table2 env (g := fun t => if cx then .ok (flatten4 (Matrix.of fun r c => t r.1 c.1 r.2 c.2))
    else inv (flatten4 (Matrix.of fun r c => t r.1 c.1 r.2 c.2))) fun t => ?_
  exact (both_invEnd _ _).1

theorem circ_range {f N : ℕ} (h : 2 * f < N) (r c : Fin (2 * f + 1)) :
    -(N : ℤ) ≤ circulant r.val c.val ∧ circulant r.val c.val < N := by
  unfold circulant; omega

theorem refines_dfs2d' (cell : Raster) (cx cy : Bool) (fx fy : ℕ) (hy : 2 * fy < cell.ny) (hx : 2 * fx < cell.nx) :
    Refines (dfs2d env cell cx cy fx fy) (Meent.dfs2d cell cx cy fx fy) := by
  unfold Meent.dfs2d dfs2d
  refine (Refines.refl _).bind fun cellT => ?_
  refine refines_table' env (a := fun x => npfft (fun y => cellT x y / (cell.ny : ℂ)))
    (idx := fun (r c : Fin (2 * fy + 1)) => circulant r.val c.val)
    (g := fun t => invIf (cx ^^ cy) t >>= _) (fun t => ?_) (circ_range hy)
  refine (both_invIf _ _).2.bind fun conv1d => ?_
  refine refines_table2' env (a := fun ry cy => npfft (fun x : Fin cell.nx => conv1d x ry cy / (cell.nx : ℂ)))
    (idx := fun (r c : Fin (2 * fx + 1)) => circulant r.val c.val) (g := fun t => if cx then .ok (flatten4 (Matrix.of fun r c => t r.1 c.1 r.2 c.2))
    else inv (flatten4 (Matrix.of fun r c => t r.1 c.1 r.2 c.2))) (fun t => ?_) (circ_range hx)
  exact (both_invEnd _ _).2

theorem circ_range2 {f : ℕ} (r c : Fin (2 * f + 1)) :
    -((4 * f + 1 : ℕ) : ℤ) ≤ circulant r.val c.val + 2 * (f : ℤ) ∧ circulant r.val c.val + 2 * (f : ℤ) < (4 * f + 1 : ℕ) := by
  unfold circulant; omega

theorem both_cfs2d (cell : VCell) (cx cy : Bool) (fx fy : ℕ) :
    Both (Meent.cfs2d cell cx cy fx fy) (cfs2d env cell cx cy fx fy) := by
  constructor
  · unfold Meent.cfs2d cfs2d
    refine (Refines.refl _).bind fun cellT => ?_
    refine refines_table env (g := fun t => invIf (cx ^^ cy) t >>= _) fun t => ?_
    refine (both_invIf _ _).1.bind fun conv1d => ?_
    refine refines_table2 env (g := fun t => if cx then .ok (flatten4 (Matrix.of fun r c => t r.1 c.1 r.2 c.2))
      else inv (flatten4 (Matrix.of fun r c => t r.1 c.1 r.2 c.2))) fun t => ?_
    exact (both_invEnd _ _).1
  · unfold Meent.cfs2d cfs2d
    refine (Refines.refl _).bind fun cellT => ?_
    refine refines_table' env (a := cfs1 cell.y cellT fy (cell.y (-1)))
      (idx := fun (r c : Fin (2 * fy + 1)) => circulant r.val c.val + 2 * (fy : ℤ))
      (g := fun t => invIf (cx ^^ cy) t >>= _) (fun t => ?_) circ_range2
    refine (both_invIf _ _).2.bind fun conv1d => ?_
    refine refines_table2' env (a := fun ry cy => cfs1 cell.x
        (fun (rc : Fin (2 * fy + 1) × Fin (2 * fy + 1)) x => conv1d x rc.1 rc.2) fx (cell.x (-1)) (ry, cy))
      (idx := fun (r c : Fin (2 * fx + 1)) => circulant r.val c.val + 2 * (fx : ℤ)) (g := fun t => if cx then .ok (flatten4 (Matrix.of fun r c => t r.1 c.1 r.2 c.2))
      else inv (flatten4 (Matrix.of fun r c => t r.1 c.1 r.2 c.2))) (fun t => ?_) circ_range2
    exact (both_invEnd _ _).2

theorem both_convContinuous (c : VCell) (fx fy : ℕ) (b : Bool) :
    Both (Meent.convContinuous env.la c fx fy b) (convContinuous env c fx fy b) := by
  unfold Meent.convContinuous convContinuous
  exact (both_cfs2d env _ _ _ _ _).bind fun _ => (both_cfs2d env _ _ _ _ _).bind fun _ =>
    (both_cfs2d env _ _ _ _ _).bind fun _ => (both_meeinv env _ _).bind fun _ => .refl _

theorem refines_convDiscrete (l : Raster) (fx fy : ℕ) (e : Bool) :
    Refines (Meent.convDiscrete env.la l fx fy e false) (convDiscrete env l fx fy e) := by
  unfold Meent.convDiscrete convDiscrete
  exact (refines_dfs2d env _ _ _ _ _).bind fun _ => (refines_dfs2d env _ _ _ _ _).bind fun _ =>
    (refines_dfs2d env _ _ _ _ _).bind fun _ => (both_meeinv env _ _).1.bind fun _ => .refl _

theorem refines_convDiscrete' (l : Raster) (fx fy : ℕ) (e b : Bool) (hy : 0 < l.ny) (hx : 0 < l.nx) :
    Refines (convDiscrete env l fx fy e) (Meent.convDiscrete env.la l fx fy e b) := by
  obtain ⟨h1, h2, -⟩ := enlarge_spec l fx fy e hy hx
  have h1' : 2 * fy < (enlarge l fx fy e).sq.ny := by show 2 * fy < (enlarge l fx fy e).ny; omega
  have h2' : 2 * fx < (enlarge l fx fy e).sq.nx := by show 2 * fx < (enlarge l fx fy e).nx; omega
  unfold Meent.convDiscrete convDiscrete
  exact (refines_dfs2d' env _ _ _ _ _ h1' h2').bind fun _ => (refines_dfs2d' env _ _ _ _ _ h1' h2').bind fun _ =>
    (refines_dfs2d' env _ _ _ _ _ h1' h2').bind fun _ => (refines_meeinv_false env _ _).bind fun _ => .refl _

theorem Refines.mapM_mem {α β : Type} {f g : α → Res β} {l : List α} (h : ∀ a ∈ l, Refines (f a) (g a)) :
    Refines (l.mapM f) (l.mapM g) := by
  intro r hr
  rw [mapM_ok] at hr ⊢
  induction hr with
  | nil => exact .nil
  | cons h1 _ ih =>
    exact .cons (h _ (by simp) _ h1) (ih fun a ha => h a (by simp [ha]))

theorem refines_ellipse (cx cy lx ly : ℝ) (n : ℂ) (angle : ℝ) (nw nh : ℕ) :
    Refines (Meent.ellipse cx cy lx ly n angle nw nh) (ellipse env cx cy lx ly n angle nw nh) := by
  intro os h
  unfold Meent.ellipse at h
  unfold ellipse
  split at h
  · cases h
  next hn =>
  rw [if_neg hn]
  dsimp only at h ⊢
  cases e0 : argmaxY (nw - 1) (ellipsePt cx cy lx ly angle nw) with
  | none => rw [e0] at h; cases h
  | some h0 =>
    rw [e0] at h
    dsimp only at h ⊢
    cases e : argmaxY (nw - 1) (rollTo (nw - 1) h0 (ellipsePt cx cy lx ly angle nw)) with
    | none => rw [e] at h; cases h
    | some k =>
      rw [e] at h
      dsimp only at h ⊢
      split at h
      next hk =>
        rw [if_pos hk]
        exact h
      · cases h

theorem refines_ellipse' (cx cy lx ly : ℝ) (n : ℂ) (angle : ℝ) (nw nh : ℕ) (hw : 4 ≤ nw) :
    Refines (ellipse env cx cy lx ly n angle nw nh) (Meent.ellipse cx cy lx ly n angle nw nh) := by
  intro os h
  unfold ellipse at h
  unfold Meent.ellipse
  split at h
  · cases h
  next hn =>
  rw [if_neg hn]
  dsimp only at h ⊢
  cases e0 : argmaxY (nw - 1) (ellipsePt cx cy lx ly angle nw) with
  | none => rw [e0] at h; cases h
  | some h0 =>
    rw [e0] at h
    dsimp only at h ⊢
    cases e : argmaxY (nw - 1) (rollTo (nw - 1) h0 (ellipsePt cx cy lx ly angle nw)) with
    | none => rw [e] at h; cases h
    | some k =>
      rw [e] at h
      dsimp only at h ⊢
      have hk : k + 1 < nw - 1 := by
        have := rolled_top e0 e
        omega
      rw [if_pos hk] at h ⊢
      exact h

theorem refines_modeling (period : ℝ × ℝ) (ls : List VLayer) :
    Refines (Meent.modeling_vector_instruction period ls) (modeling_vector_instruction env period ls) := by
  unfold Meent.modeling_vector_instruction modeling_vector_instruction
  refine Refines.bind (.mapM (fun l => Refines.bind ?_ fun _ => .refl _) ls) fun _ => .refl _
  unfold VLayer.objs layerObjs
  refine Refines.bind (.mapM (fun v => ?_) _) fun _ => .refl _
  cases v with
  | ellipse cx cy lx ly n a nw nh => exact refines_ellipse env cx cy lx ly n a nw nh
  | rectangle cx cy lx ly n a nt np => exact .refl _
  | unknown => exact .refl _

theorem refines_modeling' (period : ℝ × ℝ) (ls : List VLayer) (he : Spec.EllipsesSplit (.vector ls)) :
    Refines (modeling_vector_instruction env period ls) (Meent.modeling_vector_instruction period ls) := by
  unfold Meent.modeling_vector_instruction modeling_vector_instruction
  refine Refines.bind (Refines.mapM_mem (fun l hl => Refines.bind ?_ fun _ => .refl _)) fun _ => .refl _
  unfold VLayer.objs layerObjs
  refine Refines.bind (Refines.mapM_mem (fun v hv => ?_)) fun _ => .refl _
  cases v with
  | ellipse cx cy lx ly n a nw nh => exact refines_ellipse' env cx cy lx ly n a nw nh (he ls rfl l hl cx cy lx ly n a nw nh hv)
  | rectangle cx cy lx ly n a nt np => exact .refl _
  | unknown => exact .refl _

theorem refines_convMats (s : Settings) (hp : Spec.NoDiscretePinv s) :
    Refines (Meent.convMats env.la s) (convMats env s) := by
  unfold Meent.convMats convMats Meent.to_conv_mat_raster_continuous Meent.to_conv_mat_vector
    to_conv_mat_raster_continuous to_conv_mat_vector Meent.to_conv_mat_raster_discrete to_conv_mat_raster_discrete
  obtain ⟨p, u, ft, e, al⟩ := s
  cases u with
  | raster u =>
    simp only
    by_cases h0 : ft = 0
    · have : p.use_pinv = false := by
        rcases hp with h | h | ⟨ls, h⟩
        · exact h
        · exact absurd h0 h
        · simp at h
      simp only [h0, if_true, this]
      exact .mapM (fun l => refines_convDiscrete env l _ _ _) _
    · simp only [h0, if_false]
      by_cases h1 : ft = 1
      · simp only [h1, if_true]
        exact .mapM (fun l => (Refines.refl _).bind fun c => (both_convContinuous env c _ _ _).1) _
      · simp only [h1, if_false]; exact .refl _
  | vector ls =>
    exact (refines_modeling env _ ls).bind fun cells => .mapM (fun c => (both_convContinuous env c _ _ _).1) _

theorem refines_convMats' (s : Settings) (hpix : ∀ u, s.ucell = .raster u → 0 < u.ny ∧ 0 < u.nx)
    (he : Spec.EllipsesSplit s.ucell) :
    Refines (convMats env s) (Meent.convMats env.la s) := by
  unfold Meent.convMats convMats Meent.to_conv_mat_raster_continuous Meent.to_conv_mat_vector
    to_conv_mat_raster_continuous to_conv_mat_vector Meent.to_conv_mat_raster_discrete to_conv_mat_raster_discrete
  obtain ⟨p, u, ft, e, al⟩ := s
  cases u with
  | raster u =>
    simp only
    by_cases h0 : ft = 0
    · simp only [h0, if_true]
      refine Refines.mapM_mem fun l hl => ?_
      obtain ⟨v, -, rfl⟩ := List.mem_map.mp hl
      exact refines_convDiscrete' env _ _ _ _ _ (hpix u rfl).1 (hpix u rfl).2
    · simp only [h0, if_false]
      by_cases h1 : ft = 1
      · simp only [h1, if_true]
        exact .mapM (fun l => (Refines.refl _).bind fun c => (both_convContinuous env c _ _ _).2) _
      · simp only [h1, if_false]; exact .refl _
  | vector ls =>
    exact (refines_modeling' env _ ls he).bind fun cells => .mapM (fun c => (both_convContinuous env c _ _ _).2) _

/-! ### The solvers -/

theorem sinTheta_eq (t : ℂ) : sinTheta t = Meent.sinTheta t := rfl

theorem kxVec_eq (p : Params) (wl : ℝ) : kxVec p wl = Meent.kxVec p wl := rfl

theorem kyVec_eq (p : Params) (wl : ℝ) : kyVec p wl = Meent.kyVec p wl := rfl

theorem both_tmmStep (b : Bool) (X W V : Matrix n n ℂ) (s : TState n) :
    Both (Meent.tmmStep env.la b X W V s) (tmmStep env b X W V s) := by
  unfold Meent.tmmStep tmmStep
  exact (both_meeinv env _ _).bind fun _ => (both_meeinv env _ _).bind fun _ => (both_meeinv env _ _).bind fun _ => .refl _

theorem both_1d_2 {pol : ℝ} (h : pol = 0 ∨ pol = 1) (kx : n → ℂ) (c : Conv n) (b : Bool) :
    Both (Meent.transfer_1d_2 env.la pol kx c b) (transfer_1d_2 env pol kx c b) := by
  unfold Meent.transfer_1d_2 transfer_1d_2 cond
  rcases h with rfl | rfl
  · simp only [if_true, ne_eq, not_true_eq_false, if_false]; exact .refl _
  · simp only [one_ne_zero, if_true, ne_eq, not_false_eq_true, if_false]
    exact (both_meeinv env _ _).bind fun _ => .refl _

theorem both_1d_4 {pol : ℝ} (h : pol = 0 ∨ pol = 1) {ff : ℕ} (s : TState (Fin ff)) (kzt kzb : Fin ff → ℂ)
    (theta nt nb : ℂ) (b : Bool) :
    Both (Meent.transfer_1d_4 env.la pol s kzt kzb theta nt nb b) (transfer_1d_4 env pol s kzt kzb theta nt nb b) := by
  unfold Meent.transfer_1d_4 transfer_1d_4 cond
  rcases h with rfl | rfl
  · simp only [if_true, ne_eq, not_true_eq_false, if_false, bind_assoc]
    exact (both_meeinv env _ _).bind fun _ => .refl _
  · simp only [one_ne_zero, if_true, ne_eq, not_false_eq_true, if_false, bind_assoc]
    exact (both_meeinv env _ _).bind fun _ => .refl _

theorem both_1d_1 {pol : ℝ} (h : pol = 0 ∨ pol = 1) (kx : n → ℂ) (nt nb : ℂ) :
    Meent.transfer_1d_1 pol kx nt nb = .ok (transfer_1d_1 pol kx nt nb) := by
  unfold Meent.transfer_1d_1 transfer_1d_1 cond
  rcases h with rfl | rfl <;> simp

theorem refines_getIdx {α : Type} (l : List α) (i : ℕ) : Refines (Meent.getIdx l i) (getIdx env l i) := by
  unfold Meent.getIdx getIdx
  cases l[i]? with
  | some a => exact .refl _
  | none => exact fun _ h => by simp at h

theorem refines_getIdx' {α : Type} (l : List α) (i : ℕ) (h : i < l.length) : Refines (getIdx env l i) (Meent.getIdx l i) := by
  unfold Meent.getIdx getIdx
  rw [List.getElem?_eq_getElem h]
  exact .refl _

theorem refines_loop {S C L : Type} {step step' : C → ℝ → S → Res (S × L)}
    (h : ∀ c d s, Refines (step c d s) (step' c d s)) (convs : List C) (th : List ℝ) :
    ∀ (k : ℕ) (s : S × List L), Refines (Meent.layerLoop step convs th k s) (layerLoop env step' convs th k s)
  | 0, _ => .refl _
  | k + 1, s => by
    simp only [Meent.layerLoop, layerLoop]
    exact (refines_getIdx env _ _).bind fun _ => (refines_getIdx env _ _).bind fun _ => (h _ _ _).bind fun _ =>
      refines_loop h convs th k _

theorem refines_loop' {S C L : Type} {step step' : C → ℝ → S → Res (S × L)}
    (h : ∀ c d s, Refines (step c d s) (step' c d s)) (convs : List C) (th : List ℝ) :
    ∀ (k : ℕ) (s : S × List L), k ≤ convs.length → k ≤ th.length →
      Refines (layerLoop env step convs th k s) (Meent.layerLoop step' convs th k s)
  | 0, _, _, _ => .refl _
  | k + 1, s, h1, h2 => by
    simp only [Meent.layerLoop, layerLoop]
    exact (refines_getIdx' env _ _ (by omega)).bind fun _ => (refines_getIdx' env _ _ (by omega)).bind fun _ =>
      (h _ _ _).bind fun _ => refines_loop' h convs th k _ (by omega) (by omega)

theorem both_step1d {p : Params} (h : p.pol = 0 ∨ p.pol = 1) (k0 : ℝ) (kx : n → ℂ) (c : Conv n) (d : ℝ) (s : TState n) :
    Both (Meent.step1d env.la p k0 kx c d s) (step1d env p k0 kx c d s) := by
  unfold Meent.step1d step1d Meent.transfer_1d_3
  exact (both_1d_2 env h _ _ _).bind fun _ => (both_tmmStep env _ _ _ _ _).bind fun _ => .refl _

theorem both_stepCon (b : Bool) (k0 : ℝ) (kx ky vp : n → ℂ) (c : Conv n) (d : ℝ) (s : TState (n ⊕ n)) :
    Both (Meent.stepCon env.la b k0 kx ky vp c d s) (stepCon env b k0 kx ky vp c d s) := by
  unfold Meent.stepCon stepCon Meent.transfer_1d_conical_2 transfer_1d_conical_2 Meent.transfer_1d_conical_3
    transfer_1d_conical_3
  exact ((both_meeinv env _ _).bind fun _ => (both_meeinv env _ _).bind fun _ => .refl _).bind fun _ =>
    (both_tmmStep env _ _ _ _ _).bind fun _ => .refl _

theorem both_step2d (b : Bool) (k0 : ℝ) (kx ky vp : n → ℂ) (c : Conv n) (d : ℝ) (s : TState (n ⊕ n)) :
    Both (Meent.step2d env.la b k0 kx ky vp c d s) (step2d env b k0 kx ky vp c d s) := by
  unfold Meent.step2d step2d Meent.transfer_2d_2 transfer_2d_2 Meent.transfer_2d_3 transfer_2d_3
  exact ((both_meeinv env _ _).bind fun _ => .refl _).bind fun _ =>
    (both_tmmStep env _ _ _ _ _).bind fun _ => .refl _

theorem both_2d_4 {fx fy : ℕ} (s : TState (FlatIdx fx fy ⊕ FlatIdx fx fy)) (kzt kzb : FlatIdx fx fy → ℂ)
    (psi theta nt nb : ℂ) (b : Bool) :
    Both (Meent.transfer_2d_4 env.la s kzt kzb psi theta nt nb b) (transfer_2d_4 env s kzt kzb psi theta nt nb b) := by
  unfold Meent.transfer_2d_4 transfer_2d_4
  exact (both_meeinv env _ _).bind fun _ => .refl _

theorem refines_solve_1d {p : Params} (h : p.pol = 0 ∨ p.pol = 1) (wl : ℝ) (convs : List (Conv (Fin (2 * p.fto.1 + 1)))) :
    Refines (Meent.solve_1d env.la p wl convs) (solve_1d env p wl convs) := by
  unfold Meent.solve_1d solve_1d
  dsimp only
  rw [both_1d_1 h]
  exact (refines_loop env (fun c d s => (both_step1d env h _ _ c d s).1) _ _ _ _).bind fun _ =>
    (both_1d_4 env h _ _ _ _ _ _ _).1.bind fun _ => .refl _

theorem refines_solve_1d' {p : Params} (h : p.pol = 0 ∨ p.pol = 1) (wl : ℝ) (convs : List (Conv (Fin (2 * p.fto.1 + 1))))
    (hl : p.thickness.length ≤ convs.length) :
    Refines (solve_1d env p wl convs) (Meent.solve_1d env.la p wl convs) := by
  unfold Meent.solve_1d solve_1d
  dsimp only
  rw [both_1d_1 h]
  exact (refines_loop' env (fun c d s => (both_step1d env h _ _ c d s).2) _ _ _ _ hl le_rfl).bind fun _ =>
    (both_1d_4 env h _ _ _ _ _ _ _).2.bind fun _ => .refl _

theorem refines_solve_con (p : Params) (wl : ℝ) (convs : List (Conv (FlatIdx p.fto.1 p.fto.2))) :
    Refines (Meent.solve_1d_conical env.la p wl convs) (solve_1d_conical env p wl convs) := by
  unfold Meent.solve_1d_conical solve_1d_conical
  refine (Refines.refl _).bind fun init => ?_
  refine (refines_loop env (fun c d s => (both_stepCon env _ _ _ _ _ c d s).1) _ _ _ _).bind fun r => ?_
  by_cases h : p.fto.2 ≠ 0
  · rw [if_pos h, if_pos h]; exact .refl _
  · rw [if_neg h, if_neg h]
    exact (both_2d_4 env _ _ _ _ _ _ _ _).1.bind fun _ => .refl _

theorem refines_solve_con' (p : Params) (wl : ℝ) (convs : List (Conv (FlatIdx p.fto.1 p.fto.2)))
    (hl : p.thickness.length ≤ convs.length) :
    Refines (solve_1d_conical env p wl convs) (Meent.solve_1d_conical env.la p wl convs) := by
  unfold Meent.solve_1d_conical solve_1d_conical
  refine (Refines.refl _).bind fun init => ?_
  refine (refines_loop' env (fun c d s => (both_stepCon env _ _ _ _ _ c d s).2) _ _ _ _ hl le_rfl).bind fun r => ?_
  by_cases h : p.fto.2 ≠ 0
  · rw [if_pos h, if_pos h]; exact .refl _
  · rw [if_neg h, if_neg h]
    exact (both_2d_4 env _ _ _ _ _ _ _ _).2.bind fun _ => .refl _

theorem refines_solve_2d (p : Params) (wl : ℝ) (convs : List (Conv (FlatIdx p.fto.1 p.fto.2))) :
    Refines (Meent.solve_2d env.la p wl convs) (solve_2d env p wl convs) := by
  unfold Meent.solve_2d solve_2d
  refine (Refines.refl _).bind fun init => ?_
  refine (refines_loop env (fun c d s => (both_step2d env _ _ _ _ _ c d s).1) _ _ _ _).bind fun r => ?_
  exact (both_2d_4 env _ _ _ _ _ _ _ _).1.bind fun _ => .refl _

theorem refines_solve_2d' (p : Params) (wl : ℝ) (convs : List (Conv (FlatIdx p.fto.1 p.fto.2)))
    (hl : p.thickness.length ≤ convs.length) :
    Refines (solve_2d env p wl convs) (Meent.solve_2d env.la p wl convs) := by
  unfold Meent.solve_2d solve_2d
  refine (Refines.refl _).bind fun init => ?_
  refine (refines_loop' env (fun c d s => (both_step2d env _ _ _ _ _ c d s).2) _ _ _ _ hl le_rfl).bind fun r => ?_
  exact (both_2d_4 env _ _ _ _ _ _ _ _).2.bind fun _ => .refl _

theorem refines_solve_for_conv (s : Settings) (wl : ℝ) (convs : List (Conv (FlatIdx s.p.fto.1 s.p.fto.2))) :
    Refines (Meent.solve_for_conv env.la s wl convs) (solve_for_conv env s wl convs) := by
  unfold Meent.solve_for_conv solve_for_conv
  have hg := fun h : gratingType s = 0 => gratingType_zero h
  generalize gratingType s = g at hg
  generalize s.algo = a
  match g, a with
  | 0, .tmm =>
    obtain ⟨_, -, -, hpol, -⟩ := hg rfl
    exact (refines_solve_1d env hpol _ _).bind fun _ => .refl _
  | 0, .smm => exact .refl _
  | 0, .other => exact .refl _
  | 1, .tmm => exact (refines_solve_con env _ _ _).bind fun _ => .refl _
  | 1, .smm => exact .refl _
  | 1, .other => exact .refl _
  | k + 2, .tmm => exact (refines_solve_2d env _ _ _).bind fun _ => .refl _
  | k + 2, .smm => exact .refl _
  | k + 2, .other => exact .refl _

theorem refines_solve_for_conv' (s : Settings) (wl : ℝ) (convs : List (Conv (FlatIdx s.p.fto.1 s.p.fto.2)))
    (hl : s.p.thickness.length ≤ convs.length) :
    Refines (solve_for_conv env s wl convs) (Meent.solve_for_conv env.la s wl convs) := by
  unfold Meent.solve_for_conv solve_for_conv
  have hg := fun h : gratingType s = 0 => gratingType_zero h
  generalize gratingType s = g at hg
  generalize s.algo = a
  match g, a with
  | 0, .tmm =>
    obtain ⟨_, -, -, hpol, -⟩ := hg rfl
    exact (refines_solve_1d' env hpol _ _ (by simpa using hl)).bind fun _ => .refl _
  | 0, .smm => exact .refl _
  | 0, .other => exact .refl _
  | 1, .tmm => exact (refines_solve_con' env _ _ _ hl).bind fun _ => .refl _
  | 1, .smm => exact .refl _
  | 1, .other => exact .refl _
  | k + 2, .tmm => exact (refines_solve_2d' env _ _ _ hl).bind fun _ => .refl _
  | k + 2, .smm => exact .refl _
  | k + 2, .other => exact .refl _

theorem refines_conv_solve (s : Settings) (hp : Spec.NoDiscretePinv s) :
    Refines (Meent.conv_solve env.la s) (conv_solve env s) := by
  unfold Meent.conv_solve conv_solve
  exact (refines_convMats env s hp).bind fun _ => refines_solve_for_conv env _ _ _

theorem refines_conv_solve' (s : Settings) (hpix : ∀ u, s.ucell = .raster u → 0 < u.ny ∧ 0 < u.nx)
    (he : Spec.EllipsesSplit s.ucell)
    (hl : s.p.thickness.length ≤ Spec.layerCount s.ucell) :
    Refines (conv_solve env s) (Meent.conv_solve env.la s) := by
  intro r hr
  unfold Meent.conv_solve conv_solve at *
  obtain ⟨c, hc, hr⟩ := Except.bind_ok.mp hr
  have hc' := refines_convMats' env s hpix he c hc
  refine Except.bind_ok.mpr ⟨c, hc', refines_solve_for_conv' env _ _ _ ?_ r hr⟩
  rw [convMats_length hc']; exact hl

end Jax

end Meent
