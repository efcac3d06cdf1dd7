import Verif.Spec.Grid
import Verif.Spec.Sides
import Verif.Spec.Backends
import Verif.Spec.Passive
import Verif.Model.Torch

/-!
# Vocabulary for anisotropic pixels (PyTorch, C69)
-/

namespace Meent.Spec

/-- The isotropic problem whose pixels are one component of an anisotropic raster. -/
def component (s : TSettings) (u : Ucell3) (k : Fin 3) : Settings :=
  { p := s.p, ucell := .raster ⟨u.ny, u.nx, u.layers.map fun l => l k⟩, fourier_type := s.fourier_type,
    enhanced_dfs := s.enhanced_dfs, algo := s.algo }

/-- The anisotropic raster whose three components all are `u`. -/
def threefold (u : Ucell) : Ucell3 := ⟨u.ny, u.nx, u.layers.map fun l _ => l⟩

/-- The same settings with another structure. -/
abbrev withCell (s : TSettings) (c : TStructure) : TSettings := { s with ucell := c }

/-- An anisotropic raster of ordinary media: each component of each pixel is `n - i k` with `n > 0`, `k ≥ 0`. -/
structure OrdinaryAniso (s : TSettings) (u : Ucell3) : Prop where
  cell : s.ucell = .aniso u
  rows : 0 < u.ny
  columns : 0 < u.nx
  coefficients : s.fourier_type = 0 ∨ s.fourier_type = 1
  media : ∀ l ∈ u.layers, ∀ k i j, OrdinaryMedium (l k i j)

/-- No matrix that is inverted on the way is singular, so PyTorch never falls back on a pseudo-inverse; and no eigenvalue of a 2D solve
is so small that PyTorch replaces it. The solvers that raise instead of falling back are NumPy's. -/
def NoFallback (la : LinAlg) (s : TSettings) (cs : List (Conv (FlatIdx s.p.fto.1 s.p.fto.2))) : Prop :=
  (tGratingType s = 0 → ∃ o, solve_1d la s.p s.p.wavelength (cs.map Conv.row) = .ok o) ∧
  (tGratingType s = 2 → ∃ o, solve_2d la s.p s.p.wavelength cs = .ok o ∧ ∀ l ∈ o.infos, ∀ i, 1 / 10 ^ 10 ≤ ‖l.modes.q i‖)

/-- One component of an index: a number stands for three equal components. -/
def indexAt (k : Fin 3) : AIndex → ℂ
  | .scalar n => n
  | .vector v => v k

/-- The instruction with one component of its index. -/
def instrAt (k : Fin 3) : AInstr → VInstr
  | .rectangle cx cy lx ly n a nt np => .rectangle cx cy lx ly (indexAt k n) a nt np
  | .ellipse cx cy lx ly n a nw nh => .ellipse cx cy lx ly (indexAt k n) a nw nh
  | .unknown => .unknown

/-- The isotropic vector layer that keeps one component of every index. -/
def layerAt (k : Fin 3) (l : AVLayer) : VLayer := ⟨indexAt k l.base, l.instrs.map (instrAt k)⟩

/-- The isotropic problem whose vector layers keep one component of every index. -/
def vectorAt (s : TSettings) (ls : List AVLayer) (k : Fin 3) : Settings :=
  { p := s.p, ucell := .vector (ls.map (layerAt k)), fourier_type := s.fourier_type, enhanced_dfs := s.enhanced_dfs, algo := s.algo }

/-- One component of a drawn layer; a layer drawn without a third axis is each of its components. -/
def cellAt (k : Fin 3) : ALayer → VCell
  | .iso c => c
  | .aniso c => c k

/-- The indices used in a layer: its base index and those of its instructions. -/
def UsedIndex (l : AVLayer) (a : AIndex) : Prop :=
  a = l.base ∨ ∃ cx cy lx ly angle n m, AInstr.rectangle cx cy lx ly a angle n m ∈ l.instrs ∨ AInstr.ellipse cx cy lx ly a angle n m ∈ l.instrs

/-- `t` is the index triple of the last object covering the point, or the base triple if there is none. -/
def TriplePaintedAs (base : AIndex) (os : List (VObj × AIndex)) (x y : ℝ) (t : Fin 3 → ℂ) : Prop :=
  (∃ before o after, os = before ++ o :: after ∧ Covers o.1 x y ∧ (∀ o' ∈ after, ¬ Covers o'.1 x y) ∧ ∀ k, t k = indexAt k o.2) ∨
  ((∀ o ∈ os, ¬ Covers o.1 x y) ∧ ∀ k, t k = indexAt k base)

/-- Vector layers of ordinary media in all three components, whose shapes can be drawn, lie inside the unit cell and share no edge. -/
structure OrdinaryVector (s : TSettings) (ls : List AVLayer) : Prop where
  cell : s.ucell = .avector ls
  drawn : ∃ ds, aModeling_vector_instruction s.p.period ls = .ok ds
  geometry : ∀ l ∈ ls, ∀ os, l.objs = .ok os → (∀ o ∈ os, Inside s.p.period o.1) ∧ (rowEdges (os.map Prod.fst)).Nodup ∧
    (colEdges (os.map Prod.fst)).Nodup
  media : ∀ l ∈ ls, ∀ a, UsedIndex l a → ∀ k, OrdinaryMedium (indexAt k a)

/-- An isotropic instruction, every index a number. -/
def plainInstr : VInstr → AInstr
  | .rectangle cx cy lx ly n a nt np => .rectangle cx cy lx ly (.scalar n) a nt np
  | .ellipse cx cy lx ly n a nw nh => .ellipse cx cy lx ly (.scalar n) a nw nh
  | .unknown => .unknown

/-- An isotropic layer, every index a number. -/
def plainLayer (l : VLayer) : AVLayer := ⟨.scalar l.base, l.instrs.map plainInstr⟩

end Meent.Spec
