import Verif.Spec.Orders

/-!
# Specification vocabulary: several periods in one cell (C81)
-/

namespace Meent.Spec

/-- The image repeated `tx` times along the columns and `ty` times along the rows, like `np.tile`. -/
abbrev tiled {ny nx : ℕ} (tx ty : ℕ) (a : Fin ny → Fin nx → ℂ) : Fin (ty * ny) → Fin (tx * nx) → ℂ :=
  fun i j => a i.modNat j.modNat

/-- Every layer repeated. -/
abbrev tileAll (tx ty : ℕ) (u : Ucell) : Ucell := ⟨ty * u.ny, tx * u.nx, u.layers.map (tiled tx ty)⟩

/-- The same structure described with `tx` by `ty` periods of raster `u` in a cell, and truncated at the orders `fto`. -/
abbrev supercell (s : Settings) (u : Ucell) (tx ty : ℕ) (fto : ℕ × ℕ) : Settings :=
  { s with
    ucell := .raster (tileAll tx ty u)
    p := { s.p with fto := fto, period := (tx * s.p.period.1, ty * s.p.period.2) } }

/-- The truncation `fto'` of the larger cell keeps exactly the orders `-f … f` of the structure, which are the orders
`-t f, -t (f - 1), …, t f` of the larger cell. -/
def SameOrders (t f f' : ℕ) : Prop := f' / t = f

/-- The image has pixels enough for the discrete Fourier coefficients, so that none is repeated. -/
def EnoughPixels (s : Settings) (u : Ucell) : Prop :=
  s.enhanced_dfs = false ∧ 4 * s.p.fto.1 < u.nx ∧ 4 * s.p.fto.2 < u.ny

/-- The values `d'` of the larger cell are the values `d` of the structure at the orders that are multiples of `tx` and `ty`,
and zero at the others. -/
def AtMultiples {α : Type} [Zero α] (tx ty : ℕ) {fx fy fx' fy' : ℕ} (d : Fin (2 * fy + 1) → Fin (2 * fx + 1) → α)
    (d' : Fin (2 * fy' + 1) → Fin (2 * fx' + 1) → α) : Prop :=
  (∀ j i j' i', rowOrder j' = ty * rowOrder j → colOrder i' = tx * colOrder i → d' j' i' = d j i) ∧
  ∀ j' i', ¬ ((ty : ℤ) ∣ rowOrder j' ∧ (tx : ℤ) ∣ colOrder i') → d' j' i' = 0

/-- The result `r'` of the larger cell holds the efficiencies of `r` at those orders, and nothing else. -/
structure SupercellEff (tx ty : ℕ) {fx fy fx' fy' : ℕ} (r : SubRes (2 * fy + 1) (2 * fx + 1))
    (r' : SubRes (2 * fy' + 1) (2 * fx' + 1)) : Prop where
  de_ri_s : AtMultiples tx ty r.de_ri_s r'.de_ri_s
  de_ri_p : AtMultiples tx ty r.de_ri_p r'.de_ri_p
  de_ri : AtMultiples tx ty r.de_ri r'.de_ri
  de_ti_s : AtMultiples tx ty r.de_ti_s r'.de_ti_s
  de_ti_p : AtMultiples tx ty r.de_ti_p r'.de_ti_p
  de_ti : AtMultiples tx ty r.de_ti r'.de_ti

/-- The same for the amplitudes as well. -/
structure SupercellResult (tx ty : ℕ) {fx fy fx' fy' : ℕ} (r : SubRes (2 * fy + 1) (2 * fx + 1))
    (r' : SubRes (2 * fy' + 1) (2 * fx' + 1)) : Prop extends SupercellEff tx ty r r' where
  R_s : AtMultiples tx ty r.R_s r'.R_s
  R_p : AtMultiples tx ty r.R_p r'.R_p
  T_s : AtMultiples tx ty r.T_s r'.T_s
  T_p : AtMultiples tx ty r.T_p r'.T_p

/-- All dictionaries of the results are related, and the same ones are present. -/
def SupercellReport (tx ty : ℕ) {fx fy fx' fy' : ℕ} (r : Result fx fy) (r' : Result fx' fy') : Prop :=
  Option.Rel (SupercellResult tx ty) r.res r'.res ∧ Option.Rel (SupercellResult tx ty) r.res_te_inc r'.res_te_inc ∧
  Option.Rel (SupercellResult tx ty) r.res_tm_inc r'.res_tm_inc

/-- The same for the efficiencies alone. -/
def SupercellEffs (tx ty : ℕ) {fx fy fx' fy' : ℕ} (r : Result fx fy) (r' : Result fx' fy') : Prop :=
  Option.Rel (SupercellEff tx ty) r.res r'.res ∧ Option.Rel (SupercellEff tx ty) r.res_te_inc r'.res_te_inc ∧
  Option.Rel (SupercellEff tx ty) r.res_tm_inc r'.res_tm_inc

end Meent.Spec
