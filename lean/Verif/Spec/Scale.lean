import Verif.Model.Rcwa

/-!
# Specification vocabulary: rescaling all lengths
-/

namespace Meent.Spec

/-- A drawing instruction with all lengths multiplied by `c`. -/
noncomputable def scaleInstr (c : ℝ) : VInstr → VInstr
  | .rectangle cx cy lx ly n angle nt np => .rectangle (c * cx) (c * cy) (c * lx) (c * ly) n angle nt np
  | .ellipse cx cy lx ly n angle nw nh => .ellipse (c * cx) (c * cy) (c * lx) (c * ly) n angle nw nh
  | .unknown => .unknown

/-- A structure with all lengths multiplied by `c`.  A raster holds no lengths: its pixels divide the period. -/
noncomputable def scaleStructure (c : ℝ) : Structure → Structure
  | .raster u => .raster u
  | .vector ls => .vector (ls.map fun l => ⟨l.base, l.instrs.map (scaleInstr c)⟩)

/-- The same problem with wavelength, periods, thicknesses (and drawn objects) multiplied by `c`. -/
noncomputable abbrev scaled (c : ℝ) (s : Settings) : Settings :=
  { s with
    p := { s.p with
      wavelength := c * s.p.wavelength
      period := (c * s.p.period.1, c * s.p.period.2)
      thickness := s.p.thickness.map (c * ·) }
    ucell := scaleStructure c s.ucell }

end Meent.Spec
