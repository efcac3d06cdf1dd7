import Verif.Spec.Reciprocity
import Verif.Spec.Image
import Verif.Spec.Shift
import Verif.Spec.Scale

/-!
# Vocabulary for symmetry laws on the other backends (C72)

The amplitudes of the backends follow different conventions, so on PyTorch the laws are about efficiencies.
-/

namespace Meent.Spec

/-- Specular reflection of TE and TM light from one side (`te`, `tm`) and from the opposite side (`te'`, `tm'`): reflectances
without change of polarization are equal, and s to p one way is p to s the other way. -/
structure ReciprocalReflectance {ny nx : ℕ} (te tm te' tm' : SubRes ny nx) (j : Fin ny) (i : Fin nx) : Prop where
  ss : te'.de_ri_s j i = te.de_ri_s j i
  pp : tm'.de_ri_p j i = tm.de_ri_p j i
  sp : tm'.de_ri_s j i = te.de_ri_p j i
  ps : te'.de_ri_p j i = tm.de_ri_s j i

/-- Direct transmission of TE and TM light from above (`te`, `tm`) and, along the same path, from below (`te'`, `tm'`). -/
structure ReciprocalTransmittance {ny nx : ℕ} (te tm te' tm' : SubRes ny nx) (j : Fin ny) (i : Fin nx) : Prop where
  ss : te'.de_ti_s j i = te.de_ti_s j i
  pp : tm'.de_ti_p j i = tm.de_ti_p j i
  sp : tm'.de_ti_s j i = te.de_ti_p j i
  ps : te'.de_ti_p j i = tm.de_ti_s j i

/-- Reciprocity of the specular reflection, for light from one side and from the opposite side.  TE/TM calculations report one
dictionary; conical and 2D calculations report TE and TM incidence too. -/
def ReflectionReciprocity {fx fy : ℕ} (r r' : Result fx fy) : Prop :=
  (∃ x x', r = ⟨some x, none, none⟩ ∧ r' = ⟨some x', none, none⟩ ∧ ∀ j i, rowOrder j = 0 → colOrder i = 0 →
      x'.de_ri_s j i = x.de_ri_s j i ∧ x'.de_ri_p j i = x.de_ri_p j i ∧ x'.de_ri j i = x.de_ri j i) ∨
  (∃ y te tm y' te' tm', r = ⟨some y, some te, some tm⟩ ∧ r' = ⟨some y', some te', some tm'⟩ ∧
      ∀ j i, rowOrder j = 0 → colOrder i = 0 → ReciprocalReflectance te tm te' tm' j i)

/-- Reciprocity of the direct transmission, for light from above and, along the same path, from below. -/
def TransmissionReciprocity {fx fy : ℕ} (r r' : Result fx fy) : Prop :=
  (∃ x x', r = ⟨some x, none, none⟩ ∧ r' = ⟨some x', none, none⟩ ∧ ∀ j i, rowOrder j = 0 → colOrder i = 0 →
      x'.de_ti_s j i = x.de_ti_s j i ∧ x'.de_ti_p j i = x.de_ti_p j i ∧ x'.de_ti j i = x.de_ti j i) ∨
  (∃ y te tm y' te' tm', r = ⟨some y, some te, some tm⟩ ∧ r' = ⟨some y', some te', some tm'⟩ ∧
      ∀ j i, rowOrder j = 0 → colOrder i = 0 → ReciprocalTransmittance te tm te' tm' j i)

/-- The efficiencies in the second result are those in the first with the orders mirrored, for TE and TM incidence and, if the
configured polarizations are mirror images (`same`), for these. -/
def MirrorResults {fx fy : ℕ} (mx my : Bool) (same : Prop) (r r' : Result fx fy) : Prop :=
  (∃ x x', r = ⟨some x, none, none⟩ ∧ r' = ⟨some x', none, none⟩ ∧ MirrorEff mx my x x') ∨
  (∃ y te tm y' te' tm', r = ⟨some y, some te, some tm⟩ ∧ r' = ⟨some y', some te', some tm'⟩ ∧
      MirrorEff mx my te te' ∧ MirrorEff mx my tm tm' ∧ (same → MirrorEff mx my y y'))

end Meent.Spec
