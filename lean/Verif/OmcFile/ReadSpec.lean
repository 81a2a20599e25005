import Verif.OmcFile.Read
import Verif.SurfText.Spec
/-!
# What GEOReverse must read in an OpenMC XML file that GEOUNED has written (specification of C106)
-/
namespace Geouned.OmcFile.Read

open CellText (Arith)

/-- the card is the cell: number, material, region; it is in the universe of the model, and nothing fills it -/
structure CellRead (c : Cell) (k : CellCard) : Prop where
  name : k.name = c.label
  material : k.mat = some c.material
  u : k.u = 0
  fill : k.fill = none
  region : ∀ σ b, Text.CMeans σ k.geom b ↔ b = c.definition.sem σ

/-- the card is the surface: number, kind, and the coefficients, read by `F` -/
structure SurfRead {V : Type} (F : Arith V) (s : Surf) (k : SurfCard V) : Prop where
  name : k.name = s.index
  stype : k.stype = s.ty
  coefs : ∃ ws, SurfText.Spelled s.coeffs ws ∧ List.Forall₂ (fun w v => F.flt w = some v) ws k.scoefs

/-- the coefficients are words, and the words are numbers -/
def Numbers {V : Type} (F : Arith V) (s : Surf) : Prop := ∃ ws, SurfText.Spelled s.coeffs ws ∧ ∀ w ∈ ws, ∃ v, F.flt w = some v

end Geouned.OmcFile.Read
