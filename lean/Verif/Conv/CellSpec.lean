import Verif.Conv.CellDef
/-!
# Specification: what the faces of a piece say
-/
namespace Geouned.Conv

/-- the torus, and the second surface -/
def VCut.Holds (σ : Side) : VCut → Prop
  | .whole n => lit σ n = true
  | .cut n m => lit σ n = true ∧ lit σ m = true

/-- the sector -/
def UCut.Holds (σ : Side) : UCut → Prop
  | .closed => True
  | .one a => lit σ a = true
  | .two true a b => lit σ a = true ∨ lit σ b = true
  | .two false a b => lit σ a = true ∧ lit σ b = true

/-- what one face of the piece `faces` asks of a point with sides `σ`: to be on the right side of the surface; and, for a reversed face with additional planes
(a plane for each reversed face on the same surface), to be on the right side of one of these planes -/
def Face.Holds (σ : Side) (faces : List Face) : Face → Prop
  | .ignored => True
  | .oblique => True
  | .reversed _ id plane => lit σ id = true ∧
      (plane.isSome = true → ∃ c p, Face.reversed c id (some p) ∈ faces ∧ lit σ p = true)
  | .torus _ v u => v.Holds σ ∧ u.Holds σ
  | .other _ var => lit σ var = true

/-- the face is translated -/
def Face.Used : Face → Prop
  | .ignored => False
  | .oblique => False
  | _ => True

/-- the region of a piece: all its faces agree; a piece without a translated face is dropped -/
def PieceHolds (σ : Side) (faces : List Face) : Prop :=
  (∃ F ∈ faces, F.Used) ∧ ∀ F ∈ faces, F.Holds σ faces

/-- surfaces are numbered from 1 -/
def Face.Numbered : Face → Prop
  | .ignored => True
  | .oblique => True
  | .reversed _ id plane => id ≠ 0 ∧ ∀ p, plane = some p → p ≠ 0
  | .torus index v u => 0 ≤ index ∧ (match v with | .whole n => n ≠ 0 | .cut n m => n ≠ 0 ∧ m ≠ 0) ∧
      (match u with | .closed => True | .one a => a ≠ 0 | .two _ a b => a ≠ 0 ∧ b ≠ 0)
  | .other _ var => var ≠ 0

/-- the faces of a group of torus faces were given the same limits -/
def SameGroups (faces : List Face) : Prop :=
  ∀ i v u v' u', Face.torus i v u ∈ faces → Face.torus i v' u' ∈ faces → v = v' ∧ u = u'

end Geouned.Conv
