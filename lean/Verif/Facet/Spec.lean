import Mathlib.Logic.Relation
import Verif.BB.Spec
import Verif.Bool.Spec
/-!
# Specification: solids with plane faces

A solid is described by its faces: each lies in a plane, and the solid is on one side of it. This file mentions no function of the code. Points, planes and scalar
products are those of `BB/Spec.lean`, over any ordered field.
-/
namespace Geouned.Facet
open Geouned Geouned.BB

variable {F : Type} [Field F] [LinearOrder F] [IsStrictOrderedRing F]

/-- an edge of a face: the identity of the CAD object, the direction from its first to its last point (of length 1), its middle -/
structure Edge (F : Type) where
  key : Nat
  dir : Pt F
  mid : Pt F

/-- a face: the plane of its surface (point, axis of length 1), its orientation (`some true`: "Forward", `some false`: "Reversed", `none`: something else), its area,
whether its surface is a plane, its edges, and the answer of the CAD kernel to "is this point in the face?" -/
structure Face (F : Type) where
  surf : Plane F
  orient : Option Bool
  area : F
  planar : Bool
  edges : List (Edge F)
  inside : Pt F → Bool

/-- a solid: its faces, and whether it is inside out (the normals of the faces point into the material) -/
structure Solid (F : Type) where
  faces : List (Face F)
  inverted : Bool

/-- the faces that count: plane, with an orientation, and an area of at least 0.01 mm² -/
def Face.Counts (f : Face F) : Prop := 1 / 100 ≤ |f.area| ∧ f.planar = true ∧ f.orient.isSome = true

instance (f : Face F) : Decidable f.Counts := by unfold Face.Counts; infer_instance

/-- the axis of the plane points out of the solid: orientation "Forward" for a solid that is not inside out, "Reversed" for one that is -/
def Face.AxisOut (inverted : Bool) (f : Face F) : Prop := f.orient = some !inverted

instance (inverted : Bool) (f : Face F) : Decidable (f.AxisOut inverted) := by unfold Face.AxisOut; infer_instance

/-- the point is on the side of the face where the material is -/
def Face.Inner (inverted : Bool) (f : Face F) (p : Pt F) : Prop :=
  if f.AxisOut inverted then f.surf.ev p < 0 else 0 < f.surf.ev p

/-- the point is on no plane of a face -/
def Off (s : Solid F) (p : Pt F) : Prop := ∀ f ∈ s.faces, f.surf.ev p ≠ 0

/-- the faces that count, in their order -/
def Solid.used (s : Solid F) : List (Face F) := s.faces.filter fun f => decide f.Counts

/-- `w` is the direction from the edge into the face: at right angles to the edge, in the plane of the face, and 0.1 mm from the middle of the edge the face is found on
this side only -/
def Into (e : Edge F) (f : Face F) (w : Pt F) : Prop :=
  ((w = cross e.dir f.surf.nrm) ∨ w = ⟨-(cross e.dir f.surf.nrm).x, -(cross e.dir f.surf.nrm).y, -(cross e.dir f.surf.nrm).z⟩) ∧
    f.inside ⟨e.mid.x + 1 / 10 * w.x, e.mid.y + 1 / 10 * w.y, e.mid.z + 1 / 10 * w.z⟩ = true ∧
    f.inside ⟨e.mid.x - 1 / 10 * w.x, e.mid.y - 1 / 10 * w.y, e.mid.z - 1 / 10 * w.z⟩ = false

/-- the edge is convex: going from it into the other face one goes to the inner side of face `f` -/
def ConvexEdge (inverted : Bool) (e : Edge F) (f : Face F) (w : Pt F) : Prop :=
  f.Inner inverted ⟨e.mid.x + w.x, e.mid.y + w.y, e.mid.z + w.z⟩

/-- an edge of `f` that `g` has, too -/
def Shared (f g : Face F) (e : Edge F) : Prop := e ∈ f.edges ∧ ∃ e' ∈ g.edges, e.key = e'.key

/-- the faces meet in an edge that is not convex -/
def Reentrant (inverted : Bool) (f g : Face F) : Prop := ∃ e, Shared f g e ∧ ∃ w, Into e g w ∧ ¬ConvexEdge inverted e f w

/-- what is asked of two faces: where they meet in an edge, the middle of the edge is in the plane of the first one, the second one is at least 0.1 mm wide there and is
not in the plane of the first; and if they meet in several edges, these are alike -/
def Tidy (inverted : Bool) (f g : Face F) : Prop :=
  (∀ e, Shared f g e → f.surf.ev e.mid = 0 ∧ ∃ w, Into e g w ∧ f.surf.ev ⟨e.mid.x + w.x, e.mid.y + w.y, e.mid.z + w.z⟩ ≠ 0) ∧
    (Reentrant inverted f g → ∀ e, Shared f g e → ∀ w, Into e g w → ¬ConvexEdge inverted e f w)

/-- what is asked of the CAD solid: any two of its faces are as above -/
def Regular (s : Solid F) : Prop := s.used.Pairwise fun f g => Tidy s.inverted f g ∧ Tidy s.inverted g f

/-- the faces that count, sorted into groups (`fs`: with the number of the group), describe the region `R`: a point is in `R` when every group has a face on whose inner
side the point is. (A convex solid: each face is a group. A notch: the faces of the notch are a group.) -/
structure Layout (s : Solid F) (R : Pt F → Prop) (fs : List (Face F × Nat)) : Prop where
  faces : fs.map Prod.fst = s.used
  region : ∀ p, Off s p → (R p ↔ ∀ f ∈ fs, ∃ g ∈ fs, g.2 = f.2 ∧ g.1.Inner s.inverted p)

/-- the groups are the sets of faces connected by edges that are not convex -/
def Connected (inverted : Bool) (fs : List (Face F × Nat)) : Prop :=
  ∀ f ∈ fs, ∀ g ∈ fs, f.2 = g.2 ↔
    Relation.ReflTransGen (fun a b => a ∈ fs ∧ b ∈ fs ∧ (Reentrant inverted a.1 b.1 ∨ Reentrant inverted b.1 a.1)) f g

/-- the first face of each group meets all the others of its group, and no later face of another group, in edges that are not convex -/
def LedByFirst (inverted : Bool) (fs : List (Face F × Nat)) : Prop :=
  ∀ pre f post, fs = pre ++ f :: post → (∀ h ∈ pre, h.2 ≠ f.2) → ∀ g ∈ post, (g.2 = f.2 ↔ Reentrant inverted f.1 g.1)

/-- a face that is not alone in its group has an inner side that no other face has -/
def OwnPlanes (inverted : Bool) (fs : List (Face F × Nat)) : Prop :=
  ∀ pre f post, fs = pre ++ f :: post → (∃ g ∈ pre ++ post, g.2 = f.2) → ∀ g ∈ pre ++ post, ∃ p, ¬(f.1.Inner inverted p ↔ g.1.Inner inverted p)

/-- `get_id(face.Surface, …)` (66-88; 0 if there is no such plane), `surfaces.get_surface(id)` (`none` is Python's `None`), `is_opposite` -/
structure Cad (F : Type) where
  getId : Face F → Nat
  getSurface : Nat → Option (Plane F)
  opposite : Pt F → Pt F → Bool

/-- the plane of the face is in the registry; `opposite` tells whether the two normals are opposite -/
def Known (C : Cad F) (f : Face F) : Prop :=
  C.getId f ≠ 0 ∧ ∃ s, C.getSurface (C.getId f) = some s ∧ ∀ p, s.ev p = if C.opposite f.surf.nrm s.nrm then -f.surf.ev p else f.surf.ev p

/-- the side of each surface of the registry a point is on -/
def side (C : Cad F) (p : Pt F) : Side := fun n => match C.getSurface n with
  | none => false
  | some s => decide (0 < s.ev p)

end Geouned.Facet
