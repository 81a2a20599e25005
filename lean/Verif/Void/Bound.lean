import Verif.Void.Model
import Verif.Box.Spec
import Verif.Geom.Surf
/-!
# Model of the six bound planes of a void box and of the graveyard
`src/geouned/GEOUNED/void/void_box_class.py` 167-183, 376-456 and `src/geouned/GEOUNED/void/void.py` 182-227, in exact real
arithmetic. The registry (`Surfaces.add_plane`, C29, C30, C46) is a parameter.
-/
namespace Geouned.Void
open Geouned.Geom Geouned.Box

/-- position and axis of a plane (`Surf.Position`, `Surf.Axis`) -/
structure Pl where
  (pos axis : Vec)

/-- the box holds the point -/
def InBox (B : BBox) (q : Vec) : Prop := B.Mem ⟨q.x, q.y, q.z⟩

/-- a box with volume -/
def Solid (B : BBox) : Prop := B.xmin < B.xmax ∧ B.ymin < B.ymax ∧ B.zmin < B.zmax

/-- `BoundBox.Center` -/
noncomputable def center (B : BBox) : Vec :=
  ⟨(1 / 2) * (B.xmin + B.xmax), (1 / 2) * (B.ymin + B.ymax), (1 / 2) * (B.zmin + B.zmax)⟩

/-- void_box_class.py 376-456 `get_bound_planes`. The dimensions LX, LY, LZ (380-382, computed from ZMin) are left out:
they only enter the relative tolerance of `is_same_plane`. -/
noncomputable def boundPlanes (B : BBox) : List Pl :=
  let c := center B
  [⟨⟨B.xmin, c.y, c.z⟩, ⟨1, 0, 0⟩⟩, ⟨⟨B.xmax, c.y, c.z⟩, ⟨-1, 0, 0⟩⟩,
   ⟨⟨c.x, B.ymin, c.z⟩, ⟨0, 1, 0⟩⟩, ⟨⟨c.x, B.ymax, c.z⟩, ⟨0, -1, 0⟩⟩,
   ⟨⟨c.x, c.y, B.zmin⟩, ⟨0, 0, 1⟩⟩, ⟨⟨c.x, c.y, B.zmax⟩, ⟨0, 0, -1⟩⟩]

/-- what `Surfaces.add_plane(p)` followed by `get_surface(id)` answers: the number, `exist`, and the registered plane -/
structure Registered where
  id : Nat
  exist : Bool
  surf : Pl

open Classical in
/-- 173-181 (and void.py 218-226): the data of one bound plane; the tolerance of `is_opposite` is its default 1e-6 -/
noncomputable def toBound (c : Vec) (p : Pl) (r : Registered) : BoundPlane :=
  ⟨r.id, r.exist && decide (isOpposite p.axis r.surf.axis (1 / 1000000)),
    decide (isOpposite p.axis (p.pos.sub c) (1 / 1000000))⟩

/-- 169-181: the definition of a box of the void -/
noncomputable def boxDef (B : BBox) (reg : Pl → Registered) : Seq :=
  boxDefOf ((boundPlanes B).map fun p => toBound (center B) p (reg p))

/-- void.py 188: the radius of the graveyard sphere, 0.51 times the diagonal -/
noncomputable def sphRadius (B : BBox) : ℝ :=
  (51 / 100) * Real.sqrt ((B.xmax - B.xmin) ^ 2 + (B.ymax - B.ymin) ^ 2 + (B.zmax - B.zmin) ^ 2)

/-- void.py 182-211 `set_graveyard_cell` of a box; `sph` is the number of the sphere -/
noncomputable def graveyard (B : BBox) (reg : Pl → Registered) (sph : Nat) : M (Seq × Seq) :=
  graveyardCells sph ((boundPlanes B).map fun p => toBound (center B) p (reg p))

end Geouned.Void
