import Verif.Void.BoxObjs
import Verif.Void.Model
import Verif.Box.Split
/-!
# Model of the void boxes of an enclosure

`VoidBox.__init__`, `split` and `piece_enclosure_split` for a box with a piece of an enclosure: `src/geouned/GEOUNED/void/void_box_class.py` 19-37, 39-152; `get_void_def`:
`src/geouned/GEOUNED/void/void.py` 118-164.

What the CAD kernel answers is a parameter (`Kernel`).
-/
namespace Geouned.Void
open Geouned.Box

/-- what is asked of the CAD kernel about the solids of type `S` -/
structure Kernel (S : Type) where
  /-- `optimalBoundingBox()` (void_box_class.py 26-27) -/
  bbox : S → BBox
  /-- 132-140: the distance of the box to the piece, relative to the diagonal of the box, is above the tolerance; also a box without diagonal or without volume (144-145) -/
  far : BBox → S → Bool
  /-- 141-147: the box and what it has in common with the piece have the same volume, up to the tolerance -/
  full : BBox → S → Bool
  /-- 141, 148: `Cube.common(PieceEnclosure).Solids` -/
  common : BBox → S → List S

/-- a `VoidBox`: `BoundBox`, `PieceEnclosure` and what it holds (`Ω`: lists of solids), 19-37 -/
structure PBox (S Ω : Type) where
  box : BBox
  piece : Option S
  objs : Ω

/-- 19-37: the box made of a solid; `sub` selects the objects -/
def ofSolid {S Ω : Type} (K : Kernel S) (sub : BBox → Ω) (s : S) : PBox S Ω := ⟨K.bbox s, some s, sub (K.bbox s)⟩

/-- 122-152 `piece_enclosure_split(Box)`: `none` = no void box. Only the first solid of the common part is used (149). -/
def pieceSplit {S Ω : Type} (K : Kernel S) (sub : BBox → Ω) (s : S) (b : BBox) : Option (PBox S Ω) :=
  if K.far b s then none
  else if K.full b s then some ⟨b, none, sub b⟩
  else
    match K.common b s with
    | [] => none
    | x :: _ => some (ofSolid K sub x)

open Classical in
/-- void.py 132-138 and void_box_class.py 39-120: `many` is the test on the numbers of surfaces and brackets, `sub` the selection of the solids of the new box among those of the box that
is split -/
noncomputable def splitPBox {S Ω : Type} (K : Kernel S) (many : PBox S Ω → Prop) (sub : Ω → BBox → Ω) (minSize : ℝ) (z : PBox S Ω) : Option (List (PBox S Ω)) :=
  if many z then
    (split minSize z.box).map fun p =>
      match z.piece with
      | none => [⟨p.1, none, sub z.objs p.1⟩, ⟨p.2, none, sub z.objs p.2⟩]
      | some s => (pieceSplit K (sub z.objs) s p.1).toList ++ (pieceSplit K (sub z.objs) s p.2).toList
  else none

/-- void.py 118-164 with `Lev0=False`: the boxes of the enclosure `e` that get a void cell -/
noncomputable def enclosureBoxes {S Ω : Type} (K : Kernel S) (many : PBox S Ω → Prop) (sub : Ω → BBox → Ω) (minSize : ℝ) (e : S) (os : Ω) : List (PBox S Ω) :=
  getVoidBoxes (splitPBox K many sub minSize) (ofSolid K (fun b => sub os b) e)

end Geouned.Void
