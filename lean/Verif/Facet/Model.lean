import Verif.Facet.Spec
import Verif.Bool.Model
/-!
# Model of the conversion of faceted solids (option `Facets`)

`src/geouned/GEOUNED/cuboid/translate.py`: `commonEdge` (15-20), `isConvex` (23-41), `removeElement` (44-48), `set_definition` (121-175).

Exact arithmetic in an ordered field; the direction of an edge is taken as normalised data. `get_id` with `surfaces.get_surface` and `is_opposite` are the parameters of
`Cad`.
-/
namespace Geouned.Facet
open Geouned Geouned.BB

variable {F : Type} [Field F] [LinearOrder F] [IsStrictOrderedRing F]

/-- translate.py 15-20 `commonEdge` -/
def commonEdge (f g : Face F) : Option (Edge F) := f.edges.find? fun e => g.edges.any fun e' => e.key == e'.key

/-- `-v` -/
def neg (v : Pt F) : Pt F := ⟨-v.x, -v.y, -v.z⟩

/-- translate.py 23-41 `isConvex(face1, face2, edge)` -/
def isConvex (f g : Face F) (e : Edge F) : Bool :=
  let axis := cross e.dir g.surf.nrm
  let point : Pt F := ⟨e.mid.x + 1 / 10 * axis.x, e.mid.y + 1 / 10 * axis.y, e.mid.z + 1 / 10 * axis.z⟩
  let axis := if g.inside point then axis else neg axis
  if dot f.surf.nrm axis < 0 then f.orient == some true else f.orient == some false

/-- translate.py 142-149: the signed number of a face; `s.Surf` fails when the plane is not found -/
def faceId (C : Cad F) (inverted : Bool) (f : Face F) : M Int :=
  match C.getSurface (C.getId f) with
  | none => .error .attributeError
  | some s =>
    let id : Int := C.getId f
    let id := if C.opposite f.surf.nrm s.nrm then -id else id
    let id := if f.orient = some true then -id else id
    .ok (if inverted then -id else id)

/-- translate.py 130-150: the loop over the faces -/
def collect (C : Cad F) (inverted : Bool) : List (Face F) → M (List (Int × Face F))
  | [] => .ok []
  | f :: fs =>
    if |f.area| < 1 / 100 then collect C inverted fs
    else if f.planar = false then collect C inverted fs
    else if f.orient = none then collect C inverted fs
    else do
      let id ← faceId C inverted f
      let r ← collect C inverted fs
      .ok ((id, f) :: r)

/-- translate.py 44-48 `removeElement(Faces, idf)` -/
def removeElement (id : Int) (fs : List (Int × Face F)) : List (Int × Face F) := fs.eraseP fun f => f.1 == id

/-- translate.py 154-160: the numbers of the faces that meet face `f` in an edge that is not convex -/
def noConvex (f : Face F) : List (Int × Face F) → List Int
  | [] => []
  | g :: gs =>
    match commonEdge f g.2 with
    | none => noConvex f gs
    | some e => if isConvex f g.2 e then noConvex f gs else g.1 :: noConvex f gs

/-- translate.py 152-171: the `while` loop, with `subSol` and the faces left; `k`: passes allowed -/
def faceLoop : Nat → Seq → List (Int × Face F) → M Seq
  | _, s, [] => .ok s
  | 0, _, _ :: _ => .error .recursion
  | k + 1, s, f :: fs =>
    match noConvex f.2 fs with
    | [] => do
      let s' ← s.append [.int f.1]
      faceLoop k s' (removeElement f.1 (f :: fs))
    | n :: ns => do
      let o ← (Seq.lst .or 0 []).append ((f.1 :: n :: ns).map .int)
      let s' ← s.append [.seq o]
      faceLoop k s' ((f.1 :: n :: ns).foldl (fun l i => removeElement i l) (f :: fs))

/-- translate.py 126-171: one solid -/
def solidDef (C : Cad F) (s : Solid F) : M Seq := do
  let fs ← collect C s.inverted s.faces
  faceLoop fs.length (.lst .and 0 []) fs

/-- translate.py 123-173: the loop over the solids, with `s_def` -/
def solidsLoop (C : Cad F) : Seq → List (Solid F) → M Seq
  | d, [] => .ok d
  | d, s :: ss => do
    let x ← solidDef C s
    let d' ← d.append [.seq x]
    solidsLoop C d' ss

/-- translate.py 121-175 `set_definition`: the definition -/
def setDefinition (C : Cad F) (solids : List (Solid F)) : M Seq := solidsLoop C (.lst .or 0 []) solids

end Geouned.Facet
