import Verif.Bool.Model
/-!
# Apex planes of oblique cones

Model of `process_cones` (`src/geouned/GEOUNED/core.py` 692-723) and `add_cone_plane` (`conversion/cell_definition.py` 910-939).
A cone that is not along a coordinate axis is written as a quadric, which has two sheets; a plane through the apex is added to the cells that use it.

`planeOf c` stands for the geometry and the registry: `none` for a cone along a coordinate axis (917-922), else the signed number
of the plane through the apex, positive towards the sheet (924-934; registration: C29-C31).
-/
namespace Geouned.Cones

/-- cell_definition.py 910-939; `f` is the recursion budget of `insert_in_sequence` -/
def addConePlane (f : Nat) (planeOf : Nat → Option Int) : List Int → Seq → M Seq
  | [], s => .ok s
  | cid :: cs, s =>
    match planeOf cid.natAbs with
    | none => addConePlane f planeOf cs s
    | some pid =>
      if cid > 0 then do
        let s' ← insertInSequence f s cid (-pid) .or
        addConePlane f planeOf cs s'
      else do
        let s' ← insertInSequence f s cid pid .and
        addConePlane f planeOf cs s'

/-- what `process_cones` reads of a cell -/
structure Cell where
  id : Int
  void : Bool
  /-- `__commentInfo__`: `none`, or the tuple whose second member is `None` or the ids of the solids in the box -/
  info : Option (Option (List Int))
  defn : Seq

/-- core.py 703-706: `cones` is a Python set; `order` gives the order in which it is iterated -/
def voidCones (order : List Int → List Int) (coneInfo : List (Int × List Int)) (ids : List Int) : List Int :=
  order (ids.flatMap fun i => (coneInfo.lookup i).getD [] |>.map fun x => -x)

/-- core.py 694-723, one cell -/
def processCell (f : Nat) (planeOf : Nat → Option Int) (order : List Int → List Int) (coneInfo : List (Int × List Int)) (m : Cell) : M Seq :=
  if (coneInfo.lookup m.id).isNone && !m.void then .ok m.defn
  else
    match m.void, m.info with
    | true, some none => .ok m.defn
    | true, some (some ids) => addConePlane f planeOf (voidCones order coneInfo ids) m.defn
    | true, none => .ok m.defn
    | false, _ => addConePlane f planeOf ((coneInfo.lookup m.id).getD []) m.defn

/-- core.py 692-723 -/
def processCones (f : Nat) (planeOf : Nat → Option Int) (order : List Int → List Int) (coneInfo : List (Int × List Int)) : List Cell → M (List Seq)
  | [] => .ok []
  | m :: ms => do
    let s ← processCell f planeOf order coneInfo m
    let r ← processCones f planeOf order coneInfo ms
    .ok (s :: r)

end Geouned.Cones
