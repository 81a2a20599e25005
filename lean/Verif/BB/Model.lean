import Verif.BB.Spec
import Verif.Rev.Solid
/-!
# Model of the bounding box of a level-0 definition
`src/geouned/GEOReverse/Modules/Utils/boundBox.py` 240-256 (`isInside`), 284-295 (`get_boundBox`), 325-399
(`get_component_boundBox`, `get_box_orientation`) and 790-971 (the points where planes meet, and their sorting).

Simplifications: arithmetic is exact (an ordered field instead of floating point numbers), the intersections computed by
FreeCAD (`Plane.intersect`, `Line.intersect`, `LineSegment.intersect`) are those of exact geometry, a length is compared
with a number by comparing the squares.
-/
namespace Geouned.BB
open Geouned Geouned.Rev.Solid

variable {F : Type} [Field F] [LinearOrder F] [IsStrictOrderedRing F]

/-- `"x"`, `"y"`, `"z"` -/
inductive Axis where
  | x | y | z
  deriving DecidableEq, Repr

/-- boundBox.py 965-971 `pointaxis` -/
def Pt.ax (p : Pt F) : Axis → F
  | .x => p.x
  | .y => p.y
  | .z => p.z

/-- a `solid_plane_box` object: the planes by number, `definition.get_surfaces_numbers()` in the order of the Python set,
the definition, `insolid_tolerance`, `universe_box.Box` and `outBox.Box` -/
structure Comp (F : Type) where
  planes : Nat → Plane F
  nums : List Nat
  definition : Seq
  tol : F
  univ : Box F
  out : Box F

/-- boundBox.py 241-250: `surf_value`. Simplification: only the surfaces of the definition, the others are not looked up -/
def surfValue (c : Comp F) (p : Pt F) : Known := fun k =>
  if k ∈ c.nums then
    some (if |(c.planes k).ev p| < c.tol then none else some (decide (0 < (c.planes k).ev p)))
  else none

/-- boundBox.py 240-256 `isInside` -/
def isInside (c : Comp F) (p : Pt F) (bi : Bool) : Bool :=
  let inside := evaluate (surfValue c p) c.definition
  let fi := match inside with
    | none => bi
    | some v => v
  if bi then fi else !fi

/-- `FreeCAD.BoundBox.getPoint(i)`, i = 0..7 -/
def Box.points (b : Box F) : List (Pt F) :=
  [⟨b.xmin, b.ymin, b.zmin⟩, ⟨b.xmax, b.ymin, b.zmin⟩, ⟨b.xmax, b.ymax, b.zmin⟩, ⟨b.xmin, b.ymax, b.zmin⟩,
   ⟨b.xmin, b.ymin, b.zmax⟩, ⟨b.xmax, b.ymin, b.zmax⟩, ⟨b.xmax, b.ymax, b.zmax⟩, ⟨b.xmin, b.ymax, b.zmax⟩]

/-- `FreeCAD.BoundBox.getEdge(i)`, i = 0..11 -/
def Box.edges (b : Box F) : List (Pt F × Pt F) :=
  [(⟨b.xmin, b.ymin, b.zmin⟩, ⟨b.xmax, b.ymin, b.zmin⟩), (⟨b.xmax, b.ymin, b.zmin⟩, ⟨b.xmax, b.ymax, b.zmin⟩),
   (⟨b.xmax, b.ymax, b.zmin⟩, ⟨b.xmin, b.ymax, b.zmin⟩), (⟨b.xmin, b.ymax, b.zmin⟩, ⟨b.xmin, b.ymin, b.zmin⟩),
   (⟨b.xmin, b.ymin, b.zmax⟩, ⟨b.xmax, b.ymin, b.zmax⟩), (⟨b.xmax, b.ymin, b.zmax⟩, ⟨b.xmax, b.ymax, b.zmax⟩),
   (⟨b.xmax, b.ymax, b.zmax⟩, ⟨b.xmin, b.ymax, b.zmax⟩), (⟨b.xmin, b.ymax, b.zmax⟩, ⟨b.xmin, b.ymin, b.zmax⟩),
   (⟨b.xmin, b.ymin, b.zmin⟩, ⟨b.xmin, b.ymin, b.zmax⟩), (⟨b.xmax, b.ymin, b.zmin⟩, ⟨b.xmax, b.ymin, b.zmax⟩),
   (⟨b.xmax, b.ymax, b.zmin⟩, ⟨b.xmax, b.ymax, b.zmax⟩), (⟨b.xmin, b.ymax, b.zmin⟩, ⟨b.xmin, b.ymax, b.zmax⟩)]

/-- the string returned by `get_box_orientation` -/
inductive Ori3 where
  | fwd | rev | und
  deriving DecidableEq, Repr

/-- boundBox.py 387-399 `get_box_orientation` -/
def orientation (c : Comp F) : Ori3 :=
  let ninside := (c.univ.points.filter (fun p => isInside c p true)).length
  if ninside = 8 then .rev else if ninside = 0 then .fwd else .und

/-- three planes have one common point: the triple product of the normals is not zero -/
def det (p q r : Plane F) : F := dot (cross p.nrm q.nrm) r.nrm

/-- `p.intersect(q)` is a line (not empty): the planes are not parallel -/
def hasLine (p q : Plane F) : Bool := decide (cross p.nrm q.nrm ≠ ⟨0, 0, 0⟩)

/-- `p.intersect(q)[0].intersect(r)`: the common point of three planes (Cramer's rule), `none` when the line does not cross
the third plane -/
def meet3 (p q r : Plane F) : Option (Pt F) :=
  let d := det p q r
  if d = 0 then none
  else
    let a := dot p.nrm p.pos
    let b := dot q.nrm q.pos
    let e := dot r.nrm r.pos
    let u := cross q.nrm r.nrm
    let v := cross r.nrm p.nrm
    let w := cross p.nrm q.nrm
    some ⟨(a * u.x + b * v.x + e * w.x) / d, (a * u.y + b * v.y + e * w.y) / d, (a * u.z + b * v.z + e * w.z) / d⟩

/-- boundBox.py 801-808, 835-842: the loop over `p3` -/
def loop3 (out : Box F) (p q : Plane F) : List (Plane F) → List (Pt F)
  | [] => []
  | r :: rs =>
    match meet3 p q r with
    | none => loop3 out p q rs
    | some v => if out.Mem v then v :: loop3 out p q rs else loop3 out p q rs

/-- boundBox.py 796-809: the loop over `p2`, without `cutBoundary`; the last argument is `plane_list[j + 1:]`: `j` is not
increased when `continue` is taken -/
def loop2 (out : Box F) (p : Plane F) : List (Plane F) → List (Plane F) → List (Pt F)
  | [], _ => []
  | q :: qs, rest =>
    if hasLine p q then loop3 out p q rest ++ loop2 out p qs rest.tail
    else loop2 out p qs rest

/-- boundBox.py 794-809: the loop over `p1`, `plane_list[0:-2]` -/
def loop1 (out : Box F) : List (Plane F) → List (Pt F)
  | [] => []
  | p :: ps => if ps.length < 2 then [] else loop2 out p ps.dropLast ps.tail ++ loop1 out ps

/-- `Part.LineSegment(a, b).intersect(plane)`: the common point, when there is one only -/
def segMeet (p : Plane F) (a b : Pt F) : Option (Pt F) :=
  let da := p.ev a
  let db := p.ev b
  if da = db then none
  else
    let t := da / (da - db)
    if 0 ≤ t ∧ t ≤ 1 then some ⟨a.x + t * (b.x - a.x), a.y + t * (b.y - a.y), a.z + t * (b.z - a.z)⟩ else none

/-- boundBox.py 848-858 `plane_boundary` -/
def planeBoundary (out : Box F) (p : Plane F) : List (Pt F) :=
  out.edges.filterMap (fun e => segMeet p e.1 e.2)

/-- boundBox.py 812-823: `PXYZ`, the planes of the faces of the box -/
def faces (b : Box F) : List (Axis × Plane F) :=
  [(.x, ⟨⟨b.xmin, 0, 0⟩, ⟨1, 0, 0⟩⟩), (.x, ⟨⟨b.xmax, 0, 0⟩, ⟨1, 0, 0⟩⟩),
   (.y, ⟨⟨0, b.ymin, 0⟩, ⟨0, 1, 0⟩⟩), (.y, ⟨⟨0, b.ymax, 0⟩, ⟨0, 1, 0⟩⟩),
   (.z, ⟨⟨0, 0, b.zmin⟩, ⟨0, 0, 1⟩⟩), (.z, ⟨⟨0, 0, b.zmax⟩, ⟨0, 0, 1⟩⟩)]

/-- boundBox.py 869-877: the point of the plane of a face is in the face -/
def inFace (b : Box F) (a : Axis) (p : Pt F) : Bool :=
  match a with
  | .x => decide ((b.ymin ≤ p.y ∧ p.y ≤ b.ymax) ∧ (b.zmin ≤ p.z ∧ p.z ≤ b.zmax))
  | .y => decide ((b.xmin ≤ p.x ∧ p.x ≤ b.xmax) ∧ (b.zmin ≤ p.z ∧ p.z ≤ b.zmax))
  | .z => decide ((b.xmin ≤ p.x ∧ p.x ≤ b.xmax) ∧ (b.ymin ≤ p.y ∧ p.y ≤ b.ymax))

/-- boundBox.py 863-880: the loop of `line_boundary` on the line of the planes `p`, `q`; the first argument are the points
found so far -/
def lineLoop (out : Box F) (p q : Plane F) : List (Pt F) → List (Axis × Plane F) → List (Pt F)
  | pts, [] => pts
  | pts, f :: fs =>
    match meet3 p q f.2 with
    | none => lineLoop out p q pts fs
    | some v =>
      let pts' := if inFace out f.1 v then pts ++ [v] else pts
      if pts'.length = 2 then pts' else lineLoop out p q pts' fs

/-- boundBox.py 861-880 `line_boundary` -/
def lineBoundary (out : Box F) (p q : Plane F) : List (Pt F) := lineLoop out p q [] (faces out)

/-- boundBox.py 828-842: the loop over `p2` with `cutBoundary`; `rest` is `plane_list[i + 2:]` -/
def cut2 (out : Box F) (p : Plane F) (rest : List (Plane F)) : List (Plane F) → List (Pt F)
  | [] => []
  | q :: qs =>
    if hasLine p q then lineBoundary out p q ++ loop3 out p q rest ++ cut2 out p rest qs
    else cut2 out p rest qs

/-- boundBox.py 825-842: the loop over `p1` with `cutBoundary` -/
def cut1 (out : Box F) : List (Plane F) → List (Pt F)
  | [] => []
  | p :: ps => planeBoundary out p ++ cut2 out p ps.tail ps ++ cut1 out ps

/-- boundBox.py 790-846 `plane_intersect` -/
def planeIntersect (out : Box F) (ps : List (Plane F)) (cut : Bool) : List (Pt F) :=
  if cut then cut1 out ps ++ out.points else loop1 out ps

/-- insertion before the first point that is not smaller -/
def insertPt (a : Axis) (p : Pt F) : List (Pt F) → List (Pt F)
  | [] => [p]
  | q :: qs => if p.ax a ≤ q.ax a then p :: q :: qs else q :: insertPt a p qs

/-- boundBox.py 884-899: the points by increasing coordinate, equal ones in their order in the list. Simplification:
Python's `sort` on the pairs (coordinate, index) is an insertion sort -/
def sorted (a : Axis) : List (Pt F) → List (Pt F)
  | [] => []
  | p :: ps => insertPt a p (sorted a ps)

/-- `(p - q).Length < 0.1` -/
def close (p q : Pt F) : Bool := decide (dot (sub p q) (sub p q) < 1 / 100)

/-- boundBox.py 909-920: the loop of `remove_close_points`, on the list read from its end; `p` is the last point kept -/
def dropClose (p : Pt F) : List (Pt F) → List (Pt F)
  | [] => []
  | q :: qs => if close p q then dropClose p qs else q :: dropClose q qs

/-- boundBox.py 903-922 `remove_close_points` -/
def removeClose (l : List (Pt F)) : List (Pt F) :=
  match l.reverse with
  | [] => []
  | p :: qs => (p :: dropClose p qs).reverse

/-- boundBox.py 883-901 `sort_point` -/
def sortPoint (a : Axis) (l : List (Pt F)) : List (Pt F) := removeClose (sorted a l)

/-- boundBox.py 925-962 `remove_points`: read from the end, up to the first point on the wrong side -/
def removePoints (l : List (Pt F)) (v : F) (a : Axis) (lower : Bool) : List (Pt F) :=
  l.reverse.takeWhile (fun p => if lower then !decide (p.ax a < v) else !decide (v < p.ax a))

/-- the value of `point` after a `for` loop left at the first point found, or not left (`d` is not used for a list that is
not empty): boundBox.py 353-358 -/
def lastPoint (found : Option (Pt F)) (l : List (Pt F)) (d : Pt F) : Pt F :=
  match found with
  | some p => p
  | none => l.getLastD d

/-- boundBox.py 348-366: one axis; the limits found and the points left; `none`: the method returns `None` -/
def phase (ins : Pt F → Bool) (a : Axis) (pts : List (Pt F)) : Option (List F × List (Pt F)) :=
  match sortPoint a pts with
  | [] => none
  | p0 :: s0 =>
    let s := p0 :: s0
    let f1 := s.find? ins
    let s2 := removePoints s ((lastPoint f1 s p0).ax a) a true
    match s2 with
    | [] => none
    | p1 :: _ =>
      let f2 := s2.find? ins
      some ((f1.map (·.ax a)).toList ++ (f2.map (·.ax a)).toList,
        removePoints s2 ((lastPoint f2 s2 p1).ax a) a false)

/-- boundBox.py 347-366: the three axes -/
def phases (ins : Pt F → Bool) : List Axis → List (Pt F) → Option (List F)
  | [], _ => some []
  | a :: as, pts =>
    match phase ins a pts with
    | none => none
    | some (lims, pts') =>
      match phases ins as pts' with
      | none => none
      | some ls => some (lims ++ ls)

/-- what one pass gives: `None`, or a box, or the failure that leads to a second pass or to no box -/
inductive Out (F : Type) where
  | pyNone
  | box (b : Box F)
  | fail
  deriving DecidableEq

/-- boundBox.py 374-385: the box of the six limits -/
def finish (lims : List F) : Out F :=
  match lims with
  | [x0, x1, y0, y1, z0, z1] =>
    if x1 - x0 < 1 / 1000000000000 ∨ y1 - y0 < 1 / 1000000000000 ∨ z1 - z0 < 1 / 1000000000000 then .fail
    else .box ⟨x0, x1, y0, y1, z0, z1⟩
  | _ => .fail

/-- boundBox.py 338-385: the points, their number, the limits; `fwd` is `orientation == "Forward"` -/
def attempt (c : Comp F) (fwd cut : Bool) : Out F :=
  let pts := planeIntersect c.out (c.nums.map c.planes) cut
  if pts.length < 6 then .fail
  else
    match phases (fun p => isInside c p fwd) [.x, .y, .z] pts with
    | none => .pyNone
    | some lims => finish lims

/-- the `myBox` made of a box: boundBox.py 115-124 drops a box with a length that is not larger than 1e-12 -/
def mkBox (b : Box F) (o : Ori) : MBox (Box F) :=
  if b.xmax - b.xmin ≤ 1 / 1000000000000 ∨ b.ymax - b.ymin ≤ 1 / 1000000000000 ∨ b.zmax - b.zmin ≤ 1 / 1000000000000 then ⟨none, o⟩
  else ⟨some b, o⟩

/-- the orientation of the box: boundBox.py 329-335, `"Undefined"` becomes `"Forward"` -/
def boxOri : Ori3 → Ori
  | .rev => .rev
  | _ => .fwd

/-- boundBox.py 325-385 `get_component_boundBox` with `cutBoundary` set; `none` is `None` -/
def componentCut (c : Comp F) : Option (MBox (Box F)) :=
  let o := boxOri (orientation c)
  match attempt c (o = .fwd) true with
  | .pyNone => none
  | .box b => some (mkBox b o)
  | .fail => some ⟨none, o⟩

/-- boundBox.py 325-385 `get_component_boundBox` -/
def component (c : Comp F) : Option (MBox (Box F)) :=
  if orientation c = .und then componentCut c
  else
    let o := boxOri (orientation c)
    match attempt c (o = .fwd) false with
    | .pyNone => none
    | .box b => some (mkBox b o)
    | .fail => componentCut c

/-- boundBox.py 288-294: a box enlarged on every side by a part `e` of its length -/
def enlarge (b : Box F) (e : F) : Box F :=
  let dx := (b.xmax - b.xmin) * e
  let dy := (b.ymax - b.ymin) * e
  let dz := (b.zmax - b.zmin) * e
  ⟨b.xmin - dx, b.xmax + dx, b.ymin - dy, b.ymax + dy, b.zmin - dz, b.zmax + dz⟩

/-- boundBox.py 284-295 `get_boundBox` for a definition of level 0; `none`: `None.Box` raises `AttributeError` -/
def getBoundBox (c : Comp F) (e : F) : Option (MBox (Box F)) :=
  match component c with
  | none => none
  | some m =>
    match m.box with
    | none => some m
    | some b => some (if 0 < e then ⟨some (enlarge b e), m.ori⟩ else m)

end Geouned.BB
