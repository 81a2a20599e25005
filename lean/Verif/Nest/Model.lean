import Verif.BB.Model
/-!
# Model of the bounding box of a nested definition of planes

`src/geouned/GEOReverse/Modules/Utils/boundBox.py` 107-166 (`myBox.add`, `mult`), 258-282 (`copy`), 284-323 (`get_boundBox`, `build_box_depth`).

Simplifications: those of `Verif/BB/Model.lean`; boxes are values (no box of `box_list` is read again after it was changed in place; the sharing itself is the subject of C43);
every surface of the definition has a plane (C114).
-/
namespace Geouned.Nest
open Geouned Geouned.Rev.Solid Geouned.BB

variable {F : Type} [Field F] [LinearOrder F] [IsStrictOrderedRing F]

/-- the attributes of `solid_plane_box` that `copy` hands on (258-277): the planes, `insolid_tolerance`, `universe_box.Box`, `outBox.Box`; and the order in which Python lists the
set of surface numbers of a definition -/
structure Ctx (F : Type) where
  planes : Nat → Plane F
  order : Seq → List Nat
  tol : F
  univ : Box F
  out : Box F

/-- boundBox.py 258-277 `copy(newdefinition)` -/
def Ctx.comp (g : Ctx F) (d : Seq) : Comp F := ⟨g.planes, g.order d, d, g.tol, g.univ, g.out⟩

/-- Python exceptions -/
inductive Err where
  | attributeError | indexError
  deriving DecidableEq

/-- `FreeCAD.BoundBox.add(BoundBox)` -/
def hull (a b : Box F) : Box F :=
  ⟨min a.xmin b.xmin, max a.xmax b.xmax, min a.ymin b.ymin, max a.ymax b.ymax, min a.zmin b.zmin, max a.zmax b.zmax⟩

/-- `FreeCAD.BoundBox.intersected` -/
def inter (a b : Box F) : Box F :=
  ⟨max a.xmin b.xmin, min a.xmax b.xmax, max a.ymin b.ymin, min a.ymax b.ymax, max a.zmin b.zmin, min a.zmax b.zmax⟩

/-- `FreeCAD.BoundBox.isValid()` -/
def valid (a : Box F) : Bool := decide (a.xmin ≤ a.xmax ∧ a.ymin ≤ a.ymax ∧ a.zmin ≤ a.zmax)

/-- boundBox.py 130-142 `add` -/
def add (self box : MBox (Box F)) : MBox (Box F) :=
  match self.box with
  | none => if self.ori = .fwd then box else self
  | some a =>
    match box.box with
    | none => if box.ori = .rev then ⟨none, .rev⟩ else self
    | some b => ⟨some (hull a b), if self.ori ≠ box.ori then .rev else self.ori⟩

/-- boundBox.py 144-166 `mult` -/
def mult (self box : MBox (Box F)) : MBox (Box F) :=
  match self.box with
  | none => if self.ori = .rev then box else self
  | some a =>
    match box.box with
    | none => if box.ori = .fwd then ⟨none, .fwd⟩ else self
    | some b =>
      let r := if self.ori = .rev ∨ box.ori = .rev then some (hull a b) else if valid (inter a b) then some (inter a b) else none
      ⟨r, if self.ori ≠ box.ori then .fwd else self.ori⟩

/-- boundBox.py 311-316: the loop for AND, left when nothing remains -/
def loopAnd (full : MBox (Box F)) : List (MBox (Box F)) → MBox (Box F)
  | [] => full
  | b :: bs =>
    let full' := mult full b
    if full'.box.isNone ∧ full'.ori = .fwd then full' else loopAnd full' bs

/-- boundBox.py 317-321: the loop for OR, left when everything is covered -/
def loopOr (full : MBox (Box F)) : List (MBox (Box F)) → MBox (Box F)
  | [] => full
  | b :: bs =>
    let full' := add full b
    if full'.box.isNone ∧ full'.ori = .rev then full' else loopOr full' bs

/-- boundBox.py 299-300: a definition of level 0. `None` (C78: it is never returned) would raise `AttributeError` at its first use -/
def leaf (g : Ctx F) (d : Seq) : Except Err (MBox (Box F)) :=
  match component (g.comp d) with
  | none => .error .attributeError
  | some m => .ok m

mutual
/-- boundBox.py 297-323 `build_box_depth`; an element that is an integer has no method `copy` -/
def build (g : Ctx F) : Seq → Except Err (MBox (Box F))
  | .int _ => .error .attributeError
  | .boo op l b => if l = 0 then leaf g (.boo op l b) else .ok (if b then ⟨none, .rev⟩ else ⟨none, .fwd⟩)
  | .lst op l es =>
    if l = 0 then leaf g (.lst op l es)
    else
      match buildL g es with
      | .error e => .error e
      | .ok [] => .error .indexError
      | .ok (b :: bs) => .ok (match op with | .and => loopAnd b bs | .or => loopOr b bs)
/-- boundBox.py 305-308: the boxes of the elements -/
def buildL (g : Ctx F) : List Seq → Except Err (List (MBox (Box F)))
  | [] => .ok []
  | e :: es =>
    match build g e with
    | .error e => .error e
    | .ok b =>
      match buildL g es with
      | .error e => .error e
      | .ok bs => .ok (b :: bs)
end

/-- boundBox.py 284-295 `get_boundBox(enlarge)` -/
def boundBox (g : Ctx F) (e : F) (d : Seq) : Except Err (MBox (Box F)) :=
  match build g d with
  | .error x => .error x
  | .ok m =>
    match m.box with
    | none => .ok m
    | some b => .ok (if 0 < e then ⟨some (enlarge b e), m.ori⟩ else m)

end Geouned.Nest
