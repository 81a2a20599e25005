import Verif.Bool.Spec
/-!
# Specification: the solid of a cell of an MCNP or OpenMC file (GEOReverse)

What is said here mentions no function of the code: the CAD kernel and what is assumed of it, and the kinds of cell
definitions for which the property is proved.
-/
namespace Geouned.Rev.Solid

/-- `"Forward"` (the region is inside its box) and `"Reversed"` (the complement of the region is) -/
inductive Ori where
  | fwd
  | rev
  deriving DecidableEq, Repr

/-- `myBox`: a box, or none, with an orientation -/
structure MBox (Bx : Type) where
  box : Option Bx
  ori : Ori

/-- the CAD kernel and the geometric routines that GEOReverse builds on: `α` points, `S` solids, `Bx` boxes, `Sh` faces -/
structure Kernel (α S Bx Sh : Type) where
  /-- is the point on the positive side of the surface (`surface_side`) -/
  side : Nat → α → Bool
  /-- is the surface a plane (`s.type == "plane"`) -/
  isPlane : Nat → Bool
  /-- `s.buildShape(box)`: the face of the surface in a box, `None` if the surface does not cross it -/
  shape : Nat → Bx → Option Sh
  /-- `BOPTools.SplitAPI.slice(solid, face).Solids`; `none`: it raises an exception -/
  slice : S → Sh → Option (List S)
  /-- `abs(Volume / Area) < 1e-2` -/
  sliver : S → Bool
  /-- `abs(Volume) < 1e-3` -/
  small : S → Bool
  /-- `point_inside` -/
  inner : S → Option α
  /-- `solid.BoundBox` -/
  box : S → Bx
  /-- a length of the box is smaller than `1e-6` -/
  thin : Bx → Bool
  /-- `Part.makeBox` -/
  makeBox : Bx → S
  /-- two boxes (`myBox`, Forward) have a common part: the box is not `None` after `mult` -/
  meet : Bx → Bx → Bool
  /-- `FuseSolid` of at least one solid -/
  fuse : List S → S
  /-- `sameBox` -/
  same : Bx → Bx → Bool
  /-- `solid_plane_box(cell, outbox).get_boundBox(enlarge)` for a cell definition; the last argument is the enlargement, in
  tenths -/
  boundBox : Seq → Bx → Nat → MBox Bx

variable {α S Bx Sh : Type}

/-- the point is in the region of a cell definition -/
def In (K : Kernel α S Bx Sh) (d : Seq) (x : α) : Prop := d.sem (fun k => K.side k x) = true

/-- all points of the solid are on one side of the surface -/
def OneSided (K : Kernel α S Bx Sh) (mem : S → α → Prop) (k : Nat) (s : S) : Prop :=
  ∀ x y, mem s x → mem s y → K.side k x = K.side k y

/-- what a box says about a region, for the points of the box `out` in which the region is looked at -/
def BoxSays (inBox : Bx → α → Prop) (out : Bx) (r : α → Prop) (m : MBox Bx) : Prop :=
  match m.ori, m.box with
  | .fwd, none => ∀ x, inBox out x → ¬ r x
  | .fwd, some b => ∀ x, inBox out x → r x → inBox b x
  | .rev, none => ∀ x, inBox out x → r x
  | .rev, some b => ∀ x, inBox out x → ¬ r x → inBox b x

/-- The kernel does what it should: `mem s x`: `x` is an interior point of the solid `s`; `on k x`: `x` is on surface `k`;
`inBox b x`: `x` is in the box `b`. -/
structure Right (K : Kernel α S Bx Sh) (mem : S → α → Prop) (on : Nat → α → Prop) (inBox : Bx → α → Prop) : Prop where
  /-- a solid that is cut by the face of a surface gives pieces, each on one side of the surface, that fill it -/
  slice_some : ∀ s k b sh l, K.shape k b = some sh → (∀ x, mem s x → inBox b x) → K.slice s sh = some l → l ≠ [] →
    (∀ t ∈ l, OneSided K mem k t ∧ ∀ x, mem t x → mem s x) ∧ ∀ x, mem s x → ¬ on k x → ∃ t ∈ l, mem t x
  /-- no pieces: the surface does not cross the solid -/
  slice_none : ∀ s k b sh, K.shape k b = some sh → (∀ x, mem s x → inBox b x) →
    (K.slice s sh = none ∨ K.slice s sh = some []) → OneSided K mem k s
  /-- no face: the surface does not cross the box -/
  shape_none : ∀ s k b, K.shape k b = none → (∀ x, mem s x → inBox b x) → OneSided K mem k s
  inner : ∀ s p, K.inner s = some p → mem s p
  box : ∀ s x, mem s x → inBox (K.box s) x
  makeBox : ∀ b x, mem (K.makeBox b) x ↔ inBox b x
  meet : ∀ a b, K.meet a b = false → ∀ x, ¬ (inBox a x ∧ inBox b x)
  fuse : ∀ l, l ≠ [] → ∀ x, mem (K.fuse l) x ↔ ∃ s ∈ l, mem s x
  same : ∀ a b, K.same a b = true → ∀ x, inBox a x ↔ inBox b x
  same_refl : ∀ a, K.same a a = true
  boundBox : ∀ d out e, BoxSays inBox out (In K d) (K.boundBox d out e)

mutual
/-- no sequence of the definition is empty -/
def Filled : Seq → Prop
  | .int _ => True
  | .boo _ _ _ => True
  | .lst _ _ es => es ≠ [] ∧ FilledL es
def FilledL : List Seq → Prop
  | [] => True
  | e :: es => Filled e ∧ FilledL es
end

/-- a cell definition as it is read from a file: a sequence of surface numbers and of such sequences, with right levels -/
def Plain (d : Seq) : Prop := (∃ op l es, d = .lst op l es) ∧ d.WF ∧ d.NoBool ∧ Filled d

/-- the element is one signed surface number, or a sequence with that only -/
def Single (e : Seq) (n : Int) : Prop := e = .int n ∨ ∃ op, e = .lst op 0 [.int n]

mutual
/-- the definition holds a union that has sequences in it, such as `(1 2 : -1 3)` -/
def Joins : Seq → Prop
  | .int _ => False
  | .boo _ _ _ => False
  | .lst .or l _ => l ≠ 0
  | .lst .and _ es => JoinsL es
def JoinsL : List Seq → Prop
  | [] => False
  | e :: es => Joins e ∨ JoinsL es
end

/-- no surface is in both -/
def Apart (a b : Seq) : Prop := ∀ v, a.Occurs v → ¬ b.Occurs v

mutual
/-- In each intersection, what follows a union of sequences (other than the single surfaces) has none of its surfaces. -/
def Tidy : Seq → Prop
  | .int _ => True
  | .boo _ _ _ => True
  | .lst .or _ es => TidyL es
  | .lst .and _ es => TidyL es ∧ es.Pairwise (fun a b => Joins a → (¬ ∃ n, Single b n) → Apart a b)
def TidyL : List Seq → Prop
  | [] => True
  | e :: es => Tidy e ∧ TidyL es
end

/-- The region is not the outside of something: its box is never reversed. -/
def Bounded (K : Kernel α S Bx Sh) (d : Seq) : Prop := ∀ out e, (K.boundBox d out e).ori = .fwd

mutual
/-- What an intersection or a union starts with is bounded: of an intersection the single surfaces if there are any, else
the first element; all elements of a union; and so on in them. -/
def StartsBounded (K : Kernel α S Bx Sh) : Seq → Prop
  | .int _ => True
  | .boo _ _ _ => True
  | .lst op l es => Bounded K (.lst op l es) ∧ (l ≠ 0 →
      (∀ g : List Int, (∀ n, n ∈ g ↔ ∃ e ∈ es, Single e n) → Bounded K (.lst op 0 (g.map .int))) ∧
      (match op with
        | .or => StartsBoundedL K es
        | .and => (∃ e ∈ es, ∃ n, Single e n) ∨ StartsBoundedH K es))
def StartsBoundedL (K : Kernel α S Bx Sh) : List Seq → Prop
  | [] => True
  | e :: es => StartsBounded K e ∧ StartsBoundedL K es
def StartsBoundedH (K : Kernel α S Bx Sh) : List Seq → Prop
  | [] => True
  | e :: _ => StartsBounded K e
end

/-- Sequences of surface numbers, and unions of such sequences, as `(1 -2 3 : -1 4)`: what most files hold. -/
def Flat (d : Seq) : Prop :=
  ∃ op l es, d = .lst op l es ∧ (l = 0 ∨ op = .or ∧ ∀ e ∈ es, (∃ n, e = .int n) ∨ ∃ o xs, e = .lst o 0 xs)

/-- the point is in the shape (`none`: there is no shape) -/
def InShape (mem : S → α → Prop) (shape : Option S) (x : α) : Prop := ∃ s, shape = some s ∧ mem s x

/-- the point is in the box of the cell, if the cell is bounded -/
def InCellBox (K : Kernel α S Bx Sh) (inBox : Bx → α → Prop) (d : Seq) (ext : Bx) (x : α) : Prop :=
  (K.boundBox d ext 2).ori = .fwd → ∃ b, (K.boundBox d ext 2).box = some b ∧ inBox b x

/-- The shape is the region of the definition: for the points of the external box that are not on a surface of the definition and
not in one of the solids thrown away for being too small. -/
def RightShape (K : Kernel α S Bx Sh) (mem : S → α → Prop) (on : Nat → α → Prop) (inBox : Bx → α → Prop) (d : Seq) (ext : Bx)
    (shape : Option S) (lost : List S) : Prop :=
  ∀ x, inBox ext x → (∀ v, d.Occurs v → ¬ on v x) → (∀ s ∈ lost, ¬ mem s x) →
    (In K d x → InShape mem shape x) ∧ (InCellBox K inBox d ext x → InShape mem shape x → In K d x)

end Geouned.Rev.Solid
