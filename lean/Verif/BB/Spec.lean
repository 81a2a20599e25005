import Mathlib.Algebra.Order.Field.Basic
import Mathlib.Algebra.Order.Ring.Abs
import Mathlib.Tactic.Linarith
import Mathlib.Tactic.Ring
import Mathlib.Tactic.FieldSimp
import Mathlib.Tactic.LinearCombination
import Verif.Rev.SolidSpec
/-!
# Specification: the bounding box of a cell made of planes (GEOReverse)

Coordinates are taken in any ordered field `F` (the reals, or the rationals for examples that can be computed). What is
said here mentions no function of the code. `BoxSays` of `Verif.Rev.SolidSpec` says what an oriented box must satisfy.
-/
namespace Geouned.BB
open Geouned Geouned.Rev.Solid

/-- a point, or a vector -/
@[ext] structure Pt (F : Type) where
  x : F
  y : F
  z : F
  deriving DecidableEq

/-- a plane: a point of it and its normal (the positive side is the one the normal points to) -/
structure Plane (F : Type) where
  pos : Pt F
  nrm : Pt F
  deriving DecidableEq

/-- a box parallel to the axes (`FreeCAD.BoundBox`) -/
@[ext] structure Box (F : Type) where
  (xmin xmax ymin ymax zmin zmax : F)
  deriving DecidableEq

variable {F : Type} [Field F] [LinearOrder F] [IsStrictOrderedRing F]

/-- scalar product -/
def dot (a b : Pt F) : F := a.x * b.x + a.y * b.y + a.z * b.z

/-- difference of points -/
def sub (a b : Pt F) : Pt F := ⟨a.x - b.x, a.y - b.y, a.z - b.z⟩

/-- vector product -/
def cross (a b : Pt F) : Pt F := ⟨a.y * b.z - a.z * b.y, a.z * b.x - a.x * b.z, a.x * b.y - a.y * b.x⟩

/-- signed distance of a point from a plane (for a unit normal) -/
def Plane.ev (p : Plane F) (x : Pt F) : F := dot p.nrm (sub x p.pos)

/-- the closed box holds the point -/
def Box.Mem (b : Box F) (p : Pt F) : Prop :=
  (b.xmin ≤ p.x ∧ p.x ≤ b.xmax) ∧ (b.ymin ≤ p.y ∧ p.y ≤ b.ymax) ∧ (b.zmin ≤ p.z ∧ p.z ≤ b.zmax)

instance (b : Box F) (p : Pt F) : Decidable (b.Mem p) := by unfold Box.Mem; infer_instance

/-- a box with a volume -/
def Box.Solid (b : Box F) : Prop := b.xmin < b.xmax ∧ b.ymin < b.ymax ∧ b.zmin < b.zmax

/-- the point is in the region of the cell definition `d`, whose surfaces are the planes `pl` -/
def Region (pl : Nat → Plane F) (d : Seq) (x : Pt F) : Prop :=
  d.sem (fun k => decide (0 < (pl k).ev x)) = true

/-- the point is in the region or on its surface, for a definition that is an intersection of half-spaces -/
def AllOf (pl : Nat → Plane F) (lits : List Int) (x : Pt F) : Prop :=
  ∀ n ∈ lits, (0 < n → 0 ≤ (pl n.natAbs).ev x) ∧ (n < 0 → (pl n.natAbs).ev x ≤ 0)

/-- the point is in the region or on its surface, for a definition that is a union of half-spaces -/
def OneOf (pl : Nat → Plane F) (lits : List Int) (x : Pt F) : Prop :=
  ∃ n ∈ lits, (0 < n → 0 ≤ (pl n.natAbs).ev x) ∧ (n < 0 → (pl n.natAbs).ev x ≤ 0)

/-- two points of the set are at least 2.1 (mm) apart along each axis -/
def Wide (R : Pt F → Prop) : Prop :=
  (∃ a b, R a ∧ R b ∧ a.x + 21 / 10 ≤ b.x) ∧ (∃ a b, R a ∧ R b ∧ a.y + 21 / 10 ≤ b.y) ∧ (∃ a b, R a ∧ R b ∧ a.z + 21 / 10 ≤ b.z)

/-- the point is in the box, or not farther than `d` from it along each axis -/
def Box.Near (b : Box F) (d : F) (p : Pt F) : Prop :=
  (b.xmin - d ≤ p.x ∧ p.x ≤ b.xmax + d) ∧ (b.ymin - d ≤ p.y ∧ p.y ≤ b.ymax + d) ∧ (b.zmin - d ≤ p.z ∧ p.z ≤ b.zmax + d)

/-- the eight corners of a box -/
def Box.Corner (b : Box F) (p : Pt F) : Prop :=
  (p.x = b.xmin ∨ p.x = b.xmax) ∧ (p.y = b.ymin ∨ p.y = b.ymax) ∧ (p.z = b.zmin ∨ p.z = b.zmax)

/-- the point is on an edge of the box: it is in the box and two of its coordinates are extreme -/
def Box.Edge (b : Box F) (p : Pt F) : Prop :=
  b.Mem p ∧
    (((p.x = b.xmin ∨ p.x = b.xmax) ∧ (p.y = b.ymin ∨ p.y = b.ymax)) ∨
     ((p.x = b.xmin ∨ p.x = b.xmax) ∧ (p.z = b.zmin ∨ p.z = b.zmax)) ∨
     ((p.y = b.ymin ∨ p.y = b.ymax) ∧ (p.z = b.zmin ∨ p.z = b.zmax)))

end Geouned.BB
