import Verif.RSurf.Model
import Verif.Poly.Spec
/-!
# Specification: curved surfaces, and planes that stand for them

The sides of the surfaces GEOReverse works with, by their parameters, in the terms of `Geom/Spec.lean` and `Geom/CardSpec.lean`; planes in space. This file mentions no
function of the code (of `RSurf/Model.lean` only the type `Surf` of the parameters is used).
-/
namespace Geouned.Shape
open Geouned.Geom Geouned.RSurf

/-- a torus of elliptical section: half axes `b` along the axis and `r` away from it -/
def ellTorRegion (c a : Vec) (R b r : ℝ) : Region :=
  ⟨fun p => ∃ t w, Decomp c a p t w ∧ t ^ 2 * a.sq / b ^ 2 + (Real.sqrt w.sq - R) ^ 2 / r ^ 2 < 1,
   fun p => ∃ t w, Decomp c a p t w ∧ 1 < t ^ 2 * a.sq / b ^ 2 + (Real.sqrt w.sq - R) ^ 2 / r ^ 2⟩

/-- the paraboloid of vertex `c`, unit axis `a` and focal distance `f`: the square of the distance to the axis is `4 f` times the height -/
def paraRegion (c a : Vec) (f : ℝ) : Region :=
  ⟨fun p => ∃ t w, Decomp c a p t w ∧ w.sq < 4 * f * t, fun p => ∃ t w, Decomp c a p t w ∧ 4 * f * t < w.sq⟩

/-- The sides of a surface, for the types of surfaces that planes are made for. -/
def sides : Surf → Option Region
  | .plane n d => some (.ofFun fun p => n.dot p - d)
  | .sphere P R => some (sphRegion P R)
  | .cyl P v R => some (cylRegion P v R)
  | .cone P v t true => some (coneRegion P v t)
  | .cone P v t false => some (sheetRegion P v t)
  | .torus P v Ra Rb Rc => some (ellTorRegion P v Ra Rb Rc)
  | .para P v f => some (paraRegion P v f)
  | .box P v1 v2 v3 => some (boxRegion P v1 v2 v3)
  | _ => none

/-- the parameters are those of a surface: positive radii, axes of length 1, edges at right angles -/
def Proper : Surf → Prop
  | .plane n _ => n ≠ ⟨0, 0, 0⟩
  | .sphere _ R => 0 < R
  | .cyl _ v R => v.sq = 1 ∧ 0 < R
  | .cone _ v t _ => v.sq = 1 ∧ 0 < t
  | .torus _ v _ Rb Rc => v.sq = 1 ∧ 0 < Rb ∧ 0 < Rc
  | .para _ v f => v.sq = 1 ∧ 0 < f
  | .box _ v1 v2 v3 => Orth3 v1 v2 v3
  | _ => True

/-- a plane in space: a point of it, and its normal (of length 1); the normal points to the positive side -/
structure Pl where
  pos : Vec
  nrm : Vec

/-- on the positive side of the plane -/
def Pl.On (q : Vec) (p : Pl) : Prop := 0 < p.nrm.dot (q.sub p.pos)

/-- a plane -/
def IsPlane : Surf → Prop
  | .plane .. => True
  | _ => False

/-- a box (BOX, RPP) -/
def IsBox : Surf → Prop
  | .box .. => True
  | _ => False

/-- the unit normal, for a plane -/
def UnitNormal : Surf → Prop
  | .plane n _ => n.sq = 1
  | _ => True

/-- a torus of circular section with its axis along a coordinate axis, or no torus -/
def PlainTorus : Surf → Prop
  | .torus _ v _ Rb Rc => Rb = Rc ∧ (v = ⟨1, 0, 0⟩ ∨ v = ⟨-1, 0, 0⟩ ∨ v = ⟨0, 1, 0⟩ ∨ v = ⟨0, -1, 0⟩ ∨ v = ⟨0, 0, 1⟩ ∨ v = ⟨0, 0, -1⟩)
  | _ => True

end Geouned.Shape
