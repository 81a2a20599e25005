import Verif.Face.TorusModel
/-!
# Model of the additional plane of a concave cylinder or cone face

`src/geouned/GEOUNED/conversion/cell_definition.py` 284-378 (`gen_plane_cylinder`, `gen_plane_cone`, after the ends of the range are known),
`src/geouned/GEOUNED/utils/basic_functions_part1.py` 60-66 (`sign_plane`).

Real numbers instead of floats. Simplification: the faces on one surface have the same parametrisation.
-/
namespace Geouned.Face

open Geouned.Geom

/-- a cylinder with its parametrisation -/
structure CylFace where
  c : Vec
  e1 : Vec
  e2 : Vec
  axis : Vec
  rad : ℝ

/-- `face.valueAt(u, v)` of the CAD kernel for a cylinder -/
noncomputable def CylFace.valueAt (f : CylFace) (u v : ℝ) : Vec :=
  f.c.add (((Vec.smul (f.rad * Real.cos u) f.e1).add (Vec.smul (f.rad * Real.sin u) f.e2)).add (Vec.smul v f.axis))

/-- a cone with its parametrisation from the apex, `semi` the half angle -/
structure ConeFace where
  apex : Vec
  e1 : Vec
  e2 : Vec
  axis : Vec
  semi : ℝ

/-- `face.valueAt(u, v)` of the CAD kernel for a cone; simplification: `w` is counted from the apex -/
noncomputable def ConeFace.valueAt (f : ConeFace) (u w : ℝ) : Vec :=
  f.apex.add (((Vec.smul (w * Real.sin f.semi * Real.cos u) f.e1).add (Vec.smul (w * Real.sin f.semi * Real.sin u) f.e2)).add (Vec.smul (w * Real.cos f.semi) f.axis))

open Classical in
/-- cell_definition.py 318-333: the plane of `gen_plane_cylinder`, a point and a normal; `none` is `None` -/
noncomputable def genPlaneCyl (f : CylFace) (u1 v1 u2 v2 : ℝ) : Option (Vec × Vec) :=
  if length ((f.valueAt u1 v1).sub (f.valueAt u2 v2)) ≤ 1 / 100000 then none
  else if length (((f.valueAt u2 v2).sub (f.valueAt u1 v1)).cross f.axis) < 1 / 10000000000 then none
  else some (f.valueAt u1 v1, ((f.valueAt u2 v2).sub (f.valueAt u1 v1)).cross f.axis)

open Classical in
/-- cell_definition.py 368-376: the plane of `gen_plane_cone`, through the two ends and the apex (`Part.Plane(p1, p2, p3)` of the CAD kernel: the normal is
`(p2 - p1) × (p3 - p1)`; its sign does not matter below) -/
noncomputable def genPlaneCone (f : ConeFace) (u1 w1 u2 w2 : ℝ) : Option (Vec × Vec) :=
  if length ((f.valueAt u1 w1).sub (f.valueAt u2 w2)) ≤ 1 / 100000 then none
  else some (f.valueAt u1 w1, ((f.valueAt u2 w2).sub (f.valueAt u1 w1)).cross (f.apex.sub (f.valueAt u1 w1)))

open Classical in
/-- basic_functions_part1.py 60-66 `sign_plane` -/
noncomputable def signPlane (point pos axis : Vec) : ℝ := if axis.dot (point.sub pos) ≥ 0 then 1 else -1

end Geouned.Face
