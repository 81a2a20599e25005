import Verif.Geom.Spec
import Mathlib.Analysis.SpecialFunctions.Trigonometric.Basic
import Mathlib.Analysis.SpecialFunctions.Trigonometric.Arctan
/-!
# Model of the additional surfaces of a torus face

`src/geouned/GEOUNED/conversion/cell_definition.py` 379-510 (`gen_torus_annex_u_planes`, `gen_torus_annex_v_surface`).

Real numbers instead of floats. `none` is an exception.
-/
namespace Geouned.Face

open Geouned.Geom

/-- the surface of a torus face: center, the directions of the parametrisation (`e3` is `Surface.Axis`), `MajorRadius`, `MinorRadius` -/
structure Torus where
  c : Vec
  e1 : Vec
  e2 : Vec
  e3 : Vec
  R : ℝ
  r : ℝ

/-- `face.valueAt(u, v)` of the CAD kernel for a torus: `c + (R + r cos v)(cos u e1 + sin u e2) + r sin v e3` -/
noncomputable def Torus.valueAt (t : Torus) (u v : ℝ) : Vec :=
  t.c.add (((Vec.smul ((t.R + t.r * Real.cos v) * Real.cos u) t.e1).add (Vec.smul ((t.R + t.r * Real.cos v) * Real.sin u) t.e2)).add
    (Vec.smul (t.r * Real.sin v) t.e3))

open Classical in
/-- cell_definition.py 381-386 and 431-436: the axis of coordinates parallel to the axis of the torus; simplification: exactly parallel (the tolerance `tor_angle` is not
modelled); no axis: `axis` is undefined -/
noncomputable def snapAxis (e3 : Vec) : Option Vec :=
  if e3.cross ⟨1, 0, 0⟩ = ⟨0, 0, 0⟩ then some ⟨1, 0, 0⟩
  else if e3.cross ⟨0, 1, 0⟩ = ⟨0, 0, 0⟩ then some ⟨0, 1, 0⟩
  else if e3.cross ⟨0, 0, 1⟩ = ⟨0, 0, 0⟩ then some ⟨0, 0, 1⟩
  else none

/-- `FreeCAD.Vector.Length` -/
noncomputable def length (d : Vec) : ℝ := Real.sqrt d.sq

open Classical in
/-- `FreeCAD.Vector.normalize()`: fails for the null vector -/
noncomputable def normalize (d : Vec) : Option Vec := if length d = 0 then none else some (Vec.smul (1 / length d) d)

open Classical in
/-- cell_definition.py 396-398, 407-409, 417-419, 422-424: `d.normalize(); if d.dot(pmid - center) < 0: d = -d` -/
noncomputable def toward (d w : Vec) : Option Vec :=
  (normalize d).map (fun n => if n.dot w < 0 then Vec.smul (-1) n else n)

open Classical in
/-- cell_definition.py 379-427 `gen_torus_annex_u_planes`: the normals of the planes (they go through the center) and `ORop`. The branches of 394-403 and 405-414 are the
same -/
noncomputable def annexU (t : Torus) (u0 u1 vmid tol : ℝ) : Option (Vec × Option Vec × Bool) :=
  match snapAxis t.e3 with
  | none => none
  | some axis =>
    if |(|u1 - u0|) - Real.pi| < tol ∨ u1 - u0 < Real.pi then
      (toward (axis.cross ((t.valueAt u1 vmid).sub (t.valueAt u0 vmid))) ((t.valueAt (1 / 2 * (u0 + u1)) vmid).sub t.c)).map (fun d => (d, none, false))
    else
      match toward (axis.cross (t.valueAt u0 vmid)) ((t.valueAt (1 / 2 * (u0 + u1)) vmid).sub t.c),
        toward (axis.cross (t.valueAt u1 vmid)) ((t.valueAt (1 / 2 * (u0 + u1)) vmid).sub t.c) with
      | some d1, some d2 => some (d1, some d2, true)
      | _, _ => none

/-- the additional surface along the second parameter: a plane (center, axis), a cylinder (center, axis, radius) or a cone (apex, axis, half angle) -/
inductive VSurf where
  | plane (center axis : Vec)
  | cylinder (center axis : Vec) (radius : ℝ)
  | cone (apex axis : Vec) (semi : ℝ)

open Classical in
/-- cell_definition.py 464-485: the radius and `in_surf` of the cylinder -/
noncomputable def annexCyl (t : Torus) (axis : Vec) (v0 v1 d1 d2 tol : ℝ) : ℝ × Bool :=
  if |d1 - t.R| < tol then
    if length (((t.valueAt 0 ((v0 + v1) * (1 / 2))).sub t.c).cross axis) < t.R then (max d1 d2, true) else (min d1 d2, false)
  else if d1 < t.R then (max d1 d2, true) else (min d1 d2, false)

open Classical in
/-- cell_definition.py 430-510 `gen_torus_annex_v_surface`: the surface and `in_surf` -/
noncomputable def annexV (t : Torus) (v0 v1 tol : ℝ) (forceCylinder : Bool) : Option (VSurf × Bool) :=
  match snapAxis t.e3 with
  | none => none
  | some axis =>
    let p1 := (t.valueAt 0 v0).sub t.c
    let z1 := p1.dot axis
    let d1 := length (p1.cross axis)
    let p2 := (t.valueAt 0 v1).sub t.c
    let z2 := p2.dot axis
    let d2 := length (p2.cross axis)
    let pm := (t.valueAt 0 ((v0 + v1) * (1 / 2))).sub t.c
    if |z1 - z2| < tol then some (.plane (t.c.add (Vec.smul z1 axis)) axis, decide (pm.dot axis < z1))
    else if |d1 - d2| < tol ∨ forceCylinder = true then
      some (.cylinder t.c axis (annexCyl t axis v0 v1 d1 d2 tol).1, (annexCyl t axis v0 v1 d1 d2 tol).2)
    else
      let za := (z2 * d1 - z1 * d2) / (d1 - d2)
      some (.cone (t.c.add (Vec.smul za axis)) (if 0 < z1 - za then axis else Vec.smul (-1) axis) |Real.arctan (d1 / (z1 - za))|,
        decide (length (pm.cross axis) < d1 * (pm.dot axis - za) / (z1 - za)))

end Geouned.Face
