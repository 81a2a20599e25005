import Verif.Shape.Spec
/-!
# Model of the planes that stand for curved surfaces

`src/geouned/GEOReverse/Modules/Utils/boundBox.py`: `convert_to_planes` (470-485), `get_orto_axis` (488-501), `cylinder_to_planes` (504-521), `cone_to_planes` (524-548),
`sphere_to_planes` (551-575), `torus_to_planes` (578-655), `box_to_planes` (658-668), `parabola_to_planes` (671-709), the planes of `quadric_to_plane` (423-426).

Real arithmetic instead of floating point. `none` is a raised exception.
-/
namespace Geouned.Shape
open Geouned.Geom Geouned.RSurf Geouned.Poly

/-- `Part.Plane(position, normal)`: the axis of the plane is the normal divided by its length; a null normal raises -/
noncomputable def partPlane (e : Vec × Vec) : Option Pl := e.2.normalize.map fun n => ⟨e.1, n⟩

/-- several planes, made one after the other -/
noncomputable def partPlanes : List (Vec × Vec) → Option (List Pl)
  | [] => some []
  | e :: es => (partPlane e).bind fun p => (partPlanes es).bind fun ps => some (p :: ps)

open Classical in
/-- boundBox.py 488-501 `get_orto_axis` -/
noncomputable def ortoAxis (axis : Vec) : Option (Vec × Vec) :=
  let vx := axis.cross vX
  let vz := axis.cross vZ
  let v0 := if vx.len < vz.len then vz else vx
  v0.normalize.bind fun v => (v.cross axis).normalize.bind fun w => some (v, w)

/-- 506-509, 526-529, 553-556: `pos` is `None`, true or false -/
noncomputable def factor (pos : Option Bool) (radius : ℝ) : ℝ :=
  match pos with
  | none => radius * 0.8535533906
  | some true => radius * 0.70710678
  | some false => radius

/-- `-v` -/
def opp (v : Vec) : Vec := Vec.smul (-1) v

/-- 504-521 `cylinder_to_planes` -/
noncomputable def cylinderToPlanes (center axis : Vec) (radius0 : ℝ) (pos : Option Bool) : Option (List Pl) :=
  let radius := factor pos radius0
  (ortoAxis axis).bind fun (x, y) =>
    partPlanes [(center.add (Vec.smul radius x), opp x), (center.sub (Vec.smul radius x), x), (center.add (Vec.smul radius y), opp y),
      (center.sub (Vec.smul radius y), y)]

/-- 534-543, the loop of `cone_to_planes`: `n` passes are left, `phi` is the current angle -/
noncomputable def coneLoop (apex axis x y : Vec) (cs ss : ℝ) : Nat → ℝ → List (Vec × Vec)
  | 0, _ => []
  | n + 1, phi =>
    let rho := (Vec.smul (Real.cos phi) x).add (Vec.smul (Real.sin phi) y)
    let ni := (Vec.smul ss (opp axis)).add (Vec.smul cs rho)
    (apex, opp ni) :: coneLoop apex axis x y cs ss n (phi + 2 * Real.pi / 4)

/-- 524-548 `cone_to_planes` -/
noncomputable def coneToPlanes (apex axis : Vec) (t0 : ℝ) (pos : Option Bool) : Option (List Pl) :=
  let t := factor pos t0
  let sa := Real.arctan t
  (ortoAxis axis).bind fun (x, y) => partPlanes (coneLoop apex axis x y (Real.cos sa) (Real.sin sa) 4 0 ++ [(apex, axis)])

/-- 551-575 `sphere_to_planes` -/
noncomputable def sphereToPlanes (center : Vec) (radius0 : ℝ) (pos : Option Bool) : Option (List Pl) :=
  let radius := factor pos radius0
  partPlanes [(center.add (Vec.smul radius vX), opp vX), (center.sub (Vec.smul radius vX), vX), (center.add (Vec.smul radius vY), opp vY),
    (center.sub (Vec.smul radius vY), vY), (center.add (Vec.smul radius vZ), opp vZ), (center.sub (Vec.smul radius vZ), vZ)]

/-- the planes of a torus along one axis: `a` is the distance of the planes `±e1`, `b` of `±e2`, `c` of `±e3` (596-601, 612-617, 628-633, 644-649) -/
noncomputable def sixPlanes (center : Vec) (a b c : ℝ) : List (Vec × Vec) :=
  [(center.add (Vec.smul a vX), opp vX), (center.sub (Vec.smul a vX), vX), (center.add (Vec.smul b vY), opp vY), (center.sub (Vec.smul b vY), vY),
    (center.add (Vec.smul c vZ), opp vZ), (center.sub (Vec.smul c vZ), vZ)]

/-- the planes around the hole (602-610, 618-626, 634-642): along `u` and `w` -/
noncomputable def holePlanes (center u w : Vec) (d : ℝ) : List (Vec × Vec) :=
  [(center.add (Vec.smul d u), u), (center.sub (Vec.smul d u), opp u), (center.add (Vec.smul d w), w), (center.sub (Vec.smul d w), opp w)]

/-- 585-593: the distances of the outer planes and of those around the hole -/
noncomputable def torusDists (majorRadius minorR : ℝ) (pos : Option Bool) : ℝ × ℝ :=
  match pos with
  | none => ((majorRadius + minorR) * 0.8535533906, (majorRadius - minorR) * 0.8535533906)
  | some true => ((majorRadius + minorR) * 0.70710678, majorRadius - minorR)
  | some false => (majorRadius + minorR, (majorRadius - minorR) * 0.70710678)

open Classical in
/-- 578-655 `torus_to_planes`. An axis along none of the coordinate axes: `r1` is unbound (644), UnboundLocalError. -/
noncomputable def torusToPlanes (center axis : Vec) (majorRadius minorR minorA : ℝ) (pos : Option Bool) : Option (List Pl × List Pl) :=
  let dist := (torusDists majorRadius minorR pos).1
  let difR := (torusDists majorRadius minorR pos).2
  if |(|axis.dot vX| - 1)| < 1 / 10 ^ 5 then
    (partPlanes (sixPlanes center minorA dist dist)).bind fun e => (partPlanes (if 0 < difR then holePlanes center vY vZ difR else [])).bind fun i => some (e, i)
  else if |(|axis.dot vY| - 1)| < 1 / 10 ^ 5 then
    (partPlanes (sixPlanes center dist minorA dist)).bind fun e => (partPlanes (if 0 < difR then holePlanes center vX vZ difR else [])).bind fun i => some (e, i)
  else if |(|axis.dot vZ| - 1)| < 1 / 10 ^ 5 then
    (partPlanes (sixPlanes center dist dist minorA)).bind fun e => (partPlanes (if 0 < difR then holePlanes center vX vY difR else [])).bind fun i => some (e, i)
  else none

/-- 658-668 `box_to_planes` -/
noncomputable def boxToPlanes (org vec1 vec2 vec3 : Vec) : Option (List Pl) :=
  partPlanes [(org, vec1), (org, vec2), (org, vec3), (org.add vec1, opp vec1), (org.add vec2, opp vec2), (org.add vec3, opp vec3)]

/-- 697-706, the inner loop of `parabola_to_planes`: `n` passes are left; `normal.normalize()` raises for a null vector -/
noncomputable def parabolaRing (center axis x y : Vec) (focal xp zi : ℝ) : Nat → ℝ → Option (List (Vec × Vec))
  | 0, _ => some []
  | n + 1, phi =>
    let rho := (Vec.smul (Real.cos phi) x).add (Vec.smul (Real.sin phi) y)
    let vec := (Vec.smul (Real.cos phi) y).sub (Vec.smul (Real.sin phi) x)
    let slope := (Vec.smul (2 * focal) rho).add (Vec.smul xp axis)
    let xe := (center.add (Vec.smul xp rho)).add (Vec.smul zi axis)
    (vec.cross slope).normalize.bind fun normal =>
      (parabolaRing center axis x y focal xp zi n (phi + 2 * Real.pi / 4)).bind fun l => some ((xe, normal) :: l)

/-- 695-707, the outer loop of `parabola_to_planes`; four passes of the inner loop add `2π` to `phi` -/
noncomputable def parabolaLoop (center axis x y : Vec) (focal b : ℝ) : Nat → ℝ → ℝ → Option (List (Vec × Vec))
  | 0, _, _ => some []
  | n + 1, xp, phi =>
    (parabolaRing center axis x y focal xp (0.25 * xp * xp / focal) 4 phi).bind fun l =>
      (parabolaLoop center axis x y focal b n (xp / b) (phi + 2 * Real.pi / 4 + 2 * Real.pi / 4 + 2 * Real.pi / 4 + 2 * Real.pi / 4)).bind fun l' => some (l ++ l')

open Classical in
/-- 671-709 `parabola_to_planes`; `math.sqrt` raises for a negative number (684), the division by a focal distance of 0 (696) too -/
noncomputable def parabolaToPlanes (center axis0 : Vec) (focal : ℝ) : Option (List Pl) :=
  let b := 1 - Real.sqrt (2 * 0.22)
  if 4 * focal * 750000 < 0 then none
  else if focal = 0 then none
  else
    let x0 := b ^ 7 * Real.sqrt (4 * focal * 750000)
    axis0.normalize.bind fun axis => (ortoAxis axis).bind fun (x, y) =>
      (parabolaLoop center axis x y focal b 8 x0 0).bind fun l => partPlanes ((center, axis) :: l)

/-- 470-485 `convert_to_planes`, with the way the planes are put together (433-467) -/
noncomputable def convertToPlanes (pos : Option Bool) : Surf → Option (Poly.Group Pl)
  | .cyl P v R => (cylinderToPlanes P v R pos).map .flat
  | .cone P v t dbl => (coneToPlanes P v t pos).map fun ps => if dbl then .dbl ps else .cone ps
  | .sphere P R => (sphereToPlanes P R pos).map .flat
  | .torus P v Ra Rb Rc => (torusToPlanes P v Ra Rb Rc pos).map fun (e, i) => .torus e i
  | .para P v f => (parabolaToPlanes P v f).map .flat
  | .box P v1 v2 v3 => (boxToPlanes P v1 v2 v3).map .flat
  | _ => some (.flat [])

/-- 423-426: the plane of a plane -/
noncomputable def planeOf (n : Vec) (d : ℝ) : Option Pl := partPlane (Vec.smul d n, n)

end Geouned.Shape
