import Verif.Geom.QuadricLemmas
import Mathlib.Analysis.SpecialFunctions.Trigonometric.Inverse
/-!
# Model of the surface parameters and of the "same surface" tests
`src/geouned/GEOUNED/utils/basic_functions_part1.py` 9-57, 69-200 and
`src/geouned/GEOUNED/utils/basic_functions_part2.py` 43-160, in exact real arithmetic.
-/
namespace Geouned.Geom

/-- `Vector.getAngle` (non-null vectors; the C++ code clamps the cosine to [-1, 1] as `arccos` does) -/
noncomputable def getAngle (a b : Vec) : ℝ := Real.arccos (a.dot b / (a.len * b.len))

/-- `-v` -/
def Vec.neg (a : Vec) : Vec := ⟨-a.x, -a.y, -a.z⟩

/-- basic_functions_part1.py 9-10 -/
def isSameValue (v1 v2 tol : ℝ) : Prop := |v1 - v2| < tol

/-- 13-14 -/
def isOpposite (a b : Vec) (tol : ℝ) : Prop := |getAngle a b.neg| < tol

/-- 17-19 -/
def isParallel (a b : Vec) (tol : ℝ) : Prop := |getAngle a b| < tol ∨ isSameValue |getAngle a b| Real.pi tol

/-- 49-57 `is_in_tolerance`, first value -/
def isInTol (val tol fuzzyLow : ℝ) : Prop := |val| < fuzzyLow ∨ |val| < tol

/-- `Vector.isEqual(v, tol)`: distance at most `tol` -/
def Vec.isEqual (a b : Vec) (tol : ℝ) : Prop := (a.sub b).len ≤ tol

/-- the tolerances used here (`utils/data_classes.py` 391-411) -/
structure Tol where
  (pln_distance pln_angle cyl_distance cyl_angle sph_distance kne_distance kne_angle tor_distance tor_angle angle : ℝ)
  relativeTol : Bool

/-- `PlaneParams` / `Plane3PtsParams` (`points` is present for `pointDef`) -/
structure PlaneP where
  (pos axis : Vec)
  (dimL1 dimL2 : ℝ)
  points : Option (Vec × Vec × Vec) := none

structure CylP where
  (center axis : Vec)
  radius : ℝ

structure ConeP where
  (apex axis : Vec)
  semiAngle : ℝ

structure SphP where
  center : Vec
  radius : ℝ

/-- `TorusParams`; `aSign` is 1 or -1 -/
structure TorP where
  (center axis : Vec)
  (major minor : ℝ)
  aSign : ℝ := 1

/-- the recurring `if tolerances.relativeTol: tol = d * m else: tol = d` -/
noncomputable def Tol.scaled (t : Tol) (d m : ℝ) : ℝ :=
  match t.relativeTol with
  | true => d * m
  | false => d

/-! The nested `if`s of the comparisons, each of which returns `False` in its `else` branch, are written as conjunctions. -/

open Classical in
/-- basic_functions_part2.py 43-59 `is_same_plane` -/
noncomputable def isSamePlane (t : Tol) (p1 p2 : PlaneP) : Prop :=
  isParallel p1.axis p2.axis t.pln_angle ∧
    let d1 := p1.axis.dot p1.pos
    let d2 := if isOpposite p1.axis p2.axis t.pln_angle then -(p2.axis.dot p2.pos) else p2.axis.dot p2.pos
    let tol := t.scaled t.pln_distance (max p2.dimL1 p2.dimL2)
    isInTol |d1 - d2| tol ((1 / 2) * tol)

/-- 62-114 `is_same_cylinder` -/
def isSameCyl (t : Tol) (c1 c2 : CylP) : Prop :=
  let rtol := t.scaled t.cyl_distance (max c2.radius c1.radius)
  isInTol (c2.radius - c1.radius) rtol ((1 / 2) * rtol) ∧
  isParallel c1.axis c2.axis t.cyl_angle ∧
    let d := (c1.axis.cross (c1.center.sub c2.center)).len
    let tol := t.scaled t.cyl_distance (max c1.center.len c2.center.len)
    isInTol d tol ((1 / 2) * tol)

/-- 117-125 `is_same_cone` -/
def isSameCone (t : Tol) (c1 c2 : ConeP) : Prop :=
  isSameValue c1.semiAngle c2.semiAngle t.kne_angle ∧
  isParallel c1.axis c2.axis t.kne_angle ∧
  c1.apex.isEqual c2.apex (t.scaled t.kne_distance (max c1.apex.len c2.apex.len))

/-- 128-140 `is_same_sphere` -/
def isSameSph (t : Tol) (s1 s2 : SphP) : Prop :=
  isSameValue s1.radius s2.radius (t.scaled t.sph_distance (max s2.radius s1.radius)) ∧
  s1.center.isEqual s2.center (t.scaled t.sph_distance (max s2.center.len s1.center.len))

/-- 143-160 `is_same_torus` -/
def isSameTor (t : Tol) (s1 s2 : TorP) : Prop :=
  isParallel s1.axis s2.axis t.tor_angle ∧ ¬ s1.axis.dot s2.axis < 0 ∧
  isSameValue s1.major s2.major (t.scaled t.tor_distance (max s1.major s2.major)) ∧
  isSameValue s1.minor s2.minor (t.scaled t.tor_distance (max s1.minor s2.minor)) ∧
  s1.center.isEqual s2.center (t.scaled t.tor_distance (max s1.center.len s2.center.len))

end Geouned.Geom
