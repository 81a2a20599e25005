import Mathlib.Data.Rat.Defs
import Mathlib.Algebra.Order.Ring.Unbundled.Rat
import Mathlib.Algebra.Order.Group.Unbundled.Abs
/-!
# Model of the ranges of faces on a periodic parameter

`src/geouned/GEOUNED/utils/geometry_gu.py` 261-300 (`merge_periodic_uv`).

`tp` stands for `2π`, `prec` for `tolerances.relativePrecision`; numbers are rational (floats are not modelled).
-/
namespace Geouned.Face

/-- basic_functions_part1.py 9-10 `is_same_value` -/
def sameValue (v1 v2 tol : ℚ) : Bool := decide (|v1 - v2| < tol)

/-- geometry_gu.py 277: the order of `params.sort()`, on tuples -/
def pairLe (p q : ℚ × ℚ) : Bool := decide (p.1 < q.1 ∨ (p.1 = q.1 ∧ p.2 ≤ q.2))

/-- geometry_gu.py 277 -/
def insertPair (p : ℚ × ℚ) : List (ℚ × ℚ) → List (ℚ × ℚ)
  | [] => [p]
  | q :: rest => if pairLe p q = true then p :: q :: rest else q :: insertPair p rest

/-- geometry_gu.py 277 `params.sort()`; by insertion -/
def sortPairs : List (ℚ × ℚ) → List (ℚ × ℚ)
  | [] => []
  | p :: rest => insertPair p (sortPairs rest)

/-- geometry_gu.py 286-294: the loop over consecutive ranges, then `params[i][1]` and `params[i + 1][0]`; `none` when there is no pair (`i` is then undefined) -/
def gapAt (prec : ℚ) : List (ℚ × ℚ) → Option (ℚ × ℚ)
  | [] => none
  | [_] => none
  | [p, q] => some (p.2, q.1)
  | p :: q :: r :: rest => if sameValue p.2 q.1 prec = false then some (p.2, q.1) else gapAt prec (q :: r :: rest)

/-- geometry_gu.py 270-275: `arcLength` -/
def arcLength (faces : List (ℚ × ℚ)) : ℚ := (faces.map (fun f => f.2 - f.1)).sum

/-- geometry_gu.py 280-298: what is done with the sorted ranges, `V0` and `V1` the first start and the last end -/
def mergeSorted (tp prec arc V0 V1 : ℚ) (params : List (ℚ × ℚ)) : Option (Bool × ℚ × ℚ) :=
  if arc ≥ tp * (1 - prec) then some (true, V0, V0 + tp)
  else if sameValue V0 0 prec = true ∧ sameValue V1 tp prec = true then
    match gapAt prec params with
    | none => none
    | some (e, s) => some (false, s - tp, e)
  else some (false, V0, V1)

/-- geometry_gu.py 261-300 `merge_periodic_uv` on the ranges `(V0, V1)` of the faces; `none`: an exception -/
def mergePeriodic (tp prec : ℚ) (faces : List (ℚ × ℚ)) : Option (Bool × ℚ × ℚ) :=
  match (sortPairs faces).head?, (sortPairs faces).getLast? with
  | some f, some l => mergeSorted tp prec (arcLength faces) f.1 l.2 (sortPairs faces)
  | _, _ => none

end Geouned.Face
