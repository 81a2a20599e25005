import Verif.Misc.Util
/-!
# Grouping of parallel planes

Model of `ParallelPlanes` and `sort_planes` (`src/geouned/GEOUNED/decompose/decom_one.py` 709-760).
`par p a` is `is_parallel(p.Surf.Axis, a.Surf.Axis, 0.1)`, `pos a p` is `a.Surf.Axis.dot(p.Surf.Position)`: any functions here.
The keys `d` are compared by `le` (any total preorder).
-/
namespace Geouned.Planes

variable {P κ : Type}

/-- 709-713: `Axis` is the axis of the plane it was created with -/
structure Group (P : Type) where
  axis : P
  elements : List P
  count : Nat

/-- 710-713 `__init__` -/
def Group.new (p : P) : Group P := ⟨p, [p], 1⟩

/-- 715-721 `append` (`none` : returned False) -/
def Group.append (par : P → P → Bool) (g : Group P) (p : P) : Option (Group P) :=
  if par p g.axis then some { g with elements := g.elements ++ [p], count := g.count + 1 } else none

/-- 739-748, inner loop over the groups, with 746-747 (new group at the end if none accepts) -/
def insert (par : P → P → Bool) (p : P) : List (Group P) → List (Group P)
  | [] => [Group.new p]
  | g :: gs =>
    match g.append par p with
    | some g' => g' :: gs
    | none => g :: insert par p gs

/-- sort a list by the pairs (key, position) (723-733 and 749-754, tuples compared lexicographically) -/
def sortByKey (le : κ → κ → Bool) (key : P → κ) (l : List P) : List P :=
  (insSort (fun a b =>
    if le (key a.1) (key b.1) then (if le (key b.1) (key a.1) then decide (a.2 ≤ b.2) else true) else false) l.zipIdx).map Prod.fst

/-- 723-733 `sort` -/
def Group.sort (le : κ → κ → Bool) (pos : P → P → κ) (g : Group P) : Group P :=
  { g with elements := sortByKey le (pos g.axis) g.elements }

/-- 736-760 `sort_planes` -/
def sortPlanes (par : P → P → Bool) (le : κ → κ → Bool) (pos : P → P → κ) (sortElements : Bool) : List P → List (List P)
  | [] => []
  | p :: ps =>
    let groups := ps.foldl (fun gs q => insert par q gs) [Group.new p]
    let groups := if sortElements then groups.map (Group.sort le pos) else groups
    (sortByKey (fun a b : Nat => decide (a ≤ b)) Group.count groups).map Group.elements

end Geouned.Planes
