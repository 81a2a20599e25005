import Verif.Face.RangeModel
/-!
# Model of the intervals covered by the faces of a cylinder or cone

`src/geouned/GEOUNED/conversion/cell_definition.py` 157-248 (`get_closed_ranges`, `get_intervals`, `get_u_value_boundary`).

`rng i` is the range of the parameter U of the face `i` (`solid.Faces[i].ParameterRange[0:2]`), `tp` stands for `2π`; numbers are rational. `none` is an exception.
-/
namespace Geouned.Face

/-- an end of a range: the value and the index of the face -/
abbrev Node := ℚ × Nat

/-- cell_definition.py 164: the order of tuples -/
def nodeLe (p q : Node) : Bool := decide (p.1 < q.1 ∨ (p.1 = q.1 ∧ p.2 ≤ q.2))

/-- cell_definition.py 164 -/
def insertNode (p : Node) : List Node → List Node
  | [] => [p]
  | q :: rest => if nodeLe p q = true then p :: q :: rest else q :: insertNode p rest

/-- cell_definition.py 164 `u_nodes.sort()`; by insertion -/
def sortNodes : List Node → List Node
  | [] => []
  | p :: rest => insertNode p (sortNodes rest)

/-- cell_definition.py 159-164: the ends of the ranges, sorted -/
def uNodes (rng : Nat → ℚ × ℚ) (faceIndex : List Nat) : List Node :=
  sortNodes (faceIndex.flatMap (fun i => [((rng i).1, i), ((rng i).2, i)]))

/-- cell_definition.py 195-199: `pos_min` and `pos_max` -/
def posLoop : List Node → Nat → (Nat → Option Nat) → (Nat → Option Nat) → (Nat → Option Nat) × (Nat → Option Nat)
  | [], _, mn, mx => (mn, mx)
  | node :: rest, i, mn, mx =>
    if mn node.2 = none then posLoop rest (i + 1) (fun k => if k = node.2 then some i else mn k) mx
    else posLoop rest (i + 1) mn (fun k => if k = node.2 then some i else mx k)

/-- cell_definition.py 212 -/
def uTol : ℚ := 1 / 100000

/-- `u_nodes[i]` -/
def nodeAt (nodes : List Node) (i : Nat) : Node := nodes.getD i (0, 0)

/-- cell_definition.py 207-215: the search of the next range over the positions after `i_pos`; gives the index of its face -/
def searchNext (nodes : List Node) (mn : Nat → Option Nat) (x : ℚ) : List Nat → Option (Option Nat)
  | [] => some none
  | i :: rest =>
    match mn (nodeAt nodes i).2 with
    | none => none
    | some p => if (nodeAt nodes p).1 - x < uTol then some (some (nodeAt nodes i).2) else searchNext nodes mn x rest

/-- cell_definition.py 204-225: the loop `while True` (first argument: rounds); arguments `i_pos` and `u_min` -/
def intervalLoop (nodes : List Node) (mn mx : Nat → Option Nat) : Nat → Nat → Node → Option (List (Node × Node))
  | 0, _, _ => none
  | n + 1, iPos, uMin =>
    match searchNext nodes mn (nodeAt nodes iPos).1 (List.range' (iPos + 1) (nodes.length - (iPos + 1))) with
    | none => none
    | some (some m) =>
      match mx m with
      | none => none
      | some q => intervalLoop nodes mn mx n q uMin
    | some none =>
      if iPos + 1 < nodes.length then
        match mx (nodeAt nodes (iPos + 1)).2 with
        | none => none
        | some q => (intervalLoop nodes mn mx n q (nodeAt nodes (iPos + 1))).map (fun rs => (uMin, nodeAt nodes iPos) :: rs)
      else some [(uMin, nodeAt nodes iPos)]

/-- cell_definition.py 227-235: the indices of the faces with an end in the range (a list for the set) -/
def indexSet (nodes : List Node) (r : Node × Node) : List Nat :=
  (nodes.filter (fun x => decide (r.1.1 - x.1 < uTol ∧ x.1 - r.2.1 < uTol))).map (·.2)

/-- a range: first end, last end, indices of faces -/
abbrev CRange := Node × Node × List Nat

/-- cell_definition.py 191-237 `get_intervals` -/
def getIntervals (nodes : List Node) : Option (List CRange) :=
  match nodes with
  | [] => none
  | u :: _ =>
    match (posLoop nodes 0 (fun _ => none) (fun _ => none)).2 u.2 with
    | none => none
    | some q =>
      (intervalLoop nodes (posLoop nodes 0 (fun _ => none) (fun _ => none)).1 (posLoop nodes 0 (fun _ => none) (fun _ => none)).2 nodes.length q u).map
        (fun rs => rs.map (fun r => (r.1, r.2, indexSet nodes r)))

/-- cell_definition.py 171 -/
def closeTol : ℚ := 1 / 100

/-- cell_definition.py 171-187: the first and the last range -/
def closeRanges (tp : ℚ) (rs : List CRange) (first last : CRange) : List CRange × Bool :=
  if |last.2.1.1 - first.1.1 - tp| < closeTol then
    if rs.length = 1 then (rs, true)
    else
      if (rs.drop 1).dropLast.length = 0 then
        (((last.1.1 - tp, last.1.2), first.2.1, first.2.2 ++ last.2.2) :: (rs.drop 1).dropLast,
          decide (|first.2.1.1 - (last.1.1 - tp) - tp| < closeTol))
      else (((last.1.1 - tp, last.1.2), first.2.1, first.2.2 ++ last.2.2) :: (rs.drop 1).dropLast, false)
  else (rs, false)

/-- cell_definition.py 157-188 `get_closed_ranges` -/
def getClosedRanges (tp : ℚ) (rng : Nat → ℚ × ℚ) (faceIndex : List Nat) : Option (List CRange × Bool) :=
  match getIntervals (uNodes rng faceIndex) with
  | none => none
  | some rs =>
    match rs.head?, rs.getLast? with
    | some f, some l => some (closeRanges tp rs f l)
    | _, _ => none

/-- cell_definition.py 240-248 `get_u_value_boundary`: `some none` is `(None, None)`; the range of no face (the function then gives `None`) is an exception in
the caller -/
def uBoundary (tp : ℚ) (rng : Nat → ℚ × ℚ) (faceIndex : List Nat) (my : Nat) : Option (Option (Node × Node)) :=
  match getClosedRanges tp rng faceIndex with
  | none => none
  | some (_, true) => some none
  | some (rs, false) =>
    match rs.find? (fun r => decide (my ∈ r.2.2)) with
    | none => none
    | some r => some (some (r.1, r.2.1))

end Geouned.Face
