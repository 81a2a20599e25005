import Verif.Misc.Planes
/-!
# Enclosure hierarchy

Model of `check_enclosure`, `set_enclosure_levels`, `update_tree` and `check_overlap`
(`src/geouned/GEOUNED/loadfile/load_functions.py` 120-308). An enclosure is its identifier and that of its parent (both are
read from digits of the label, so natural numbers). The first check of `check_enclosure` (167-188: labels without solid)
collects nothing, because it keeps only elements with solids and then asks for elements without solids; it is left out.
-/
namespace Geouned.Encl

/-- `EnclosureID`, `ParentEnclosureID` -/
structure Encl where
  id : Nat
  parent : Nat
  deriving DecidableEq, Repr

inductive Err where
  | valueError
  | attributeError
  | nameError
  /-- the loop does not end within the given number of rounds -/
  | fuel
  deriving DecidableEq, Repr

/-- 198-205 : `repeated_id` is not empty -/
def hasRepeated : List Nat → Bool
  | [] => false
  | a :: l => l.contains a || hasRepeated l

/-- 225-230 : `encl_dict`, children of each parent, keys in order of insertion -/
def dictAdd (p c : Nat) : List (Nat × List Nat) → List (Nat × List Nat)
  | [] => [(p, [c])]
  | (k, v) :: d => if k = p then (k, v ++ [c]) :: d else (k, v) :: dictAdd p c d

def childDict (es : List Encl) : List (Nat × List Nat) := es.foldl (fun d e => dictAdd e.parent e.id d) []

/-- 237-241 : body for one `p`: `(cont, next_parent, encl_dict)` -/
def visit (s : Bool × List Nat × List (Nat × List Nat)) (p : Nat) : Bool × List Nat × List (Nat × List Nat) :=
  match s.2.2.lookup p with
  | some l => (true, s.2.1 ++ l, s.2.2.filter fun kv => kv.1 != p)
  | none => s

/-- 234-242 : the `while` loop -/
def walk : Nat → List Nat → List (Nat × List Nat) → Except Err (List (Nat × List Nat))
  | 0, _, _ => .error .fuel
  | k + 1, parent, dict =>
    let s := parent.foldl visit (false, [], dict)
    if s.1 then walk k s.2.1 s.2.2 else .ok s.2.2

/-- 192-249 : points 1) to 4) -/
def checkTree (fuel : Nat) (es : List Encl) : Except Err Unit :=
  if (es.map Encl.id).contains 0 || !(es.map Encl.parent).contains 0 || hasRepeated (es.map Encl.id) then .error .valueError
  else do
    let d ← walk fuel [0] (childDict es)
    if d.isEmpty then .ok () else .error .valueError

/-- 121-139 : the levels; `current` is `nested_list[parent_level]`. The last level of the code is always the empty list. -/
def levels : Nat → List Encl → List Nat → Except Err (List (List Encl))
  | _, [], _ => .ok [[]]
  | 0, _ :: _, _ => .error .fuel
  | k + 1, e :: es, current => do
    let sel := (e :: es).filter fun x => current.contains x.parent
    let ls ← levels k ((e :: es).filter fun x => !current.contains x.parent) (sel.map Encl.id)
    .ok (sel :: ls)

/-- 141-151 : in each level, sort by (parent, position) -/
def groupLevel (l : List Encl) : List Encl := Planes.sortByKey (fun a b : Nat => decide (a ≤ b)) Encl.parent l

/-- 153-159 : children assigned to each enclosure, level by level (nothing for the last level) -/
def sons : List (List Encl) → List (Encl × List Encl)
  | [] => []
  | [_] => []
  | l :: l' :: ls => l.map (fun e => (e, l'.filter fun c => c.parent == e.id)) ++ sons (l' :: ls)

/-- 120-161 `set_enclosure_levels`: the nested list and the assignment of `SonEnclosures` -/
def setLevels (fuel : Nat) (es : List Encl) : Except Err (List (List Encl) × List (Encl × List Encl)) := do
  let ls ← levels fuel es [0]
  let gs := ls.map groupLevel
  .ok (gs, sons gs)

/-- 301-308 `update_tree` -/
def updateTree (tree : List (List Nat)) (level : List Encl) : List (List Nat) :=
  level.flatMap fun e => tree.filterMap fun lst => if lst.getLast? = some e.parent then some (lst ++ [e.id]) else none

/-- 291-298 `check_overlap`, applied by the code to lists of *identifiers*: any comparison is an `AttributeError` -/
def checkOverlap : List Nat → Except Err Unit
  | [] => .ok ()
  | [_] => .ok ()
  | _ :: _ :: _ => .error .attributeError

/-- 258-265 : `same_parent` after the loop over the level: it is created anew for each enclosure, so only the last one counts.
`prev` is the value left by the previous level. -/
def sameParent (prev : Option (List (List Nat))) (level : List Encl) : Option (List (List Nat)) :=
  match level.getLast? with
  | none => prev
  | some e => some [[e.id]]

/-- 254-265 : loop over the levels -/
def overlapLoop : List (List Encl) → List (List Nat) → Option (List (List Nat)) → Except Err (List (List Nat))
  | [], tree, _ => .ok tree
  | l :: ls, tree, prev =>
    match sameParent prev l with
    | none => .error .nameError
    | some vs => do
      vs.forM checkOverlap
      overlapLoop ls (updateTree tree l) (some vs)

/-- 267-273 : the chains hold identifiers, on which `check_intersection` is an `AttributeError` -/
def embedLoop : List (List Nat) → Except Err Unit
  | [] => .ok ()
  | (_ :: _ :: _) :: _ => .error .attributeError
  | _ :: cs => embedLoop cs

/-- 164-288 `check_enclosure`. The geometry of the enclosures is nowhere consulted, so it is not an argument. -/
def checkEnclosure (fuel : Nat) (es : List Encl) : Except Err Unit := do
  checkTree fuel es
  let ls ← setLevels fuel es
  let tree ← overlapLoop ls.1 [[0]] none
  embedLoop tree

end Geouned.Encl
