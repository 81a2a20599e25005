import Verif.Rev.LevelsSpec
/-!
# Model of the universes of a file

`src/geouned/GEOReverse/Modules/MCNPinput.py`: `GetLevelStructure` (90-159), `getSubUniverses` (458-468), choice of the universes in `GetFilteredCells` (38-67);
`src/geouned/GEOReverse/Modules/XMLinput.py`: the same (74-126, 278-288, 25-54).

Simplifications: the cells are those of the file after `LIKE` cells got their universe and filling (MCNPinput.py 108), with a universe number
(111-112: `None` becomes 0) and distinct names. Python sets and tuples made of them are lists, of which only the members matter.
-/
namespace Geouned.Rev

/-- `if c.FILL:` - `None` and 0 are false -/
def UCell.filled (c : UCell) : Option Nat :=
  match c.fill with
  | some 0 => none
  | f => f

/-- 113-115: the keys of `Universe_dict`, in the order of the file -/
def keysOf (cells : List UCell) : List Nat := cells.foldl (fun ks c => if c.u ∈ ks then ks else ks ++ [c.u]) []

/-- 117-119 `containers`: universe of the cell, filling -/
def containersOf (cells : List UCell) : List (Nat × Nat) := cells.filterMap fun c => c.filled.map fun f => (c.u, f)

/-- 121-127; without any candidate the name is not bound, which shows in 134 -/
def rootOf (ks labels : List Nat) : R Nat :=
  if 0 ∈ ks then .ok 0
  else match ks.find? (fun k => !labels.contains k) with
    | some k => .ok k
    | none => .error .unbound

/-- 142-147: containers left, `nextLevel`. The list is read from its end, so that removing a container does not disturb the iteration -/
def scan (cur : List Nat) : List (Nat × Nat) → List (Nat × Nat) × List Nat
  | [] => ([], [])
  | c :: cs =>
    if c.1 ∈ cur then ((scan cur cs).1, (scan cur cs).2 ++ [c.2])
    else (c :: (scan cur cs).1, (scan cur cs).2)

/-- 139-152 `while True` (`f`: rounds left): the levels after the current one -/
def levelLoop : Nat → List Nat → List (Nat × Nat) → R (List (List Nat))
  | 0, _, _ => .error .recursion
  | f + 1, cur, cs =>
    if (scan cur cs).2 = [] then .ok []
    else do
      let r ← levelLoop f (scan cur cs).2 (scan cur cs).1
      .ok ((scan cur cs).2 :: r)

/-- 90-159 `GetLevelStructure`: `self.levels`, as a list -/
def levelStructure (cells : List UCell) : R (List (List Nat)) := do
  let labels := (containersOf cells).map (·.2)
  let root ← rootOf (keysOf cells) labels
  if (keysOf cells).any (fun k => !labels.contains k && k != root) then .error .runtimeError     -- 130-132
  else do
    let r ← levelLoop ((containersOf cells).length + 1) [root] (containersOf cells)
    .ok ([root] :: r)

/-- 464-466: `for U in Uid: AllU = AllU.union(...)` -/
def unions (sub : Nat → R (List Nat)) : List Nat → R (List Nat)
  | [] => .ok []
  | x :: xs => do
    let a ← sub x
    let b ← unions sub xs
    .ok (a ++ b)

/-- 458-468 `getSubUniverses` (`f`: recursion depth allowed) -/
def getSub (cells : List UCell) : Nat → Nat → R (List Nat)
  | 0, _ => .error .recursion
  | f + 1, U =>
    if U ∉ keysOf cells then .error .keyError
    else do
      let uid := (cells.filter (fun c => c.u = U)).filterMap UCell.filled
      let r ← unions (getSub cells f) uid
      .ok (uid ++ r)

/-- 46-50: `for lev, Univ in self.levels.items(): if Ustart in Univ: break` -/
def findLevel (levels : List (List Nat)) (U : Nat) : Option Nat := levels.findIdx? (·.contains U)

/-- XMLinput.py 51-54: `for U in Ukeys: if ...: Ukeys.remove(U)`; after a removal the next key is not looked at -/
def removeFwd (keep : Nat → Bool) : List Nat → List Nat
  | [] => []
  | [x] => if keep x then [x] else []
  | x :: y :: r => if keep x then x :: removeFwd keep (y :: r) else y :: removeFwd keep r

/-- MCNPinput.py 65-67: the same, from the end of the list -/
def removeBack (keep : Nat → Bool) (ks : List Nat) : List Nat := ks.filter keep

/-- 57-60 `levelUniverse`: `for clev in range(lev, levelMax + 1)` -/
def levelUniverse (levels : List (List Nat)) (lev : Nat) (levelMax : Int) : List Nat :=
  (((List.range levels.length).filter fun (k : Nat) => lev ≤ k ∧ (k : Int) ≤ levelMax).map fun k => levels.getD k []).flatten

/-- 38-67: the universes to build; `xml` tells the reader, `f` the recursion depth allowed -/
def universeKeys (xml : Bool) (f : Nat) (cells : List UCell) (levels : List (List Nat)) (start : Nat) (depth : Int) : R (List Nat) :=
  if depth = 0 then .ok [start]
  else do
    let sub ← getSub cells f start
    match findLevel levels start with
    | none => .error .valueError
    | some lev =>
      let levelMax : Int := if depth = -1 then (levels.length : Int) - 1 else min (lev + depth) ((levels.length : Int) - 1)
      let keep := fun U => (start :: sub).contains U && (levelUniverse levels lev levelMax).contains U
      .ok (if xml then removeFwd keep (keysOf cells) else removeBack keep (keysOf cells))

end Geouned.Rev
