/-!
# Cell labels

Model of the numbering at the end of `CadToCsg.start` (`src/geouned/GEOUNED/core.py` 550-593), of `update_comment` (683-689) and of
`sort_enclosure` (783-848). Cells are Python objects: `ref` is the object's identity, and the attributes written here (`label`,
the cells named in the comment) live in maps indexed by it, so a cell that sits twice in a list has one label.
The texts of the comments are not modelled, only which labels they name.
-/
namespace Geouned.Labels

/-- a cell at the start of the numbering -/
structure Cell where
  /-- identity of the object -/
  ref : Nat
  /-- `__id__` -/
  id : Int
  /-- `NullCell` -/
  null : Bool
  /-- `IsEnclosure` -/
  isEncl : Bool
  /-- `Void` -/
  void : Bool
  /-- `EnclosureID` -/
  enclID : Int
  /-- `__commentInfo__[1]`: the `__id__`s of the cells in the box of a void cell; `none` if there is none (684-687) -/
  info : Option (List Int)
  deriving DecidableEq, Repr

/-- what is written: comment objects have `__id__ = None` and no label -/
inductive Out where
  | comment
  | cell (c : Cell)
  deriving DecidableEq, Repr

inductive Err where
  | keyError
  deriving DecidableEq, Repr

/-- `icount`, the labels given (newest first), the dictionary `idLabel` (newest first), the labels named in comments -/
structure St where
  count : Int
  lab : List (Nat × Int)
  ids : List (Int × Int)
  com : List (Nat × List Int)

/-- 559-561 / 792-794 -/
def St.init (offset : Int) : St := ⟨offset, [], [(0, 0)], []⟩

/-- 567-569, 820-822 etc.: number one cell and remember its identifier -/
def St.number (s : St) (c : Cell) : St :=
  { s with count := s.count + 1, lab := (c.ref, s.count + 1) :: s.lab, ids := (c.id, s.count + 1) :: s.ids }

/-- 683-689 `update_comment` -/
def updateComment (s : St) (c : Cell) : Except Err St :=
  match c.info with
  | none => .ok s
  | some l =>
    match l.mapM fun i => s.ids.lookup i with
    | none => .error .keyError
    | some ls => .ok { s with com := (c.ref, ls) :: s.com }

/-- 562-572: solids, null cells and enclosures removed -/
def solidLoop : List Cell → St → St × List Cell
  | [], s => (s, [])
  | m :: ms, s =>
    if m.null || m.isEncl then solidLoop ms s
    else
      let r := solidLoop ms (s.number m)
      (r.1, m :: r.2)

/-- 582-591: void cells; `idLabel` is not extended -/
def voidLoop : List Cell → St → Except Err (St × List Cell)
  | [], s => .ok (s, [])
  | m :: ms, s =>
    if m.null then voidLoop ms s
    else do
      let s ← updateComment { s with count := s.count + 1, lab := (m.ref, s.count + 1) :: s.lab } m
      let r ← voidLoop ms s
      .ok (r.1, m :: r.2)

/-- 558-593, without sorting -/
def plain (offset : Int) (metas voids : List Cell) : Except Err (St × List Out) := do
  let r := solidLoop metas (St.init offset)
  let v ← voidLoop voids r.1
  .ok (v.1, r.2.map .cell ++ [.comment] ++ v.2.map .cell)

/-- 785-790 `newList`: void cells by enclosure -/
def groupAdd (c : Cell) : List (Int × List Cell) → List (Int × List Cell)
  | [] => [(c.enclID, [c])]
  | (k, v) :: d => if k = c.enclID then (k, v ++ [c]) :: d else (k, v) :: groupAdd c d

def group (voids : List Cell) : List (Int × List Cell) := voids.foldl (fun d c => groupAdd c d) []

/-- 805-811, 833-839: number the cells of one enclosure -/
def emit : List Cell → St → St × List Cell
  | [], s => (s, [])
  | e :: es, s =>
    if e.null then emit es s
    else
      let r := emit es (s.number e)
      (r.1, e :: r.2)

/-- 795-823: main loop -/
def sortLoop (d : List (Int × List Cell)) : List Cell → St → Except Err (St × List Out)
  | [], s => .ok (s, [])
  | m :: ms, s =>
    if m.null then sortLoop d ms s
    else if m.isEncl then
      match d.lookup m.enclID with
      | none => .error .keyError
      | some vs => do
        let r := emit vs s
        let q ← sortLoop d ms r.1
        .ok (q.1, [.comment] ++ r.2.map .cell ++ [.comment] ++ q.2)
    else do
      let q ← sortLoop d ms (s.number m)
      .ok (q.1, .cell m :: q.2)

/-- 841-846: comments of the void cells -/
def commentLoop : List Out → St → Except Err St
  | [], s => .ok s
  | .comment :: os, s => commentLoop os s
  | .cell c :: os, s =>
    if !c.void || c.isEncl then commentLoop os s
    else do
      let s ← updateComment s c
      commentLoop os s

/-- 783-848 `sort_enclosure` -/
def sorted (offset : Int) (metas voids : List Cell) : Except Err (St × List Out) := do
  let d := group voids
  let q ← sortLoop d metas (St.init offset)
  match d.lookup 0 with
  | none => .error .keyError
  | some vs => do
    let r := emit vs q.1
    let out := q.2 ++ [.comment] ++ r.2.map .cell
    let s ← commentLoop out r.1
    .ok (s, out)

/-- 550-593: `startCell` and the choice of the mode -/
def number (startCell : Int) (sort : Bool) (metas voids : List Cell) : Except Err (St × List Out) :=
  if sort then sorted (startCell - 1) metas voids else plain (startCell - 1) metas voids

/-- the cells written, in order (`write_cells` writes the comment objects as comments) -/
def cells (out : List Out) : List Cell :=
  out.filterMap fun o => match o with
    | .comment => none
    | .cell c => some c

/-- the label written for a cell -/
def St.label (s : St) (c : Cell) : Option Int := s.lab.lookup c.ref

/-- the labels named in the comment of a cell -/
def St.comment (s : St) (c : Cell) : Option (List Int) := s.com.lookup c.ref

end Geouned.Labels

namespace Geouned.Labels
/-- `summary_write` (`src/geouned/GEOUNED/write/additional_files.py` 15-28): the number printed in the column "Cell Id", with the cell -/
def summary (out : List Out) : List (Cell × Int) :=
  (cells out).filterMap fun c => if c.void then none else some (c, c.id)

/-- the numbers given to void cells by `update_void_list` (`void/void_functions.py` 63-109): consecutive from `offset + 1`, where the caller
passes `meta_list[-1].__id__ - len(enclosure_list)` (`core.py` 511-514) -/
def voidOffset (metas : List Cell) : Int :=
  match metas.getLast? with
  | none => 0
  | some m => m.id - ((metas.filter fun c => c.isEncl).length : Int)
end Geouned.Labels
