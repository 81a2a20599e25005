import Verif.Rev.SelectSpec
/-!
# Model of the choice of the cells to build

`src/geouned/GEOReverse/core.py` (`cell_filter` 56-74, `material_filter` 76-94, `matcel_list` 128-131, 177-180),
`src/geouned/GEOReverse/Modules/MCNPinput.py` `selectCells` (324-397, without the removal of `#` of 391-392, which is in `Hash.lean`),
`src/geouned/GEOReverse/Modules/XMLinput.py` `selectCells` (177-255).
-/
namespace Geouned.Rev

/-- the strings `"all"`, `"include"`, `"exclude"` after the check of 64-68 -/
inductive Kind where
  | all
  | incl
  | excl
  deriving DecidableEq, Repr

/-- core.py 64-68: any other string is taken as "all", with a message -/
def kindOf (t : String) : Kind := if t = "exclude" then .excl else if t = "include" then .incl else .all

/-- core.py 26-29: the four attributes -/
structure Filters where
  cellKind : Kind
  cellRange : Option (List Nat)
  matKind : Kind
  matRange : Option (List Int)
  deriving DecidableEq, Repr

/-- core.py 26-29 -/
def Filters.init : Filters := ⟨.all, none, .all, none⟩

/-- core.py 70-74 / 90-94: the list is only replaced when one is given; "exclude" without a list becomes "all" -/
def newRange {α : Type} (k : Kind) (old : Option (List α)) : Option (List α) → Kind × Option (List α)
  | some l => (k, some l)
  | none => (if k = .excl then .all else k, old)

/-- core.py 56-74 `cell_filter`, 76-94 `material_filter` -/
def Filters.call (f : Filters) : Call → Filters
  | .cells t l => { f with cellKind := (newRange (kindOf t) f.cellRange l).1, cellRange := (newRange (kindOf t) f.cellRange l).2 }
  | .mats t l => { f with matKind := (newRange (kindOf t) f.matRange l).1, matRange := (newRange (kindOf t) f.matRange l).2 }

/-- the attributes after a sequence of calls -/
def Filters.after (calls : List Call) : Filters := calls.foldl Filters.call .init

/-- `x in config[...][1]`; TypeError when it is `None` -/
def isIn {α : Type} [DecidableEq α] (x : α) : Option (List α) → R Bool
  | none => .error .typeError
  | some l => .ok (l.contains x)

/-- `c.MAT in config["mat"][1]`: a material `None` is in no list of numbers -/
def matIn (m : Option Int) : Option (List Int) → R Bool
  | none => .error .typeError
  | some l => .ok (match m with | some m => l.contains m | none => false)

/-- `for name, c in cellList.items(): if ...: selected[name] = c` -/
def loop (keep : SCell → R Bool) : List SCell → R (List SCell)
  | [] => .ok []
  | c :: cs => do
    let b ← keep c
    let r ← loop keep cs
    .ok (if b then c :: r else r)

/-- `not in` -/
def notR (b : R Bool) : R Bool := do
  let x ← b
  .ok (!x)

/-- `if b: if c: ...` -/
def andR (b c : R Bool) : R Bool := do
  let x ← b
  if x then c else .ok false

/-- MCNPinput.py 324-389 `selectCells` -/
def selectMcnp (f : Filters) (cells : List SCell) : R (List SCell) :=
  match f.matKind with
  | .all =>                                                                          -- 327
    match f.cellKind with
    | .all => .ok cells
    | .excl => loop (fun c => notR (isIn c.name f.cellRange)) cells
    | .incl => loop (fun c => isIn c.name f.cellRange) cells
  | .excl =>                                                                         -- 340
    match f.cellKind with
    | .all => loop (fun c => if c.fill = none then notR (matIn c.mat f.matRange) else .ok true) cells
    | .excl => loop (fun c => if c.fill = none then andR (notR (matIn c.mat f.matRange)) (notR (isIn c.name f.cellRange))
        else notR (isIn c.name f.cellRange)) cells
    | .incl => loop (fun c => if c.fill = none then andR (notR (matIn c.mat f.matRange)) (isIn c.name f.cellRange)
        else isIn c.name f.cellRange) cells
  | .incl =>                                                                         -- 366
    match f.cellKind with
    | .all => loop (fun c => if c.fill = none then matIn c.mat f.matRange else .ok true) cells
    | .excl => loop (fun c => if c.fill = none then andR (matIn c.mat f.matRange) (notR (isIn c.name f.cellRange))
        else notR (isIn c.name f.cellRange)) cells
    | .incl => loop (fun c => if c.fill = none then andR (matIn c.mat f.matRange) (isIn c.name f.cellRange)
        else isIn c.name f.cellRange) cells

/-- XMLinput.py 229-237: `for c in cellList:` runs over the keys (numbers), which have no attribute `FILL` -/
def loopKeys : List SCell → R (List SCell)
  | [] => .ok []
  | _ :: _ => .error .attributeError

/-- XMLinput.py 177-246 `selectCells`: as above but for the branch "include"/"exclude" (229-237) -/
def selectXmlBranches (f : Filters) (cells : List SCell) : R (List SCell) :=
  if f.matKind = .incl ∧ f.cellKind = .excl then loopKeys cells else selectMcnp f cells

/-- XMLinput.py 177-255 `selectCells`: an empty selection raises ValueError (252-253) -/
def selectXml (f : Filters) (cells : List SCell) : R (List SCell) := do
  let s ← selectXmlBranches f cells
  if s = [] then .error .valueError else .ok s

end Geouned.Rev
