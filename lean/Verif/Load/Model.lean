import Verif.CellText.Model
import Mathlib.Data.Rat.Defs
/-!
# Model of the loading of a STEP file

`src/geouned/GEOUNED/loadfile/load_step.py` 34-216 (`load_cad`), `src/geouned/GEOUNED/loadfile/load_functions.py` 12-79 (`get_label`, `getCommentTree`,
`joinEnvelopes`, `fuse_meta_obj`), 96-98 (`set_enclosure_solid_list`), `src/geouned/GEOUNED/utils/functions.py` 43-95 and 138-161 (`GeounedSolid`).

The CAD document is the list of its `Part::Feature` elements, each with the labels of its branch (its own first, then that of its parent `InList[0]`, …) and its solids; the list of
solids that the kernel reads from the file is the list of the solids of the elements, in their order. `S` is the type of solids, `spl` tells the solids with spline surfaces.

Simplifications: `removeSplitter` gives the solid itself; digits are the ASCII digits; numbers are exact rationals; the checks of enclosures are in `Misc/Encl.lean`; volumes, boxes and
messages are left out.
-/
namespace Geouned.Load

open Geouned.CellText

/-- an element of the CAD tree -/
structure Elem (S : Type) where
  label : List Char
  parents : List (List Char)
  solids : List S

/-- `CellType` -/
inductive Kind
  | solid | void | envelope
deriving DecidableEq

/-- the text or number kept as `MatInfo` -/
inductive Info
  | none | zero | missing | name (s : List Char)
deriving DecidableEq

/-- functions.py 43-95 `GeounedSolid`: the fields set when a file is loaded -/
structure Meta (S : Type) where
  id : Nat
  solids : Option (List S)
  comments : List Char := []
  material : Nat := 0
  rho : Option ℚ := none
  info : Info := .none
  density : Option ℚ := some 0
  dilution : ℚ := 1
  fill : Option Nat := none
  trans : Option Nat := none
  kind : Kind := .solid
  isEnclosure : Bool := false
  enclId : Option Nat := none
  parentId : Option Nat := none
deriving DecidableEq

/-- the options and settings that loading reads; `matFile` is the table read from the material file -/
structure Opts where
  delLast : Bool
  comp : Bool
  remove : Bool
  voidMat : Option (Nat × ℚ × Info)
  matFile : Nat → Option (ℚ × List Char)

/-- the exceptions: IndexError, ValueError -/
inductive Exc
  | index | value
deriving DecidableEq

/-- `" ".join(words)` -/
def joinWords : List (List Char) → List Char
  | [] => []
  | [w] => w
  | w :: ws => w ++ ' ' :: joinWords ws

/-- load_functions.py 12-22 `get_label` -/
def getLabel (delLast : Bool) (label : List Char) : List Char :=
  if delLast then joinWords (pySplit label).dropLast else label

/-- load_functions.py 25-36 `getCommentTree` -/
def commentTree (delLast : Bool) (parents : List (List Char)) : List Char :=
  parents.reverse.flatMap (fun l => '/' :: getLabel delLast l)

/-- the value of a text of digits -/
def digVal (ds : List Char) : Nat := ds.foldl (fun n c => 10 * n + (c.toNat - 48)) 0

/-- `\d+_` at the beginning of a text: the digits and what follows -/
def matchNum (s : List Char) : Option (List Char × List Char) :=
  if s.takeWhile Char.isDigit = [] then none
  else
    match s.dropWhile Char.isDigit with
    | '_' :: rest => some (s.takeWhile Char.isDigit, rest)
    | _ => none

/-- a text at the beginning of another: what follows -/
def matchText : List Char → List Char → Option (List Char)
  | [], s => some s
  | _ :: _, [] => none
  | c :: p, d :: s => if c = d then matchText p s else none

/-- `re.search`: the first place of a text where a pattern matches; `m` tries it at the beginning of a text (the patterns used match no empty text) -/
def search {α : Type} (m : List Char → Option α) : List Char → Option α
  | [] => none
  | c :: s =>
    match m (c :: s) with
    | some x => some x
    | none => search m s

/-- load_step.py 114, 122, 130: `re.search("_m(?P<mat>\d+)_", …)` and the like, with `pre` the text before the digits -/
def searchNum (pre : List Char) : List Char → Option Nat :=
  search (fun t => ((matchText pre t).bind matchNum).map (fun r => digVal r.1))

/-- the digits of a pair: the pattern `\d+_\d+_` -/
def matchPair (t : List Char) : Option (Nat × Nat) :=
  match matchNum t with
  | none => none
  | some (ds, rest) => (matchNum rest).map (fun q => (digVal ds, digVal q.1))

/-- load_step.py 92-98: `re.search("enclosure(?P<encl>[0-9]+)_(?P<parent>[0-9]+)_", …)` and the same for `envelope` -/
def searchPair (pre : List Char) : List Char → Option (Nat × Nat) := search (fun t => (matchText pre t).bind matchPair)

/-- `\d*\.\d*_` at the beginning of a text: the digits before and after the point -/
def matchDec (s : List Char) : Option (List Char × List Char) :=
  match s.dropWhile Char.isDigit with
  | '.' :: r =>
    match r.dropWhile Char.isDigit with
    | '_' :: _ => some (s.takeWhile Char.isDigit, r.takeWhile Char.isDigit)
    | _ => none
  | _ => none

/-- load_step.py 138: `re.search("_d(?P<dil>\d*\.\d*)_", …)` -/
def searchDec (pre : List Char) : List Char → Option (List Char × List Char) := search (fun t => (matchText pre t).bind matchDec)

/-- `float(…)` of digits, a point and digits; a point alone is no number -/
def decVal (a b : List Char) : Except Exc ℚ :=
  if a = [] ∧ b = [] then .error .value else .ok ((digVal a : ℚ) + digVal b / 10 ^ b.length)

/-- load_step.py 110-139: `while xelem and not found` over the element and the elements above it -/
def searchUp {α : Type} (find : List Char → Option α) : List (List Char) → Option α
  | [] => none
  | l :: ls =>
    match find l with
    | some x => some x
    | none => searchUp find ls

/-- what is found in the labels of an element (load_step.py 77-143) -/
structure Found where
  mat : Option Nat
  fill : Option Nat
  trans : Option Nat
  dil : Option (List Char × List Char)
  encl : Option (Nat × Nat)
  envel : Option (Nat × Nat)

/-- load_step.py 92-98: the label of the element above, then that of the element -/
def searchTwo (pre up own : List Char) : Option (Nat × Nat) :=
  match searchPair pre up with
  | some p => some p
  | none => searchPair pre own

/-- load_step.py 77-143 -/
def findAll {S : Type} (o : Opts) (e : Elem S) : Found :=
  match e.parents with
  | [] => ⟨none, none, none, none, none, none⟩
  | p :: ps =>
    let chain := (e.label :: p :: ps).map (getLabel o.delLast)
    ⟨searchUp (fun l => searchNum ['_', 'm'] ('_' :: l)) chain, searchUp (fun l => searchNum ['_', 'f'] ('_' :: l)) chain,
      searchUp (fun l => searchNum ['_', 't'] ('_' :: l)) chain, searchUp (searchDec ['_', 'd']) chain,
      searchTwo "enclosure".toList (getLabel o.delLast p) (getLabel o.delLast e.label),
      searchTwo "envelope".toList (getLabel o.delLast p) (getLabel o.delLast e.label)⟩

variable {S : Type}

/-- load_functions.py 60-79 `fuse_meta_obj`; `GeounedSolid(…, solids)` of an empty list has no solids -/
def fuse (l : List (Meta S)) (init stop : Nat) : Except Exc (List (Meta S)) :=
  if stop - init = 1 then
    match l[init]? with
    | none => .error .index
    | some m => .ok (l.set init { m with id := init + 1 })
  else
    match l[init]? with
    | none => .error .index
    | some m =>
      let sols := ((l.take stop).drop init).flatMap (fun x => x.solids.getD [])
      .ok (l.take init ++ [{ id := init + 1, solids := if sols = [] then none else some sols, kind := m.kind, isEnclosure := m.isEnclosure, enclId := m.enclId, parentId := m.parentId }] ++ l.drop (max init stop))

/-- functions.py 138-148 `set_material` -/
def setMaterial (m : Meta S) (mat : Nat) (rho : ℚ) (info : Info) : Meta S :=
  { m with material := mat, rho := some rho, info := info, density := some (m.dilution * rho) }

/-- functions.py 158-161 `set_dilution` -/
def setDilution (m : Meta S) (d : ℚ) : Meta S :=
  { m with dilution := d, density := (m.rho.map (fun r => r * d)).or m.density }

/-- load_step.py 162-181: the material -/
def setMat (o : Opts) (f : Found) (m : Meta S) : Meta S :=
  match f.mat with
  | some k =>
    match o.matFile k with
    | some (r, n) => setMaterial m k r (.name n)
    | none => if k = 0 then setMaterial m k 0 .zero else setMaterial m k (-100) .missing
  | none =>
    match o.voidMat with
    | some (k, r, i) => setMaterial m k r i
    | none => m

/-- load_step.py 189-190: the dilution -/
def setDil (f : Found) (m : Meta S) : Except Exc (Meta S) :=
  match f.dil with
  | none => .ok m
  | some (a, b) =>
    match decVal a b with
    | .error x => .error x
    | .ok d => .ok (setDilution m d)

/-- load_step.py 192-202: enclosures and envelopes -/
def setEncl (f : Found) (m : Meta S) : Meta S :=
  match f.envel with
  | some (e, p) => { m with enclId := some e, parentId := some p, isEnclosure := true, kind := .envelope }
  | none =>
    match f.encl with
    | some (e, p) => { m with enclId := some e, parentId := some p, isEnclosure := true, kind := .void }
    | none => m

/-- load_step.py 158-202: one turn of the loop over the solids of the element -/
def setAll (o : Opts) (f : Found) (comment : List Char) (i : Nat) (m : Meta S) : Except Exc (Meta S) :=
  let m := setMat o f { m with comments := comment ++ Nat.toDigits 10 (i + 1) }
  match setDil f { m with fill := f.fill.or m.fill, trans := f.trans.or m.trans } with
  | .error x => .error x
  | .ok m => .ok (setEncl f m)

/-- load_step.py 158-203: the loop; arguments: how many turns are left, `i`, `i_solid` -/
def attrLoop (o : Opts) (f : Found) (comment : List Char) : Nat → Nat → Nat → List (Meta S) → Except Exc (List (Meta S))
  | 0, _, _, l => .ok l
  | n + 1, i, iSolid, l =>
    match l[iSolid]? with
    | none => .error .index
    | some m =>
      match setAll o f comment i m with
      | .error x => .error x
      | .ok m' => attrLoop o f comment n (i + 1) (iSolid + 1) (l.set iSolid m')

/-- load_step.py 147-156: the solids of the element made one cell, and their number -/
def fuseElem (o : Opts) (f : Found) (k iSolid : Nat) (l : List (Meta S)) : Except Exc (List (Meta S) × Nat) :=
  if o.comp || f.encl.isSome || f.envel.isSome then
    match fuse l iSolid (iSolid + k) with
    | .error x => .error x
    | .ok l' => .ok (l', 1)
  else .ok (l, k)

/-- load_step.py 75, 85: `comment` -/
def elemComment (o : Opts) (e : Elem S) : List Char := commentTree o.delLast e.parents ++ '/' :: getLabel o.delLast e.label

/-- load_step.py 73-203: the loop over the elements -/
def elemLoop (o : Opts) : List (Elem S) → Nat → List (Meta S) → Except Exc (List (Meta S))
  | [], _, l => .ok l
  | e :: es, iSolid, l =>
    if e.solids = [] then elemLoop o es iSolid l
    else
      match fuseElem o (findAll o e) e.solids.length iSolid l with
      | .error x => .error x
      | .ok (l', n) =>
        match attrLoop o (findAll o e) (elemComment o e) n 0 iSolid l' with
        | .error x => .error x
        | .ok l'' => elemLoop o es (iSolid + n) l''

/-- load_functions.py 43-54: the lists of positions of the envelopes with the same number, one after the other; `cur` is `new_list`, `old` is `old_id` (`none` is -1) -/
def envelopeRuns : List (Meta S) → Nat → Option Nat → List Nat → List (List Nat)
  | [], _, _, cur => [cur]
  | m :: ms, i, old, cur =>
    if m.kind ≠ .envelope then envelopeRuns ms (i + 1) old cur
    else if m.enclId ≠ old then cur :: envelopeRuns ms (i + 1) m.enclId [i]
    else envelopeRuns ms (i + 1) old (cur ++ [i])

/-- load_functions.py 53-54: `fuse_meta_obj(meta_list, id_list[0], id_list[-1] + 1)` for each list -/
def fuseRuns : List (List Nat) → List (Meta S) → Except Exc (List (Meta S))
  | [], l => .ok l
  | r :: rs, l =>
    match r.head?, r.getLast? with
    | some a, some b =>
      match fuse l a (b + 1) with
      | .error x => .error x
      | .ok l' => fuseRuns rs l'
    | _, _ => .error .index

/-- load_functions.py 39-54 `joinEnvelopes` -/
def joinEnvelopes (l : List (Meta S)) : Except Exc (List (Meta S)) := fuseRuns ((envelopeRuns l 0 none []).drop 1) l

/-- load_step.py 53-62: the cells of the solids of the file -/
def firstMetas (o : Opts) (spl : S → Bool) : List S → Nat → List (Meta S)
  | [], _ => []
  | s :: ss, i => { id := i + 1, solids := if spl s && o.remove then none else some [s] } :: firstMetas o spl ss (i + 1)

/-- load_step.py 34-216 `load_cad`: the cells of the file (the list of enclosures is that of the cells with `IsEnclosure`). The exit for spline surfaces is not modelled -/
def loadCad (o : Opts) (spl : S → Bool) (es : List (Elem S)) : Except Exc (List (Meta S)) :=
  match elemLoop o es 0 (firstMetas o spl (es.flatMap (·.solids)) 0) with
  | .error x => .error x
  | .ok l => joinEnvelopes l

end Geouned.Load
