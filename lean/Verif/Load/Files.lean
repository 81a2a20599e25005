import Verif.Load.Model
import Mathlib.Data.List.Sort
/-!
# Model of the loading of several STEP files

`src/geouned/GEOUNED/core.py` 316-345 (`load_step_file`, after the checks of its arguments) and 755-764 (`join_meta_lists`); `src/geouned/GEOUNED/loadfile/load_step.py` 19-31 (`extract_materials`).

Cells are objects: the list of enclosures has the same objects as the list of cells, and a number given to one is seen in the other. An object is its place in the list of all cells of all
files; `ids` is the number (`__id__`) of each.
-/
namespace Geouned.Load

open Geouned.CellText

/-- core.py 761-763: the loop that gives numbers to the cells of one file -/
def setIds (ids : Nat → Nat) (start : Nat) : List Nat → Nat → Nat
  | [] => ids
  | r :: rs => setIds (Function.update ids r start) (start + 1) rs

/-- core.py 759-763: the loop over the other files -/
def joinRest (ids : Nat → Nat) (new : List Nat) : List (List Nat) → (Nat → Nat) × List Nat
  | [] => (ids, new)
  | m :: ms => joinRest (setIds ids (ids (new.getLast?.getD 0) + 1) m) (new ++ m) ms

/-- core.py 755-764 `join_meta_lists` -/
def joinMetaLists (ids : Nat → Nat) : List (List Nat) → Except Exc ((Nat → Nat) × List Nat)
  | [] => .error .index
  | m :: ms => if m = [] then .ok (ids, []) else .ok (joinRest ids m ms)

/-- the objects of the files, one list for each: places in the list of all cells -/
def objects {α : Type} : Nat → List (List α) → List (List Nat)
  | _, [] => []
  | i, f :: fs => List.range' i f.length :: objects (i + f.length) fs

/-- `del l[k]` -/
def delAt {α : Type} (l : List α) (k : Int) : Except Exc (List α) :=
  if 0 ≤ k then if k < l.length then .ok (l.eraseIdx k.toNat) else .error .index
  else if 0 ≤ k + l.length then .ok (l.eraseIdx (k + l.length).toNat) else .error .index

/-- core.py 331-334: the loop over the indices, once sorted -/
def skipLoop {α : Type} : List Int → List α → Except Exc (List α)
  | [], l => .ok l
  | k :: ks, l =>
    match delAt l k with
    | .error x => .error x
    | .ok l' => skipLoop ks l'

/-- core.py 330-334: `for solid_index in sorted(skip_solids, reverse=True): del self.meta_list[solid_index]` -/
def skipSolids {α : Type} (skip : List Int) (l : List α) : Except Exc (List α) := skipLoop (skip.insertionSort (· ≥ ·)) l

/-- core.py 341-343: `for m in reversed(self.meta_list): if m.Solids is None: self.meta_list.remove(m)`; `i` is the place after the one looked at -/
def removeNone (empty : Nat → Bool) : Nat → List Nat → List Nat
  | 0, l => l
  | i + 1, l =>
    match l[i]? with
    | none => l
    | some r => if empty r then removeNone empty i (l.erase r) else removeNone empty i l

/-- the ways the loading of files ends -/
inductive Outcome (α : Type)
  | ok (x : α) | error (x : Exc) | exit

/-- core.py 328-345: from the cells of each file to the cells and the enclosures of the model -/
def loadFiles {S : Type} (files : List (List (Meta S))) (skip : List Int) : Outcome (List (Meta S) × List (Meta S)) :=
  let cell := fun r => files.flatten[r]?
  let show_ := fun (ids : Nat → Nat) (l : List Nat) => l.filterMap (fun r => (cell r).map (fun m => { m with id := ids r }))
  let objs := objects 0 files
  let encl := objs.map (fun l => l.filter (fun r => (cell r).any (·.isEnclosure)))
  match joinMetaLists (fun r => ((cell r).map (·.id)).getD 0) objs with
  | .error x => .error x
  | .ok (ids, cells) =>
    match joinMetaLists ids encl with
    | .error x => .error x
    | .ok (ids', encls) =>
      match skipSolids skip cells with
      | .error x => .error x
      | .ok cells' =>
        if encls.any (fun r => (cell r).any (·.solids.isNone)) then .exit
        else .ok (show_ ids' (removeNone (fun r => (cell r).any (·.solids.isNone)) cells'.length cells'), show_ ids' encls)

/-- load_step.py 19-31 `extract_materials`: the lines of the file; `int` and `float` read a word, `none` is a ValueError. The table keeps the last value given to a label -/
def extractMaterials {V : Type} (int : List Char → Option Int) (float : List Char → Option V) (neg : V → V) : List (List Char) → (Int → Option (V × List Char)) → Except Exc (Int → Option (V × List Char))
  | [], d => .ok d
  | line :: lines, d =>
    match pySplit line with
    | [] => .error .index
    | w :: ws =>
      if w.head? = some '#' then extractMaterials int float neg lines d
      else
        match int w with
        | none => .error .value
        | some k =>
          match ws with
          | [] => .error .index
          | v :: ws =>
            match float v with
            | none => .error .value
            | some x => extractMaterials int float neg lines (Function.update d k (some (neg x, joinWords ws)))

end Geouned.Load
