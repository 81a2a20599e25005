import Verif.Misc.Encl
/-!
# Model of the void generation with enclosures

`assignEnclosure`, `select_solids`, `update_void_list` (`src/geouned/GEOUNED/void/void_functions.py` 1-109) and the frame of `void_generation`
(`src/geouned/GEOUNED/void/void.py` 17-94). The answers of `check_intersection` (functions.py 163-194) and the void cells of one enclosure
(`get_void_def`) are arguments.
-/
namespace Geouned.Encl

/-- 9-33: what is kept for a solid: `dep` and `m.ParentEnclosureID` -/
structure Dep where
  dep : List Int
  parent : Int
  deriving DecidableEq, Repr

/-- `dep.add(x)`; `m.ParentEnclosureID = x` -/
def Dep.add (d : Dep) (x : Int) : Dep := ⟨if x ∈ d.dep then d.dep else d.dep ++ [x], x⟩

/-- void_functions.py 10-26: one level; `inter e` is `m.check_intersection(encl.CADSolid)`, `top` is `lev == len(NestedEnclosure) - 1`.
The flag: the loop ended with `break` (`outside = False`) -/
def levelLoop (inter : Encl → Int) (top : Bool) : List Encl → Dep → Dep × Bool
  | [], d => (d, false)
  | e :: es, d =>
    if inter e = 0 then
      if top then levelLoop inter top es ((d.add e.id).add (-1)) else levelLoop inter top es (d.add e.id)
    else if inter e = -1 then (d.add e.id, true)
    else levelLoop inter top es d

/-- 9-31: the levels, from the last to the first -/
def levelsLoop (inter : Encl → Int) : List (List Encl) → Dep → Dep
  | [], d => d
  | l :: ls, d =>
    let r := levelLoop inter ls.isEmpty l d
    if r.2 then r.1 else levelsLoop inter ls r.1

/-- 1-38 `assignEnclosure` for one solid: `m.enclosure_list`, `m.ParentEnclosureID` (`None` before, here 0) -/
def assign (inter : Encl → Int) (nested : List (List Encl)) : Dep :=
  let d := levelsLoop inter nested.reverse ⟨[], 0⟩
  if d.dep.isEmpty then d.add (-1) else d

/-- a solid: its number and its answers to `check_intersection` -/
structure Sol where
  id : Int
  inter : Encl → Int

/-- what `get_void_def` is given -/
inductive Obj where
  | encl (e : Encl)
  | sol (s : Sol)

/-- 41-60 `select_solids`: `k` is the identifier of the enclosure, -1 for the universe -/
def select (nested : List (List Encl)) (sons : List Encl) (k : Int) (ms : List Sol) : List Obj :=
  sons.map .encl ++ (ms.filter fun m => decide (k ∈ (assign m.inter nested).dep)).map .sol

/-- void.py 30-92 `void_generation` with enclosures, before `update_void_list`: one list for the universe, one for each enclosure that is not an envelope.
`getVoid` is `get_void_def`, its first argument the enclosure (`none`: the universe); `sonsOf e` is `SonEnclosures` -/
def voidLists {γ : Type} (getVoid : Option Encl → List Obj → List γ) (envelope : Encl → Bool) (sonsOf : Encl → List Encl)
    (nested : List (List Encl)) (ms : List Sol) : List (List γ) :=
  getVoid none (select nested (nested.headD []) (-1) ms) ::
    ((nested.flatten.filter fun e => !envelope e).map fun e => getVoid (some e) (select nested (sonsOf e) e.id ms))

/-- a void cell: `__id__`, `EnclosureID`, `ParentEnclosureID` -/
structure VCell (γ : Type) where
  id : Int
  encl : Int
  parent : Int
  cell : γ
  deriving DecidableEq, Repr

/-- 73-80, 87-96, 102-107: one list of void cells -/
def numberVoids {γ : Type} (encl parent : Int) : Int → List γ → List (VCell γ)
  | _, [] => []
  | n, c :: cs => ⟨n, encl, parent, c⟩ :: numberVoids encl parent (n + 1) cs

/-- 82-97: the enclosures; `vl` is `voidList[ivoid:]`, an `IndexError` when it is empty -/
def numberEncls {γ : Type} : Int → List Encl → List (List γ) → Option (List (VCell γ) × Int)
  | n, [], _ => some ([], n)
  | _, _ :: _, [] => none
  | n, e :: es, vs :: vl => do
    let r ← numberEncls (n + vs.length) es vl
    some (numberVoids e.id e.parent n vs ++ r.1, r.2)

/-- 63-109 `update_void_list`: `none` is an `IndexError` -/
def updateVoidList {γ : Type} (offset : Int) (vl : List (List γ)) (envelope : Encl → Bool) (nested : List (List Encl)) : Option (List (VCell γ)) :=
  match vl, vl.getLast? with
  | v0 :: rest, some grave => do
    let r ← numberEncls (offset + 1 + v0.length) (nested.flatten.filter fun e => !envelope e) rest
    some (numberVoids 0 (-1) (offset + 1) v0 ++ r.1 ++ numberVoids 0 (-1) r.2 grave)
  | _, _ => none

/-- void.py 17-94 `void_generation`; `grave` are the two graveyard cells -/
def voidGeneration {γ : Type} (getVoid : Option Encl → List Obj → List γ) (envelope : Encl → Bool) (sonsOf : Encl → List Encl)
    (nested : List (List Encl)) (ms : List Sol) (grave : List γ) (init : Int) : Option (List (VCell γ)) :=
  updateVoidList init (voidLists getVoid envelope sonsOf nested ms ++ [grave]) envelope nested

end Geouned.Encl
