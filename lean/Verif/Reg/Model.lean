import Mathlib.Data.List.Perm.Basic
import Mathlib.Data.List.Nodup
import Mathlib.Data.List.Range
/-!
# Model of the surface registry `SurfacesDict`
`src/geouned/GEOUNED/utils/functions.py` 339-597, and of `sorted_surfaces`
(`src/geouned/GEOUNED/write/mcnp_format.py` 349-357; the same text in phits_format.py 550-558, serpent_format.py 350-358,
openmc_format.py 252-260).

`α` is the type of surfaces without their number; the geometric comparison (`is_same_plane` ... with the tolerances)
is a parameter of each registration. A registered surface object carries its number (`.Index`): an entry is the pair
(number, surface). Not modelled: registering the same Python object in two registries.
-/
namespace Geouned.Reg

/-- the keys of the dictionary, 342 -/
inductive Key | PX | PY | PZ | P | Cyl | Cone | Sph | Tor
deriving DecidableEq, Repr

/-- 342, in the order of the code -/
def keys : List Key := [.PX, .PY, .PZ, .P, .Cyl, .Cone, .Sph, .Tor]

/-- Python exceptions that these methods can raise -/
inductive Err
  /-- list index out of range, 373 -/
  | indexError
  /-- `list.remove(x)`: x not in list, 387 -/
  | valueError
  /-- `self.__surfIndex__[""]`, 387 -/
  | keyError
deriving DecidableEq, Repr

/-- 339-359 the object; `last = none` is `("", -1)` -/
structure Reg (α : Type) where
  lists : Key → List (Int × α)
  surfIndex : Key → List Int
  last : Option (Key × Nat)
  surfaceNumber : Nat
  offset : Int

variable {α : Type}

/-- 340-359 `SurfacesDict(offset=...)` -/
def Reg.empty (offset : Int) : Reg α := ⟨fun _ => [], fun _ => [], none, 0, offset⟩

/-- 340-353 `SurfacesDict(surfaces)`: copies the lists, the offset is the default 0 -/
def Reg.copy (r : Reg α) : Reg α := { r with offset := 0 }

/-- change one list of a table -/
def upd {β : Type} (f : Key → β) (k : Key) (v : β) : Key → β := fun j => if j = k then v else f j

/-- 376-381: the loop over the number table: first key that holds the number, and the position -/
def findKey (tab : Key → List Int) (index : Int) : List Key → Option (Key × Nat)
  | [] => none
  | k :: ks => if index ∈ tab k then some (k, (tab k).idxOf index) else findKey tab index ks

/-- 376-383: look-up through the number table (`self[key][i]` may fail) -/
def Reg.search (r : Reg α) (index : Int) : Except Err (Option (Int × α) × Reg α) :=
  match findKey r.surfIndex index keys with
  | none => .ok (none, r)
  | some (k, i) =>
    match (r.lists k)[i]? with
    | none => .error .indexError
    | some e => .ok (some e, { r with last := some (k, i) })

/-- 366-383 `get_surface` -/
def Reg.getSurface (r : Reg α) (index : Int) : Except Err (Option (Int × α) × Reg α) :=
  match r.last with
  | none => r.search index
  | some (k, i) =>
    if (r.lists k).length > 0 then
      match (r.lists k)[i]? with
      | none => .error .indexError
      | some e => if e.1 = index then .ok (some e, r) else r.search index
    else r.search index

/-- 387-389: the two deletions at the position of the last object -/
def Reg.delLast (r : Reg α) (index : Int) : Except Err (Reg α) :=
  match r.last with
  | none => .error .keyError
  | some (k, i) =>
    if index ∈ r.surfIndex k then
      if i < (r.lists k).length then
        .ok { r with surfIndex := upd r.surfIndex k ((r.surfIndex k).erase index),
                     lists := upd r.lists k ((r.lists k).eraseIdx i) }
      else .error .indexError
    else .error .valueError

/-- 385-389 `del_surface` -/
def Reg.delSurface (r : Reg α) (index : Int) : Except Err (Reg α) :=
  match r.getSurface index with
  | .error e => .error e
  | .ok (_, r') => r'.delLast index

/-- first position whose surface is the same as `s` (406-500, 504-516, ...: the `for i, p in enumerate(...)` loops) -/
def findSame (same : α → α → Bool) (s : α) : List (Int × α) → Nat → Option (Nat × Int)
  | [], _ => none
  | e :: es, i => if same s e.2 then some (i, e.1) else findSame same s es (i + 1)

/-- 404-500 `add_plane` (with the key chosen by the axis test), 502-526 `add_cylinder`, 528-550 `add_cone`,
552-573 `add_sphere`, 575-597 `add_torus`: they differ only in the key and the comparison -/
def Reg.add (r : Reg α) (k : Key) (same : α → α → Bool) (s : α) : (Int × Bool) × Reg α :=
  match findSame same s (r.lists k) 0 with
  | some (i, index) => ((index, true), { r with last := some (k, i) })
  | none =>
    let n := r.surfaceNumber + 1
    let index : Int := n + r.offset
    ((index, false),
      { r with surfaceNumber := n, last := some (k, (r.lists k).length),
               lists := upd r.lists k (r.lists k ++ [(index, s)]),
               surfIndex := upd r.surfIndex k (r.surfIndex k ++ [index]) })

/-- mcnp_format.py 352-356: one turn of the loop -/
def sortStep (temp : Reg α) (index : Int) : Except Err (Option (Int × α) × Reg α) :=
  match temp.getSurface index with
  | .error e => .error e
  | .ok (none, temp) => .ok (none, temp)
  | .ok (some s, temp) =>
    match temp.delSurface index with
    | .error e => .error e
    | .ok temp => .ok (some s, temp)

/-- mcnp_format.py 351-357: the loop over the numbers -/
def sortLoop (temp : Reg α) : List Int → Except Err (List (Int × α))
  | [] => .ok []
  | ind :: inds =>
    match sortStep temp ind with
    | .error e => .error e
    | .ok (none, temp) => sortLoop temp inds
    | .ok (some s, temp) =>
      match sortLoop temp inds with
      | .error e => .error e
      | .ok l => .ok (s :: l)

/-- mcnp_format.py 349-357 `sorted_surfaces` -/
def sortedSurfaces (r : Reg α) : Except Err (List (Int × α)) :=
  sortLoop r.copy ((List.range r.surfaceNumber).map (fun (i : Nat) => r.offset + i + 1))

end Geouned.Reg
