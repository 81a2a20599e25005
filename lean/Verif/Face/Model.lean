import Mathlib.Data.List.Dedup
/-!
# Model of the grouping of faces

`src/geouned/GEOUNED/decompose/decom_one.py` 357-396 (`contiguous_face`, `same_faces`), `src/geouned/GEOUNED/utils/geometry_gu.py` 197-241
(`same_torus_surf`, `separate_surfaces`).

The geometric tests are parameters: `near i j` says that the distance between the faces `i` and `j` is below the tolerance, `same i j` that the two
faces lie on the same torus.
-/
namespace Geouned.Face

/-- decom_one.py 367-376: `Connection[i]`, the faces after `i` that touch it -/
def couples (near : Nat → Nat → Bool) (n i : Nat) : List Nat :=
  ((List.range (n - (i + 1))).map (fun j => i + 1 + j)).filter (near i)

/-- decom_one.py 391-393: the loop over `Connection[elem]` when `elem` is not in the list -/
def addKey (elem : Nat) : List Nat → List Nat → List Nat
  | [], lista => lista
  | e2 :: rest, lista => addKey elem rest (if e2 ∈ lista then lista ++ [elem] else lista)

/-- decom_one.py 387-393: the loop over the keys -/
def addKeys (near : Nat → Nat → Bool) (n : Nat) : List Nat → List Nat → List Nat
  | [], lista => lista
  | elem :: rest, lista =>
    if elem ∈ lista then addKeys near n rest (lista ++ couples near n elem)
    else addKeys near n rest (addKey elem (couples near n elem) lista)

/-- decom_one.py 362-395 `same_faces` of `n` faces, at least one; the keys of `Connection` are 0 to `n-2` (the last face has none after it, 369), the first is
taken off. Simplification: the order of `list(set(…))` is that of the last occurrences -/
def sameFaces (near : Nat → Nat → Bool) (n : Nat) : List Nat :=
  if n = 1 then []
  else if n - 2 = 0 then couples near n 0
  else if couples near n 0 = [] then couples near n 0
  else (addKeys near n (List.range' 1 (n - 2)) (couples near n 0)).dedup

/-- geometry_gu.py 201-215: the loop of `same_torus_surf` (first argument: rounds) -/
def sameTorusLoop (same : Nat → Nat → Bool) : Nat → List Nat → List (List Nat)
  | 0, _ => []
  | _ + 1, [] => []
  | n + 1, i :: rest => (i :: rest.filter (same i)) :: sameTorusLoop same n ((i :: rest.filter (same i)).foldl List.erase (i :: rest))

/-- geometry_gu.py 229-233: the loop `for tindex in temp`; `current` and `removeList` -/
def addNear (near : Nat → Nat → Bool) (c : Nat) : List Nat → List Nat → List Nat → List Nat × List Nat
  | [], current, removed => (current, removed)
  | t :: ts, current, removed =>
    if near c t then
      if t ∉ current then addNear near c ts (current ++ [t]) (removed ++ [t]) else addNear near c ts current removed
    else addNear near c ts current removed

/-- geometry_gu.py 228-237: the inner `while` (first argument: rounds); gives `current` and `temp` -/
def growLoop (near : Nat → Nat → Bool) : Nat → Nat → List Nat → List Nat → List Nat → List Nat × List Nat
  | 0, _, current, _, temp => (current, temp)
  | n + 1, i, current, removed, temp =>
    if temp.length > 0 ∧ i < current.length then
      growLoop near n (i + 1) (addNear near (current.getD i 0) temp current removed).1 []
        ((addNear near (current.getD i 0) temp current removed).2.foldl List.erase temp)
    else (current, temp)

/-- geometry_gu.py 224-239: the outer `while` for one set of faces (first argument: rounds) -/
def separateLoop (near : Nat → Nat → Bool) : Nat → List Nat → List (List Nat)
  | 0, _ => []
  | _ + 1, [] => []
  | n + 1, t :: ts =>
    (growLoop near (ts.length + 2) 0 [t] [t] (t :: ts)).1 :: separateLoop near n (growLoop near (ts.length + 2) 0 [t] [t] (t :: ts)).2

/-- geometry_gu.py 219-240 `separate_surfaces` -/
def separateSurfaces (near : Nat → Nat → Bool) (faceList : List (List Nat)) : List (List Nat) :=
  faceList.flatMap (fun tset => separateLoop near tset.length tset)

/-- geometry_gu.py 197-217 `same_torus_surf` -/
def sameTorusSurf (same near : Nat → Nat → Bool) (torusList : List Nat) : List (List Nat) :=
  separateSurfaces near (sameTorusLoop same torusList.length torusList)

end Geouned.Face
