import Verif.Rev.Cards
/-!
# Model of several builds one after the other

`src/geouned/GEOReverse/core.py`: `build_universe` (154-205) and `build_container` (96-152) may be called several times; `src/geouned/GEOReverse/Modules/MCNPinput.py`:
`GetFilteredCells` (36-88) works on the objects kept in `self.Universes`, `GetCell` (161-192).

What changes in the objects: `c.geom` (396, 288, 318 - the last two and 424-443 in place), `c.TRCL`, `c.TR` (305-307); and, when nothing is filtered, `selected` is the dictionary
`self.Universes[U]` itself (329), in which the cells are replaced by `CadCell` objects (86).
-/
namespace Geouned.Rev

section
variable {P : Type}

/-- the objects in `self.Universes`; `cad`: the universes in which they are `CadCell` objects -/
structure RState (P : Type) where
  cells : List (DCard P)
  cad : List Nat

/-- one call: the filters (`none`: both are "all"), the universes to read -/
structure Req where
  keep : Option (Nat → Bool)
  us : List Nat

/-- the cells that the filters admit -/
def Req.keeps (r : Req) (n : Nat) : Bool :=
  match r.keep with
  | none => true
  | some k => k n

/-- `readUniverse` (`Cards.lean`), on objects that may be `CadCell`: `cardstr.get_stat()` (remh.py 686) fails for them -/
def readUniverseAgain (marked : Nat → Bool) (f : Nat) (keep : Nat → Bool) (surfs : List (Surf P)) (st : RState P) (U : Nat) : R (List (DCard P)) :=
  if U ∈ st.cad ∧ ((st.cells.filter fun c => c.u.getD 0 = U).map (·.name)).filter keep ≠ [] then .error .attributeError
  else readUniverse marked f keep surfs st.cells U

/-- 69-72, the loop over the universes. The objects of one universe are not used for another. -/
def readUniversesAgain (marked : Nat → Bool) (f : Nat) (keep : Nat → Bool) (surfs : List (Surf P)) (st : RState P) : List Nat → R (List (List (DCard P)))
  | [] => .ok []
  | U :: Us => do
    let u ← readUniverseAgain marked f keep surfs st U
    let r ← readUniversesAgain marked f keep surfs st Us
    .ok (u :: r)

/-- the objects after the call -/
def writeBack (cs : List (DCard P)) (us : List (List (DCard P))) : List (DCard P) := us.flatten.foldl setCell cs

/-- 36-88 `GetFilteredCells` -/
def readAgain (order : List Nat → List Nat) (f : Nat) (marked : Nat → Bool) (surfs : List (Surf P)) (st : RState P) (r : Req) :
    R ((List (List (DCard P)) × SDict P) × RState P) := do
  let us ← readUniversesAgain marked f r.keeps surfs st r.us
  let x ← substituteAll order us (surfs.map fun s => (s.id, s.pos))
  .ok (x, ⟨writeBack st.cells x.1, if r.keep.isNone then st.cad ++ r.us else st.cad⟩)

/-- the calls, one after the other -/
def readLoop (order : List Nat → List Nat) (f : Nat) (marked : Nat → Bool) (surfs : List (Surf P)) : RState P → List Req → R (List (List (List (DCard P)) × SDict P))
  | _, [] => .ok []
  | st, r :: rs => do
    let x ← readAgain order f marked surfs st r
    let y ← readLoop order f marked surfs x.2 rs
    .ok (x.1 :: y)

/-- 107-115, then the calls -/
def readAll (order : List Nat → List Nat) (f : Nat) (surfs : List (Surf P)) (cards : List (DCard P)) (rs : List Req) : R (List (List (List (DCard P)) × SDict P)) := do
  let cells ← explicitLoop (cards.map (·.name)) cards
  readLoop order f (markedIn cards) surfs ⟨cells, []⟩ rs

/-- 161-192 `GetCell` (for `build_container`), on the cards of the file. 175: `setExplicitCellDefinition({c.name: c})` - the dictionary has only this cell, so that the
cell that it is like is a KeyError, and 186-189 are not reached with `likeCell`. Also returned here: the surfaces given to the cell (192). `#` and `TRCL` are not looked at. No cell with the name: `None`, which has no attribute
`definition` (core.py 107). -/
def getCell (surfs : List (Surf P)) (cards : List (DCard P)) (name : Nat) : R (DCard P × SDict P) :=
  match cellAt cards name with
  | none => .error .attributeError
  | some c => do
    let cs ← explicitLoop [name] [c]
    match cs with
    | [c] =>
      let g ← renameLoop (idOf surfs) false c.geom
      .ok ({ c with geom := g }, surfs.map fun s => (s.id, s.pos))
    | _ => .error .keyError

end
end Geouned.Rev
