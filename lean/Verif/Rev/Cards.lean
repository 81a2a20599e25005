import Verif.Rev.CardsSpec
import Verif.Rev.Hash
/-!
# Model of the cells of an MCNP file, from their cards to the numbered surfaces

`src/geouned/GEOReverse/Modules/MCNPinput.py`: `setExplicitCellDefinition` (406-421), end of `selectCells` (395-396), `processSurfaces` (424-443), `substituteLikeCell`
(282-321), second part of `GetFilteredCells` (69-88); `src/geouned/GEOReverse/Modules/remh.py`: `Cline.get_surfaces_numbers` (232-234), `Cline.replace` (414-429).

Simplifications: texts are lists of tokens (as in `Hash.lean`), numbers without leading zeros; a surface is the set of points on its positive side, and a transformed
surface is the moved set (see C71 for the equations); names of cells are distinct. A dictionary is a list in order of insertion.
-/
namespace Geouned.Rev

section
variable {P : Type}

/-- `cells[n]` -/
def cellAt (cs : List (DCard P)) (n : Nat) : Option (DCard P) := cs.find? fun c => c.name = n

/-- change the object with the name of `c` -/
def setCell (cs : List (DCard P)) (c : DCard P) : List (DCard P) := cs.map fun x => if x.name = c.name then c else x

/-- `if not c.U: c.U = lkc.U`: `None` and 0 are false -/
def orElse0 (a b : Option Nat) : Option Nat :=
  match a with
  | none => b
  | some 0 => b
  | some n => some n

/-- 408-420: the new entries of a `LIKE` cell -/
def inherit (c d : DCard P) : DCard P :=
  { c with geom := d.geom, u := orElse0 c.u d.u, fill := orElse0 c.fill d.fill, mat := orElse0 c.mat d.mat, tr := c.tr <|> d.tr, trcl := c.trcl <|> d.trcl }

/-- 406-421 `setExplicitCellDefinition`; first argument: names of the cells still to be visited -/
def explicitLoop : List Nat → List (DCard P) → R (List (DCard P))
  | [], cs => .ok cs
  | n :: ns, cs =>
    match cellAt cs n with
    | none => .error .keyError
    | some c =>
      match c.like with
      | none => explicitLoop ns cs
      | some b =>
        match cellAt cs b with
        | none => .error .keyError
        | some d => explicitLoop ns (setCell cs (inherit c d))

/-- errors of `Hash.lean` -/
def liftM {α : Type} : M α → R α
  | .ok a => .ok a
  | .error .keyError => .error .keyError
  | .error .indexError => .error .indexError
  | .error _ => .error .recursion

/-- the cards that `remove_hash` is given: geometry and `hproc` (remh.py 531, 562). `marked n`: the card of cell `n` is a `LIKE` card or has `TRCL` -/
def hashCards (marked : Nat → Bool) (cs : List (DCard P)) (n : Nat) : Option Card := (cellAt cs n).map fun c => ⟨c.geom, !marked n⟩

/-- 395-396: `for cname, c in selected.items(): c.geom = remove_hash(cellList, cname)`; first argument: names of the selected cells still to be visited -/
def unhashLoop (marked : Nat → Bool) (f : Nat) : List Nat → List (DCard P) → R (List (DCard P))
  | [], cs => .ok cs
  | n :: ns, cs =>
    match cellAt cs n with
    | none => .error .keyError
    | some c => do
      let g ← liftM (removeHash (hashCards marked cs) f n)
      unhashLoop marked f ns (setCell cs { c with geom := g })

/-- 427-443 and 309-321, the loop over the numbers of a text; `new n` is the number to put in place of `n`. A number after `#` (and blanks) is left;
`Cline.replace` (remh.py 414-429) keeps the sign. -/
def renameLoop (new : Nat → R Nat) : Bool → List HTok → R (List HTok)
  | _, [] => .ok []
  | h, .num n :: ts =>
    if h ∧ 0 ≤ n then do
      let r ← renameLoop new false ts
      .ok (.num n :: r)
    else do
      let k ← new n.natAbs
      let r ← renameLoop new false ts
      .ok (.num (if n < 0 then -(k : Int) else k) :: r)
  | h, t :: ts => do
    let r ← renameLoop new (t = .hash || (h && t = .blank)) ts
    .ok (t :: r)

/-- a surface of the file: name, `id`, positive side -/
structure Surf (P : Type) where
  name : Nat
  id : Nat
  pos : P → Bool

/-- `Surfaces[surf].id` -/
def idOf (surfs : List (Surf P)) (n : Nat) : R Nat :=
  match surfs.find? fun s => s.name = n with
  | none => .error .keyError
  | some s => .ok s.id

/-- 424-443 `processSurfaces` -/
def processSurfaces (surfs : List (Surf P)) : List (DCard P) → R (List (DCard P))
  | [] => .ok []
  | c :: cs => do
    let g ← renameLoop (idOf surfs) false c.geom
    let r ← processSurfaces surfs cs
    .ok ({ c with geom := g } :: r)

/-- a dictionary of surfaces, by `id` -/
abbrev SDict (P : Type) := List (Nat × (P → Bool))

def SDict.get {P : Type} (S : SDict P) (n : Nat) : Option (P → Bool) := (S.find? fun e => e.1 = n).map (·.2)

/-- `Surfaces[n] = s` -/
def SDict.put {P : Type} (S : SDict P) (n : Nat) (s : P → Bool) : SDict P :=
  if S.any (fun e => e.1 = n) then S.map fun e => if e.1 = n then (n, s) else e else S ++ [(n, s)]

/-- 286-288: `c.geom = universe[c.likeCell].geom.copy()` -/
def copyLoop : List Nat → List (DCard P) → R (List (DCard P))
  | [], cs => .ok cs
  | n :: ns, cs =>
    match cellAt cs n with
    | none => .error .keyError
    | some c =>
      match c.like with
      | none => copyLoop ns cs
      | some b =>
        match cellAt cs b with
        | none => .error .keyError
        | some d => copyLoop ns (setCell cs { c with geom := d.geom })

/-- remh.py 232-234 `get_surfaces_numbers`: all numbers of the text; `order` is the order in which Python visits the set -/
def numbersOf (order : List Nat → List Nat) (ts : List HTok) : List Nat :=
  order (dedup (ts.filterMap fun t => match t with
    | .num n => some n.natAbs
    | _ => none))

/-- 299-304: copies of the surfaces, moved: `newId`, `surfDict`, `Surfaces` -/
def moveSurfaces (t : Motion P) : List Nat → Nat → List (Nat × Nat) → SDict P → R (Nat × List (Nat × Nat) × SDict P)
  | [], k, d, S => .ok (k, d, S)
  | n :: ns, k, d, S =>
    match S.get n with
    | none => .error .keyError
    | some s => moveSurfaces t ns (k + 1) (d ++ [(n, k + 1)]) (S.put (k + 1) fun p => s (t.back p))

/-- `surfDict[surf]` -/
def renamed (d : List (Nat × Nat)) (n : Nat) : R Nat :=
  match d.find? fun e => e.1 = n with
  | none => .error .keyError
  | some e => .ok e.2

/-- 291-321, loop over the cells with `TRCL`; `k` is `newId` -/
def trclLoop (order : List Nat → List Nat) : List (DCard P) → Nat → SDict P → R (List (DCard P) × SDict P)
  | [], _, S => .ok ([], S)
  | c :: cs, k, S =>
    match c.trcl with
    | none => do
      let r ← trclLoop order cs k S
      .ok (c :: r.1, r.2)
    | some t => do
      let m ← moveSurfaces t (numbersOf order c.geom) k [] S
      let g ← renameLoop (renamed m.2.1) false c.geom
      let r ← trclLoop order cs m.1 m.2.2
      .ok ({ c with geom := g, trcl := none, tr := if orElse0 c.fill none = none then c.tr else some t } :: r.1, r.2)

/-- 282-321 `substituteLikeCell` -/
def substituteLike (order : List Nat → List Nat) (cs : List (DCard P)) (S : SDict P) : R (List (DCard P) × SDict P) := do
  let cs ← copyLoop (cs.map (·.name)) cs
  trclLoop order cs S.length S

/-- 69-72: one universe: choice of its cells, `remove_hash`, `processSurfaces` -/
def readUniverse (marked : Nat → Bool) (f : Nat) (keep : Nat → Bool) (surfs : List (Surf P)) (cells : List (DCard P)) (U : Nat) : R (List (DCard P)) := do
  let univ := cells.filter fun c => c.u.getD 0 = U
  let u ← unhashLoop marked f ((univ.map (·.name)).filter keep) univ
  processSurfaces surfs (u.filter fun c => keep c.name)

/-- 69-72, the loop over the universes -/
def readUniverses (marked : Nat → Bool) (f : Nat) (keep : Nat → Bool) (surfs : List (Surf P)) (cells : List (DCard P)) : List Nat → R (List (List (DCard P)))
  | [] => .ok []
  | U :: Us => do
    let u ← readUniverse marked f keep surfs cells U
    let r ← readUniverses marked f keep surfs cells Us
    .ok (u :: r)

/-- 80-81, the loop over the universes -/
def substituteAll (order : List Nat → List Nat) : List (List (DCard P)) → SDict P → R (List (List (DCard P)) × SDict P)
  | [], S => .ok ([], S)
  | u :: us, S => do
    let a ← substituteLike order u S
    let r ← substituteAll order us a.2
    .ok (a.1 :: r.1, r.2)

/-- is the card a `LIKE` card or has it `TRCL`? -/
def markedIn (cards : List (DCard P)) (n : Nat) : Bool :=
  match cellAt cards n with
  | none => false
  | some c => c.like.isSome || c.trcl.isSome

/-- 107-115 and 69-88: the cells of the universes `Us` (chosen as in `Levels.lean`) with the surfaces by number, first build.
`keep`: the filters; `f`: recursion depth allowed -/
def readCells (order : List Nat → List Nat) (f : Nat) (keep : Nat → Bool) (surfs : List (Surf P)) (cards : List (DCard P)) (Us : List Nat) :
    R (List (List (DCard P)) × SDict P) := do
  let cells ← explicitLoop (cards.map (·.name)) cards
  let us ← readUniverses (markedIn cards) f keep surfs cells Us
  substituteAll order us (surfs.map fun s => (s.id, s.pos))

end
end Geouned.Rev
