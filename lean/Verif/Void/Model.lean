import Verif.CTable.Model
/-!
# Model of the void generation

`src/geouned/GEOUNED/void/void_box_class.py` (`VoidBox.get_void_complementary`) and
`src/geouned/GEOUNED/void/void.py`. What the CAD kernel answers (bounding boxes, the constraint table, the
definition of an enclosure piece) is a parameter.
-/
namespace Geouned

/-- value of the argument `simplify` of `get_void_complementary` (void.py 112-117) -/
inductive Simp where
  | no
  | diag
  | full
  deriving DecidableEq, Repr

/-- void_box_class.py 168-181: one bound plane of the box: number under which it is registered, and whether the
surface already in the registry has the opposite axis -/
structure BoundPlane where
  id : Nat
  opposite : Bool
  /-- `is_opposite(p.Surf.Axis, p.Surf.Position - center)`: the normal points to the centre -/
  inward : Bool

/-- 173-181: the literal put in `boxDef` -/
def BoundPlane.literal (p : BoundPlane) : Int :=
  let id : Int := if p.opposite then -p.id else p.id
  if p.inward then id else -id

/-- 169-181: `boxDef` (`boxDef.elements.append` leaves the level 0) -/
def boxDefOf (ps : List BoundPlane) : Seq := .lst .and 0 (ps.map fun p => .int p.literal)

/-- void.py 215-227 `get_universe_complementary`: union of the outer sides of the bound planes; `p.inward` holds of
every plane of `get_bound_planes` and is not tested -/
def universeCompl (ps : List BoundPlane) : Seq :=
  .lst .or 0 (ps.map fun p => .int (if p.opposite then (p.id : Int) else -p.id))

/-- void.py 182-211 `set_graveyard_cell`: the two cells (inside the sphere, outside the sphere); `sph` is the
number of the sphere. `BoolSequence(str(-id))` is the one-element level-0 sequence. -/
def graveyardCells (sph : Nat) (ps : List BoundPlane) : M (Seq × Seq) := do
  let sphdef ← (Seq.lst .and 0 [.int (-sph)]).append [.seq (universeCompl ps)]
  .ok (sphdef, .lst .and 0 [.int sph])

/-- void_box_class.py 232-236: `voidSolidDef.append(m.Definition)` for all objects -/
def voidUnion : List Seq → Seq → M Seq
  | [], s => .ok s
  | d :: ds, s => do
    let s ← s.append [.seq d]
    voidUnion ds s

/-- `not voidSolidDef.elements` (243) -/
def Seq.noElements : Seq → Bool
  | .lst _ _ [] => true
  | .boo _ _ b => !b
  | _ => false

/-- 261-263: `for s in boxDef.elements: voidSolidDef.substitute(abs(s), s > 0)` -/
def substBox (f : Nat) : List Seq → Seq → M Seq
  | [], s => .ok s
  | .int n :: es, s => do
    let s ← s.subst f n.natAbs (.b (decide (n > 0)))
    substBox f es s
  | _ :: _, _ => .error .typeError                         -- abs() of a sequence

/-- 283-288 and 300-305: a level-0 union is put inside another one -/
def wrapLevel0 : Seq → M Seq
  | .lst op l es =>
    if l = 0 then (Seq.lst .or 0 []).append [.seq (.lst (if es.length = 1 then .and else op) l es)]
    else .ok (.lst op l es)
  | .boo op l b => if l = 0 then .error .typeError else .ok (.boo op l b)
  | .int _ => .error .attributeError

/-- Not code: does `check()` find one of the sub-cells `remove_extra_surfaces` runs over (boolean_solids.py 327-345)
empty or full? -/
def checkDecides (f : Nat) : Seq → Bool
  | .lst .or _ es => es.any fun s => ((s.check f).toOption.bind Seq.boolOf).isSome
  | .boo _ _ _ => true
  | s => ((s.check f).toOption.bind Seq.boolOf).isSome

/-- boolean_solids.py 317-380, with a guard: if `guard` is set the model reports `Err.lossy` when `check()` finds a
sub-cell empty or full (where line 336 negates the value); `guard = false` is the code. -/
def removeExtraG (guard : Bool) (t : CTable) (enum : Seq → List Nat) (f : Nat) (cell : Seq) : M Seq :=
  if guard && checkDecides f cell then .error .lossy
  else removeExtra true t enum f cell

/-- 290-295: loop over the solids; `inl ()` is the early `return None, None` -/
def reduceLoop (guard : Bool) (t : CTable) (enum : Seq → List Nat) (f : Nat) : List Seq → Seq → M (Unit ⊕ Seq)
  | [], new => .ok (.inr new)
  | d :: ds, new => do
    let r ← removeExtraG guard t enum f d
    match r with
    | .boo _ _ true => .ok (.inl ())
    | .boo _ _ false => reduceLoop guard t enum f ds new
    | r => do
      let new ← new.append [.seq r]
      reduceLoop guard t enum f ds new

/-- 258-264: the box planes have known values in the box (not done for an enclosure piece) -/
def prepUnion (enclosure : Bool) (box : Seq) (f : Nat) (u : Seq) : M Seq :=
  if enclosure then .ok u else do
    let es ← box.elemsOf
    let u ← substBox f es u
    .ok u.clean

/-- Not code: the guard of the model. 290 runs over `voidSolidDef.elements` as over the members of a union; with
`guard` the model reports `Err.lossy` when `join_operators` (called by `substitute`) has turned the union into an
intersection. -/
def orGuard (guard : Bool) (u : Seq) : M Seq :=
  match guard, u with
  | true, .lst .and _ _ => .error .lossy
  | _, u => .ok u

/-- 255-305: what is left to complement: `inl r` is an early return of the cell `r` (`none` = no cell) -/
def voidReduce (guard : Bool) (mode : Simp) (enclosure : Bool) (box : Seq) (t : CTable) (enum : Seq → List Nat)
    (f : Nat) (u : Seq) : M (Option Seq ⊕ Seq) :=
  match mode with
  | .no => do
    let u ← wrapLevel0 u
    .ok (.inr u)
  | _ => do
    let u ← prepUnion enclosure box f u
    match enclosure, u with
    | false, .boo _ _ true => .ok (.inl none)
    | false, .boo _ _ false => .ok (.inl (some box))
    | _, u => do
      let u ← wrapLevel0 u
      let u ← orGuard guard u
      let es ← u.elemsOf
      match ← reduceLoop guard t enum f es (.lst .or 0 []) with
      | .inl () => .ok (.inl none)
      | .inr new => .ok (.inr new)

/-- 322-327 -/
def checkNo (mode : Simp) (f : Nat) (d : Seq) : M Seq := if mode = .no then d.check f else .ok d

/-- 321-339: loop over the elements to complement; `inl ()` is `return None, None` -/
def complLoop (mode : Simp) (f : Nat) : List Seq → Seq → M (Unit ⊕ Seq)
  | [], c => .ok (.inr c)
  | d :: ds, c => do
    let d ← checkNo mode f d
    match mode, d with
    | .no, .boo _ _ true => .ok (.inl ())
    | .no, .boo _ _ false => complLoop mode f ds c
    | _, d => do
      let (_, p) ← d.comp f
      let c ← c.append [.seq p]
      complLoop mode f ds c

/-- 312-339: `compSeq`; `inl ()` is `return None, None` -/
def complSeq (mode : Simp) (f : Nat) : Seq → M (Unit ⊕ Seq)
  | .lst op l es =>
    if l = 0 then do
      let (_, c) ← (Seq.lst op l es).comp f
      .ok (.inr c)
    else complLoop mode f es (.lst (if l = 1 ∧ op = .and then .or else .and) 0 [])
  | .boo _ _ _ => .error .typeError
  | .int _ => .error .attributeError

/-- 341-359: the complement joined to the box definition -/
def voidJoin (guard : Bool) (mode : Simp) (enclosure : Bool) (t : CTable) (enum : Seq → List Nat)
    (f : Nat) (complementary compSeq : Seq) : M Seq :=
  match mode, enclosure with
  | .full, true => do
    let c ← complementary.append [.seq compSeq]
    c.simplify guard enum (some t.constraintSet) f 0
  | .full, false => do
    let k ← compSeq.simplify guard enum (some t.constraintSet) f 0
    complementary.append [.seq k]
  | _, _ => do
    let k ← compSeq.simplify guard enum none f 0
    let c ← complementary.simplify guard enum none f 0
    let op ← c.opOf
    match op with
    | .or => (Seq.lst .and 0 []).append [.seq c, .seq k]
    | .and => c.append [.seq k]

/-- 167-364 `get_void_complementary`: the definition of the void cell, `none` for no cell. `box` is `boxDef`
(six planes, or the definition of the enclosure piece), `objs` the definitions of the solids of the box, `t` the
constraint table. `guard = false` is the code. Simplification: the list `cellIn` (comment text) is left out. -/
def voidCell (guard : Bool) (mode : Simp) (enclosure : Bool) (box : Seq) (objs : List Seq) (t : CTable)
    (enum : Seq → List Nat) (f : Nat) : M (Option Seq) := do
  let u ← voidUnion objs (.lst .or 0 [])
  if u.noElements then .ok (some box)
  else do
    let complementary ← (Seq.lst .and 0 []).append [.seq box]
    match ← voidReduce guard mode enclosure box t enum f u with
    | .inl r => .ok r
    | .inr u =>
      match u with
      | .boo _ _ true => .ok none
      | u =>
        if u.noElements then .ok (some box)
        else do
          match ← complSeq mode f u with
          | .inl () => .ok none
          | .inr k => do
            let c ← voidJoin guard mode enclosure t enum f complementary k
            match c.clean.levelUpdate with
            | .boo _ _ _ => .ok none
            | c => .ok (some c)

/-- void.py 119-164, `get_void_def`: the loop over the boxes still to be processed, at most `n` rounds. `split`
says whether a box is split (`some`: the pieces) or gets a void cell (`none`); the result is the list of boxes that
got a cell definition and the list of boxes left over when the loop ends. -/
def voidLoop {β : Type} (split : β → Option (List β)) : Nat → List β → List β × List β
  | 0, init => ([], init)
  | n + 1, init =>
    let done := init.filter (fun z => (split z).isNone)
    let temp := init.flatMap (fun z => (split z).getD [])
    match temp with
    | [] => (done, [])
    | temp =>
      let r := voidLoop split n temp
      (done ++ r.1, r.2)

/-- the code runs 50 rounds and forgets the rest (void.py 121) -/
def getVoidBoxes {β : Type} (split : β → Option (List β)) (z : β) : List β := (voidLoop split 50 [z]).1

end Geouned
