import Verif.CTable.Spec
import Verif.Bool.Model
/-!
# Model of the constraint tables of `src/geouned/GEOUNED/utils/boolean_solids.py`

Not modelled: the geometric kernel (`split_solid_fast`, `check_sign`, `point_inside`, lines 383-484): the positions it
reports are inputs of `pairEntry`.
-/
namespace Geouned

/-- value returned by `get_dependence`: `None`, a bool, or the string "Null" -/
inductive Dep where
  | unknown
  | val (b : Bool)
  | null
  deriving DecidableEq, Repr

/-- 33-36 `get_transpose` -/
def CTVal.transpose : CTVal → M CTVal
  | .diag d => .ok (.raw d)
  | .pair a b c d => .ok (.pair a d c b)
  | .raw _ => .error .attributeError

/-- `sum(self.val)` -/
def ones (a b c d : Bool) : Nat := a.toNat + b.toNat + c.toNat + d.toNat

/-- `self.val.index(v, i)` for a 4-tuple; the list is the tail of the tuple from index `i` on -/
def indexFrom (v : Bool) : Nat → List Bool → M Nat
  | _, [] => .error .typeError                      -- ValueError
  | i, x :: xs => if x == v then .ok i else indexFrom v (i + 1) xs

/-- 38-82 `get_dependence` -/
def CTVal.dependence : CTVal → M (Dep × Dep)
  | .raw _ => .error .attributeError
  | .diag d =>
    if d = 0 then .ok (.val true, .val false)
    else if d = -1 then .ok (.null, .val false)
    else .ok (.val true, .null)
  | .pair a b c d =>
    if ones a b c d = 4 then .ok (.unknown, .unknown)
    else if ones a b c d = 3 then do
      let ind ← indexFrom false 0 [a, b, c, d]
      if ind = 0 then .ok (.val false, .unknown)
      else if ind = 1 then .ok (.val true, .unknown)
      else if ind = 2 then .ok (.unknown, .val true)
      else .ok (.unknown, .val false)
    else if ones a b c d = 2 then do
      let ind1 ← indexFrom false 0 [a, b, c, d]
      let ind2 ← indexFrom false (ind1 + 1) ([a, b, c, d].drop (ind1 + 1))
      if ind1 = 0 ∧ ind2 = 1 then .ok (.null, .unknown)
      else if ind1 = 2 ∧ ind2 = 3 then .ok (.unknown, .null)
      else if ind1 = 0 ∧ ind2 = 3 then .ok (.val false, .val false)
      else .ok (.val true, .val true)
    else if ones a b c d = 1 then do
      let ind ← indexFrom true 0 [a, b, c, d]
      if ind = 0 then .ok (.val true, .null)
      else if ind = 1 then .ok (.val false, .null)
      else if ind = 2 then .ok (.null, .val false)
      else .ok (.null, .val true)
    else .ok (.null, .null)

/-- `self[k1][k2]` -/
def CTable.at (t : CTable) (k1 k2 : Nat) : M CTVal :=
  match t.get k1 k2 with
  | some e => .ok e
  | none => .error .keyError

/-- `self[k1][k2] = e` on an existing row -/
def CTable.set (t : CTable) (k1 k2 : Nat) (e : CTVal) : CTable :=
  { t with get := fun a b => if a = k1 ∧ b = k2 then some e else t.get a b }

/-- 122-127 `add_element` -/
def CTable.addElement (t : CTable) (k1 k2 : Nat) (e : CTVal) : CTable :=
  if k1 ∈ t.keys then t.set k1 k2 e else { (t.set k1 k2 e) with keys := t.keys ++ [k1] }

/-- 220-239 `combine_diag_elements`; any other combination returns `None`, on which the caller's
`new.S1 = k1` is an AttributeError -/
def combineDiag : CTVal → CTVal → M CTVal
  | .diag d1, .diag d2 =>
    if d1 = 0 ∧ d2 = 0 then .ok (.pair true true true true)
    else if d1 = 1 ∧ d2 = 0 then .ok (.pair true true false false)
    else if d1 = -1 ∧ d2 = 0 then .ok (.pair false false true true)
    else if d1 = 0 ∧ d2 = 1 then .ok (.pair true false false true)
    else if d1 = 0 ∧ d2 = -1 then .ok (.pair false true true false)
    else if d1 = 1 ∧ d2 = 1 then .ok (.pair true false false false)
    else if d1 = 1 ∧ d2 = -1 then .ok (.pair false true false false)
    else if d1 = -1 ∧ d2 = 1 then .ok (.pair false false false true)
    else if d1 = -1 ∧ d2 = -1 then .ok (.pair false false true false)
    else .error .attributeError
  | _, _ => .error .attributeError

/-- 133-138, inner loop of `fill_missing_elements` for the row `k1` -/
def fillRow (k1 : Nat) : List Nat → CTable × List (Nat × Nat) → M (CTable × List (Nat × Nat))
  | [], s => .ok s
  | k2 :: ks, (t, miss) =>
    match t.get k1 k2 with
    | some e => do
      let e' ← e.transpose
      fillRow k1 ks (t.set k2 k1 e', miss)
    | none => fillRow k1 ks (t, miss ++ [(k1, k2)])

/-- 132-138, outer loop -/
def fillRows : List Nat → CTable × List (Nat × Nat) → M (CTable × List (Nat × Nat))
  | [], s => .ok s
  | k1 :: ks, s => do
    let s ← fillRow k1 ks s
    fillRows ks s

/-- 140-147 -/
def fillMissing : List (Nat × Nat) → CTable → M CTable
  | [], t => .ok t
  | (k1, k2) :: ms, t => do
    let d1 ← t.at k1 k1
    let d2 ← t.at k2 k2
    let new ← combineDiag d1 d2
    let new' ← new.transpose
    fillMissing ms ((t.set k1 k2 new).set k2 k1 new')

/-- 129-147 `fill_missing_elements` -/
def CTable.fill (t : CTable) : M CTable := do
  let (t, miss) ← fillRows t.keys (t, [])
  fillMissing miss t

/-- 149-154 `get_out_surfaces` -/
def outSurfaces (t : CTable) : List Nat → M (List Nat)
  | [] => .ok []
  | k :: ks => do
    let e ← t.at k k
    let out ← outSurfaces t ks
    match e with
    | .raw _ => .error .attributeError
    | .diag 0 => .ok out
    | _ => .ok (k :: out)

/-- 161-172, loop of `get_constraint_set`: (trueSet, falseSet, TNull, FNull) -/
def csetLoop (t : CTable) (v : Nat) : List Nat → M (Vals × Vals × Bool × Bool)
  | [] => .ok ([], [], false, false)
  | k :: ks => do
    let e ← t.at v k
    let (tv, fv) ← e.dependence
    let (ts, fs, tn, fn) ← csetLoop t v ks
    let ts' := match tv with
      | .val b => (k, some b) :: ts
      | _ => ts
    let fs' := match fv with
      | .val b => (k, some b) :: fs
      | _ => fs
    .ok (ts', fs', tn || tv == .null, fn || fv == .null)

/-- 156-178 `get_constraint_set` -/
def CTable.constraintSet (t : CTable) (v : Nat) : M (Option Vals × Option Vals) := do
  let (ts, fs, tn, fn) ← csetLoop t v t.keys
  .ok (if tn then none else some ts, if fn then none else some fs)

/-- `BoolVals[i]` with `BoolVals = (None, True, False)` (13): negative indices count from the end -/
def boolVals (i : Int) : M (Option Bool) :=
  if i = 0 ∨ i = -3 then .ok none
  else if i = 1 ∨ i = -2 then .ok (some true)
  else if i = 2 ∨ i = -1 then .ok (some false)
  else .error .indexError

/-- 183-187 -/
def seqValues (t : CTable) : List Nat → M Vals
  | [] => .ok []
  | s :: ss => do
    let e ← t.at s s
    match e with
    | .raw _ => .error .attributeError
    | .pair _ _ _ _ => .error .typeError
    | .diag d => do
      let v ← boolVals d
      let vs ← seqValues t ss
      match v with
      | some b => .ok ((s, some b) :: vs)
      | none => .ok vs

/-- 192 etc.: `res if type(res) is bool else None` -/
def Ev.bool? : Ev → Option Bool
  | .bool b => some b
  | .seq _ => none

/-- 180-217 `solid_in_box`: the new `Seq` and the answer. `enum` gives the order of the Python set of surfaces. -/
def CTable.solidInBox (t : CTable) (enum : Seq → List Nat) (f : Nat) (s : Seq) : M (Seq × Option Bool) :=
  let surfs := enum s
  if t.diagonal then do
    let vs ← seqValues t surfs
    let (s, r) ← s.evaluate f vs
    .ok (s, r.bool?)
  else match surfs with
  | [] => .error .indexError
  | s0 :: _ => do
    let (ts, fs) ← t.constraintSet s0
    match ts, fs with
    | some ts, fs => do
      let (s, r) ← s.evaluate f ts
      match r.bool?, fs with
      | none, _ => .ok (s, none)
      | some tv, some fs => do
        let (s, r) ← s.evaluate f fs
        match r.bool? with
        | none => .ok (s, none)
        | some fv => .ok (s, if tv == fv then some tv else none)
      | some tv, none => .ok (s, some tv)
    | none, some fs => do
      let (s, r) ← s.evaluate f fs
      .ok (s, r.bool?)
    | none, none => .ok (s, some false)

/-- 358-360: substitute the surfaces that do not cross the box -/
def substOut (t : CTable) (f : Nat) : List Nat → Seq → M Seq
  | [], s => .ok s
  | k :: ks, s => do
    let e ← t.at k k
    match e with
    | .raw _ => .error .attributeError
    | .pair _ _ _ _ => .error .typeError
    | .diag d => do
      let s ← s.subst f k (.b (decide (d > 0)))
      substOut t f ks s

/-- 349-360: reduced definition of a sub-cell that intersects the box; `out` are the surfaces out of the box -/
def reduceSub (t : CTable) (enum : Seq → List Nat) (f : Nat) (out : List Nat) (sub : Seq) : M Seq :=
  if sub.levOf = 0 then
    substOut t f ((enum sub).filter (fun k => out.contains k && sub.surfaces.contains k)) sub
  else .ok sub

/-- 332-376, loop of `remove_extra_surfaces` over the sub-cells; `inl b` is the early return of `newDef = True`.
`invert` is `true` for the code, which tests `chk = not subCell.elements` (336); `false` is the test the comments
describe (340-345). -/
def extraLoop (invert : Bool) (t : CTable) (enum : Seq → List Nat) (f : Nat) (out : List Nat) : List Seq → Seq → M (Bool ⊕ Seq)
  | [], new => .ok (.inr new)
  | sub :: subs, new => do
    let sub ← sub.check f
    let chk := sub.boolOf.map (fun b => xor invert b)
    match chk with
    | some false => extraLoop invert t enum f out subs new
    | some true => .ok (.inl true)
    | none => do
      let (sub, res) ← t.solidInBox enum f sub
      match res with
      | none => do
        let sub ← reduceSub t enum f out sub
        match sub with
        | .int _ => .error .attributeError          -- not reachable: `check` has raised
        | .boo _ _ false => extraLoop invert t enum f out subs new
        | .boo _ _ true => .ok (.inl true)
        | sub => do
          let new ← new.append [.seq sub]
          extraLoop invert t enum f out subs new
      | some true => .ok (.inl true)
      | some false => extraLoop invert t enum f out subs new

/-- 327-332: the elements the loop runs over; an AND cell is first wrapped -/
def loopCells (op : Op) (l : Int) (es : List Seq) : M (List Seq) :=
  match op with
  | .and => do
    let x ← (Seq.lst .and 0 []).append [.seq (.lst op l es)]
    x.elemsOf
  | .or => .ok es

/-- 317-380 `remove_extra_surfaces`. Simplification: the new value of the argument `CellSeq` (which the code also
changes) is not returned. -/
def removeExtra (invert : Bool) (t : CTable) (enum : Seq → List Nat) (f : Nat) (cell : Seq) : M Seq := do
  let out ← outSurfaces t t.keys
  match cell with
  | .int _ => .error .attributeError
  | .boo op l b =>
    if l = 0 then .error .typeError                        -- len() of a bool
    else match op, b with
      | .and, true => .ok (Seq.clean (.lst .or 0 []))       -- newSeq stays empty (327-330), so does newDef
      | _, _ => .error .typeError                          -- iteration over a bool
  | .lst op l es =>
    if l = 0 ∧ es.length = 1 then .ok cell
    else do
      let subs ← loopCells op l es
      match ← extraLoop invert t enum f out subs (.lst .or 0 []) with
      | .inl b => .ok (.boo .or (-1) b)
      | .inr new => .ok new.clean

/-- 280-293 (and 295-306): the loop over the pieces of one side of `s1`; `cur` is the value the Python variable
`pos` (`neg`) has before the loop (it is not reset between surfaces), `p0` is `pos0`. -/
def sideLoop : List (Bool × Bool) → Option (Bool × Bool) → Option (Bool × Bool) → Option (Bool × Bool)
  | [], _, cur => cur
  | p :: ps, p0, _ =>
    if p = (true, true) then some p
    else match p0 with
      | none => sideLoop ps (some p) (some p)
      | some q => if p ≠ q then some (true, true) else sideLoop ps p0 (some p)

/-- 278-309: entry of the pair `(s1, s2)` from the positions of the pieces of the two sides of `s1` with respect
to `s2`; an unbound variable is an error (NameError). Also returns `pos`, `neg` for the next surface. -/
def pairEntry (posS negS : List (Bool × Bool)) (pos neg : Option (Bool × Bool)) :
    M (CTVal × (Bool × Bool) × (Bool × Bool)) :=
  match sideLoop posS none pos, sideLoop negS none neg with
  | some p, some n => .ok (.pair p.1 p.2 n.2 n.1, p, n)
  | _, _ => .error .typeError

end Geouned
