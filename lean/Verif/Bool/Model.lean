import Verif.Bool.Spec
/-!
# Model of `src/geouned/GEOUNED/utils/boolean_function.py`

Line numbers refer to that file. Methods mutate `self`; here they return the new `self`.
Objects are values: two places of a tree holding the *same* Python object are not modelled here
(`copy`, lines 133-145, is then the identity and is not repeated).
`fuel` bounds the depth of nested method calls: exhausting it is Python's `RecursionError`.
-/
namespace Geouned

/-- value of the empty sequence: AND[] = True, OR[] = False (353, 383-389) -/
def Op.neutral : Op → Bool
  | .and => true
  | .or => false

/-- 162-166 `comp_operator` -/
def Op.comp : Op → Op
  | .and => .or
  | .or => .and

/-- `self.operator` (an `int` has no such attribute) -/
def Seq.opOf : Seq → M Op
  | .int _ => .error .attributeError
  | .boo op _ _ => .ok op
  | .lst op _ _ => .ok op

/-- `self.level` -/
def Seq.levOf : Seq → Int
  | .int _ => -1
  | .boo _ l _ => l
  | .lst _ l _ => l

/-- is the object a Python `int` equal to `n` -/
def isInt (n : Int) : Seq → Bool
  | .int m => m == n
  | _ => false

mutual
/-- 632-642 `get_surfaces_numbers`; the Python set is a list here (order and repetitions are
irrelevant: only membership and the number of distinct members are used). -/
def Seq.surfaces : Seq → List Nat
  | .int n => [n.natAbs]
  | .boo _ _ _ => []
  | .lst _ _ es => Seq.surfacesL es
def Seq.surfacesL : List Seq → List Nat
  | [] => []
  | e :: es => e.surfaces ++ Seq.surfacesL es
end

/-- distinct members, for `len(set(...))` -/
def dedup {α : Type} [DecidableEq α] : List α → List α
  | [] => []
  | a :: l => if a ∈ l then dedup l else a :: dedup l

mutual
/-- 644-655 `level_update` (a boolean sequence gets level 0 here, -1 elsewhere) -/
def Seq.levelUpdate : Seq → Seq
  | .int n => .int n
  | .boo op _ b => .boo op 0 b
  | .lst op _ es => let p := Seq.levelUpdateL es; .lst op p.1 p.2
def Seq.levelUpdateL : List Seq → Int × List Seq
  | [] => (0, [])
  | .int n :: es => let p := Seq.levelUpdateL es; (p.1, .int n :: p.2)
  | .boo op _ b :: es => let p := Seq.levelUpdateL es; (max 1 p.1, .boo op 0 b :: p.2)
  | .lst op l xs :: es =>
    let e' := Seq.levelUpdate (.lst op l xs)
    let p := Seq.levelUpdateL es
    (max (e'.levOf + 1) p.1, e' :: p.2)
end

/-- 365-381, loop of `clean` over `reversed(self.elements)` once the children are cleaned:
`inl b` is the early `self.elements = b`, `inr es` the list that is left. -/
def cleanLoop (op : Op) : List Seq → Bool ⊕ List Seq
  | [] => .inr []
  | e :: es =>
    match cleanLoop op es with
    | .inl b => .inl b
    | .inr es' =>
      match e with
      | .boo _ _ b => if b == op.neutral then .inr es' else .inl b
      | e => .inr (e :: es')

/-- 383-391, end of `clean` -/
def cleanEnd (op : Op) (lev : Int) : Bool ⊕ List Seq → Seq
  | .inl b => .boo op (-1) b
  | .inr [] => .boo op (-1) op.neutral
  | .inr (e :: es) => .lst op lev (e :: es)

/-- 361-391 `clean(self_level=True)` -/
def Seq.cleanSelf : Seq → Seq
  | .int n => .int n
  | .boo op l b => .boo op l b
  | .lst op l es => cleanEnd op l (cleanLoop op es)

mutual
/-- 361-391 `clean(self_level=False)` -/
def Seq.clean : Seq → Seq
  | .int n => .int n
  | .boo op l b => .boo op l b
  | .lst op l es => cleanEnd op l (cleanLoop op (Seq.cleanL es))
def Seq.cleanL : List Seq → List Seq
  | [] => []
  | e :: es => e.clean :: Seq.cleanL es
end

/-- value returned by `clean` : `some b` if `self.elements` is a bool after it (363-364, 376-391) -/
def Seq.boolOf : Seq → Option Bool
  | .boo _ _ b => some b
  | _ => none

/-- what is left to visit of `self.elements` (in visiting, i.e. reversed, order) after
`self.elements.remove(n)` while the iterator stands on an `int n`: Python removes the *first* equal
int, so if there is an earlier one, `n` is visited again. -/
def removeInt (n : Int) (rest : List Seq) : List Seq :=
  if rest.any (isInt n) then .int n :: (rest.reverse.eraseP (isInt n)).reverse else rest

/-- 616-622, loop of `group_single`: first argument is the number of iterations left, then the
elements to visit (reversed), the elements kept, and the group. -/
def groupLoop : Nat → List Seq → List Seq → List Seq → M (List Seq × List Seq)
  | 0, _, kept, group => .ok (kept, group)
  | _ + 1, [], kept, group => .ok (kept, group)
  | k + 1, .int n :: rest, kept, group => groupLoop k (removeInt n rest) kept (group ++ [.int n])
  | k + 1, .boo op l b :: rest, kept, group =>
    if l = 0 then .error .typeError            -- `len(e.elements)` of a bool
    else groupLoop k rest (.boo op l b :: kept) group
  | k + 1, .lst op l es :: rest, kept, group =>
    match l, es with
    | 0, [x] => groupLoop k rest kept (group ++ [x])
    | l, es => groupLoop k rest (.lst op l es :: kept) group

/-- 608-630 `group_single` -/
def Seq.groupSingle : Seq → M Seq
  | .int _ => .error .attributeError
  | .boo op l b => .ok (.boo op l b)
  | .lst op l es =>
    if l = 0 then .ok (.lst op l es)
    else do
      let (kept, group) ← groupLoop es.length es.reverse [] []
      match group with
      | [] => .ok (.lst op l kept)
      | g => .ok (.lst op l (.lst op 0 g :: kept))

/-- the ints of a list -/
def intsOf : List Seq → List Int
  | [] => []
  | .int n :: es => n :: intsOf es
  | _ :: es => intsOf es

/-- number of `BoolSequence` objects of a list -/
def seqCount : List Seq → Nat
  | [] => 0
  | .int _ :: es => seqCount es
  | _ :: es => seqCount es + 1

/-- 266-268: `len(set(self.elements)) == len(self.get_surfaces_numbers())`. Sequence objects hash by
identity, so each counts for one. -/
def sameCount (es : List Seq) : Bool :=
  (dedup (intsOf es)).length + seqCount es == (dedup (Seq.surfacesL es)).length

/-- 261-277 `check(level0=True)`; also the level-0 part of `check()` -/
def Seq.check0 : Seq → Seq
  | .lst op 0 es => if sameCount es then .lst op 0 es else .boo op (-1) (!op.neutral)
  | s => s

/-- 281-299, loop of `check` over `reversed(self.elements)`; `rec` is the recursive `check`.
`inl b`: early exit; `inr es`: the elements kept (all with unknown value) -/
def checkLoop (rec : Seq → M Seq) (op : Op) : List Seq → M (Bool ⊕ List Seq)
  | [] => .ok (.inr [])
  | e :: es => do
    match ← checkLoop rec op es with
    | .inl b => .ok (.inl b)
    | .inr es' =>
      match ← rec e with
      | .boo _ _ b => if b == op.neutral then .ok (.inr es') else .ok (.inl b)
      | e' => .ok (.inr (e' :: es'))

/-- 261-310 `check()`; the value returned by Python is `boolOf` of the result -/
def Seq.check : Nat → Seq → M Seq
  | 0, _ => .error .recursion
  | _ + 1, .int _ => .error .attributeError
  | _ + 1, .boo op l b => .ok (.boo op l b)
  | f + 1, .lst op l es =>
    if l = 0 then .ok (Seq.check0 (.lst op l es))
    else do
      match ← Seq.groupSingle (.lst op l es) with
      | .lst op l es =>
        match ← checkLoop (Seq.check f) op es with
        | .inl b => .ok (.boo op (-1) b)
        | .inr [] => .ok (.boo op (-1) op.neutral)
        | .inr es' => .ok (.lst op l es')
      | s => .ok s

/-- `self.elements[0].elements[:]` / `list.extend(s.elements)`: the elements as a list -/
def Seq.elemsOf : Seq → M (List Seq)
  | .int _ => .error .attributeError
  | .boo _ _ _ => .error .typeError
  | .lst _ _ es => .ok es

/-- 406-410: split by operator, in order; elements of `self` that are ints have no operator -/
def splitOps : List Seq → M (List Seq × List Seq)
  | [] => .ok ([], [])
  | e :: es => do
    let op ← e.opOf
    let (a, o) ← splitOps es
    match op with
    | .and => .ok (e :: a, o)
    | .or => .ok (a, e :: o)

/-- 414-416 / 422-424: concatenation of the elements of the sequences -/
def concatElems : List Seq → M (List Seq)
  | [] => .ok []
  | e :: es => do
    let x ← e.elemsOf
    let xs ← concatElems es
    .ok (x ++ xs)

/-- 413-418 / 421-426: replace the sequences `same` (those with the operator of `self`) by one
sequence holding all their elements, appended after the others. -/
def mergeSame (op : Op) (l : Int) (same others : List Seq) : M Seq := do
  let xs ← concatElems same
  let ns := Seq.levelUpdate (.lst op 0 xs)
  .ok (.lst op (max l (ns.levOf + 1)) (others ++ [ns]))

/-- 441-442: `for e in self.elements: e.join_operators()` -/
def mapM' (f : Seq → M Seq) : List Seq → M (List Seq)
  | [] => .ok []
  | e :: es => do
    let e' ← f e
    let es' ← mapM' f es
    .ok (e' :: es')

/-- 403-426, merging part of `join_operators` -/
def joinMerge (op : Op) (l : Int) (es : List Seq) : M Seq := do
  let (ands, ors) ← splitOps es
  match op with
  | .and => if ands.length > 1 then mergeSame .and l ands ors else .ok (.lst op l es)
  | .or => if ors.length > 1 then mergeSame .or l ors ands else .ok (.lst op l es)

/-- 428-432, unwrapping of a single child; `rec` is `join_operators` -/
def joinUnwrap (rec : Seq → M Seq) : Seq → M Seq
  | .lst op l es =>
    match es with
    | [e] =>
      if l > 0 then do
        let op' ← e.opOf
        let xs ← e.elemsOf
        rec (.lst op' (l - 1) xs)
      else .ok (.lst op l es)
    | _ => .ok (.lst op l es)
  | s => .ok s

/-- 434-442, end of `join_operators` -/
def joinEnd (rec : Seq → M Seq) (selfLevel : Bool) (s : Seq) : M Seq :=
  if s.levOf = 0 then .ok s.check0
  else if selfLevel then .ok s
  else match s with
    | .lst op l es => do
      let es' ← mapM' rec es
      .ok (.lst op l es')
    | s => .ok s

/-- 394-442 `join_operators(self_level)` -/
def Seq.joinOps : Nat → Bool → Seq → M Seq
  | 0, _, _ => .error .recursion
  | _ + 1, _, .int _ => .error .attributeError
  | _ + 1, _, .boo op l b => .ok (.boo op l b)
  | f + 1, selfLevel, .lst op l es =>
    let s := (Seq.cleanSelf (.lst op l es)).levelUpdate
    if s.levOf = 0 then .ok s
    else do
      match ← s.groupSingle with
      | .lst op l es => do
        let s ← joinMerge op l es
        let s ← joinUnwrap (Seq.joinOps f false) s
        joinEnd (Seq.joinOps f false) selfLevel s
      | s => .ok s

/-- second argument of `substitute`: a bool or another (signed) surface -/
inductive Val where
  | b (v : Bool)
  | n (k : Int)
  deriving DecidableEq, Repr

/-- 322-350, loop of `substitute` over `reversed(self.elements)`. Removing an int that equals the
current one (347) leaves the same list whichever of the equal ints Python removes. -/
def substLoop (rec : Seq → M Seq) (op : Op) (var : Int) (val : Val) : List Seq → M (Bool ⊕ List Seq)
  | [] => .ok (.inr [])
  | e :: es => do
    match ← substLoop rec op var val es with
    | .inl b => .ok (.inl b)
    | .inr es' =>
      match e with
      | .int n =>
        if n.natAbs = var.natAbs then
          match val with
          | .n k => .ok (.inr ((if n = var.natAbs then .int k else .int (-k)) :: es'))
          | .b v =>
            let bv := if n = var.natAbs then v else !v
            if bv == op.neutral then .ok (.inr es') else .ok (.inl bv)
        else .ok (.inr (.int n :: es'))
      | e => do
        let e' ← rec e
        .ok (.inr (e' :: es'))

/-- 312-359 `substitute(var, val)` -/
def Seq.subst : Nat → Int → Val → Seq → M Seq
  | 0, _, _, _ => .error .recursion
  | _ + 1, _, _, .int _ => .error .attributeError
  | _ + 1, _, _, .boo op l b => .ok (.boo op l b)
  | f + 1, var, val, .lst op l es => do
    match ← substLoop (Seq.subst f var val) op var val es with
    | .inl b => .ok (.boo op (-1) b)
    | .inr [] => .ok (.boo op (-1) op.neutral)
    | .inr es' => Seq.joinOps f true (Seq.check0 (Seq.cleanSelf (.lst op l es')))

/-- 569-574, loop of `evaluate` on the copy -/
def evalLoop (f : Nat) : Vals → Seq → M Seq
  | [], s => .ok s
  | (_, none) :: vs, s =>
    match s with
    | .boo op l b => .ok (.boo op l b)
    | s => evalLoop f vs s
  | (k, some b) :: vs, s => do
    match ← Seq.subst f k (.b b) s with
    | .boo op l b => .ok (.boo op l b)
    | s => evalLoop f vs s

/-- 574 -/
def Ev.of : Seq → Ev
  | .boo _ _ b => .bool b
  | s => .seq s

/-- 562-574 `evaluate(valueSet)`: the new `self` (group_single is applied to it) and the result -/
def Seq.evaluate (f : Nat) (vs : Vals) : Seq → M (Seq × Ev)
  | .int _ => .error .attributeError
  | .boo op l b => .ok (.boo op l b, .bool b)
  | s => do
    let s ← s.groupSingle
    let r ← evalLoop f vs s
    .ok (s, Ev.of r)

/-- 152-160, complement of an element of a level-0 sequence: `-e` -/
def negInts : List Seq → M (List Seq)
  | [] => .ok []
  | .int n :: es => do
    let es' ← negInts es
    .ok (.int (-n) :: es')
  | _ :: _ => .error .typeError

/-- 158-159, loop of `get_complementary`; `rec` returns the new element and its complement -/
def compLoop (rec : Seq → M (Seq × Seq)) : List Seq → M (List Seq × List Seq)
  | [] => .ok ([], [])
  | e :: es => do
    let (e', c) ← rec e
    let (es', cs) ← compLoop rec es
    .ok (e' :: es', c :: cs)

/-- 148-160 `get_complementary`: the new `self` and the complement -/
def Seq.comp : Nat → Seq → M (Seq × Seq)
  | 0, _ => .error .recursion
  | _ + 1, .int _ => .error .attributeError
  | _ + 1, .boo _ _ _ => .error .typeError              -- iterating a bool
  | f + 1, .lst op l es =>
    if l = 0 then do
      let c ← negInts es
      .ok (.lst op l es, .lst op.comp l c)
    else do
      match ← Seq.groupSingle (.lst op l es) with
      | .lst op l es => do
        let (es', cs) ← compLoop (Seq.comp f) es
        .ok (.lst op l es', .lst op.comp l cs)
      | _ => .error .typeError

/-- 52-82, loop of `append` over the arguments -/
def appendLoop (op : Op) : Int → List Seq → List Item → M Seq
  | l, es, [] => .ok (.lst op l es)
  | l, es, .int n :: r =>
    if es.any (isInt n) then appendLoop op l es r
    else if es.any (isInt (-n)) then .ok (.boo op (-1) (!op.neutral))
    else appendLoop op (max l 0) (es ++ [.int n]) r
  | l, es, .bool b :: r =>
    if b == op.neutral then appendLoop op l es r else .ok (.boo op (-1) b)
  | l, es, .seq (.int n) :: r =>                        -- an int is an int
    if es.any (isInt n) then appendLoop op l es r
    else if es.any (isInt (-n)) then .ok (.boo op (-1) (!op.neutral))
    else appendLoop op (max l 0) (es ++ [.int n]) r
  | l, es, .seq (.boo _ _ b) :: r =>
    if b == op.neutral then appendLoop op l es r else .ok (.boo op (-1) b)
  | l, es, .seq (.lst op' l' es') :: r =>
    appendLoop op (max l (l' + 1)) (es ++ [.lst op' l' es']) r

/-- 84-102 `assign(seq)` called by `append` with the argument *tuple*: with several arguments
`list(*seq)` is a TypeError, with none `seq[0]` an IndexError, and a lone int or bool has no
attribute `operator`. -/
def assignTuple : List Item → M Seq
  | [] => .error .indexError
  | [.seq (.int _)] => .error .attributeError
  | [.seq s] => .ok s
  | [_] => .error .attributeError
  | _ => .error .typeError

/-- 40-82 `append(*seq)` -/
def Seq.append : Seq → List Item → M Seq
  | .int _, _ => .error .attributeError
  | .boo op l b, items =>
    if b == op.neutral then assignTuple items else .ok (.boo op l b)
  | .lst op l es, items => appendLoop op l es items

/-- 84-102 `assign(seq)` with a bool or a sequence -/
def Seq.assignEv (self : Seq) : Ev → M Seq
  | .bool b => do
    let op ← self.opOf
    .ok (.boo op (-1) b)
  | .seq s => .ok s

/-- 458-462: elements of `self` that involve a surface of `vals`, with their positions -/
def involved (vals : List Nat) : Nat → List Seq → M (List Nat × List Seq)
  | _, [] => .ok ([], [])
  | _, .int _ :: _ => .error .attributeError
  | i, e :: es => do
    let (ps, xs) ← involved vals (i + 1) es
    if e.surfaces.any (vals.contains ·) then .ok (i :: ps, e :: xs) else .ok (ps, xs)

/-- `max(level, level+1)` of the appended children, starting from 0 (25, 82) -/
def levOfElems : List Seq → Int
  | [] => 0
  | e :: es => max (e.levOf + 1) (levOfElems es)

/-- 444-470 `get_sub_sequence`: `none` is the answer `([], self)` of a level-0 sequence, otherwise
the path of single positions, the list of positions, and the sub-sequence. -/
def Seq.subSeq : Nat → List Nat → Seq → M (Option (List Nat × List Nat) × Seq)
  | 0, _, _ => .error .recursion
  | _ + 1, _, .int _ => .error .attributeError
  | _ + 1, _, .boo op l b => if l = 0 then .ok (none, .boo op l b) else .error .typeError
  | f + 1, vals, .lst op l es =>
    if l = 0 then .ok (none, .lst op l es)
    else do
      let (ps, xs) ← involved vals 0 es
      match ps, xs with
      | [p], [e] =>
        if e.levOf > 0 then do
          match ← Seq.subSeq f vals e with
          | (some (path, idx), sub) => .ok (some (p :: path, idx), sub)
          | (none, sub) => .ok (none, sub)
        else .ok (some ([], ps), .lst op (levOfElems xs) xs)
      | _, _ => .ok (some ([], ps), .lst op (levOfElems xs) xs)

/-- 115-116: delete the elements at the given positions (increasing), `i` = position of the head -/
def delAt (idx : List Nat) : Nat → List Seq → List Seq
  | _, [] => []
  | i, e :: es => if idx.contains i then delAt idx (i + 1) es else e :: delAt idx (i + 1) es

/-- 113-123, `update` on the node reached. When `new` is a bare boolean the code throws away the
remaining elements of the node (118-120). If `guard` is set the model reports `Err.lossy` exactly when
that changes what the node means syntactically: elements remain and the boolean is the neutral element
of the node's operator. `guard = false` is the code. -/
def updateBase (guard : Bool) (f : Nat) (new : Seq) (idx : List Nat) : Seq → M Seq
  | .int _ => .error .attributeError
  | .boo _ _ _ => .error .typeError
  | .lst op l es =>
    let rest := delAt idx 0 es
    match new with
    | .boo _ _ b =>
      if guard && b == op.neutral && !rest.isEmpty then .error .lossy
      else .ok (.boo op (-1) b)
    | new => do
      let s ← (Seq.lst op l rest).append [.seq new]
      Seq.joinOps f false s

/-- 127-131 `get_element(pos)`, then the update of the node found -/
def updatePath (guard : Bool) (f : Nat) (new : Seq) (idx : List Nat) : List Nat → Seq → M Seq
  | [], s => updateBase guard f new idx s
  | p :: path, .lst op l es =>
    match es[p]? with
    | none => .error .indexError
    | some e => do
      let e' ← updatePath guard f new idx path e
      .ok (.lst op l (es.set p e'))
  | _ :: _, _ => .error .typeError

/-- 104-125 `update(seq, pos)` with a non-empty `pos` -/
def Seq.update (guard : Bool) (f : Nat) (new : Seq) (pos : List Nat × List Nat) (s : Seq) : M Seq := do
  let s ← updatePath guard f new pos.2 pos.1 s
  .ok s.cleanSelf

/-- 496-560: the sequence that replaces the factorised part; `none`: no change -/
def newSeqOf (f : Nat) (v : Nat) : Ev → Ev → M (Option Seq)
  | .bool false, .bool true => .ok (some (.lst .and 0 [.int (-v)]))
  | .bool false, .bool false => .ok (some (.boo .and (-1) false))
  | .bool false, .seq s => do
    let x ← (Seq.lst .and 0 []).append [.int (-v), .seq s]
    let x ← x.joinOps f true
    .ok (some x)
  | .bool true, .bool true => .ok (some (.boo .or (-1) true))
  | .bool true, .bool false => .ok (some (.lst .or 0 [.int v]))
  | .bool true, .seq s => do
    let x ← (Seq.lst .or 0 []).append [.int v, .seq s]
    let x ← x.joinOps f true
    .ok (some x)
  | .seq s, .bool false => do
    let x ← (Seq.lst .and 0 []).append [.int v, .seq s]
    let x ← x.joinOps f true
    .ok (some x)
  | .seq s, .bool true => do
    let x ← (Seq.lst .or 0 []).append [.int (-v), .seq s]
    let x ← x.joinOps f true
    .ok (some x)
  | .seq _, .seq _ => .ok none

/-- 472-560 `factorize(valname, true_set, false_set)`; `none` = the set is `None` -/
def Seq.factorize (guard : Bool) (f : Nat) (v : Nat) (tset fset : Option Vals) (self : Seq) : M Seq :=
  match tset, fset with
  | none, none => .error .attributeError                -- evaluate(None): None.items()
  | none, some fs => do
    let (self, r) ← self.evaluate f fs
    self.assignEv r
  | some ts, none => do
    let (self, r) ← self.evaluate f ts
    self.assignEv r
  | some ts, some fs => do
    let (pos, sub) ← self.subSeq f (ts.map (·.1) ++ fs.map (·.1))
    match pos with
    | none => do
      let (self, t) ← self.evaluate f ts
      let (self, e) ← self.evaluate f fs
      match ← newSeqOf f v t e with
      | none => .ok self
      | some new => .ok new
    | some pos => do
      let (sub, t) ← sub.evaluate f ts
      let (_, e) ← sub.evaluate f fs
      match ← newSeqOf f v t e with
      | none => .ok self
      | some new => Seq.update guard f new pos self

/-- 229-232: the first element on surface `v` -/
def findVal (v : Nat) : List Seq → M (Option Int)
  | [] => .ok none
  | .int n :: es => if n.natAbs = v then .ok (some n) else findVal v es
  | _ :: _ => .error .typeError

/-- 221-223: number of surfaces of the sequence that are keys of the set -/
def keyCount (es : List Seq) (s : Vals) : Nat :=
  (dedup ((Seq.surfacesL es).filter (fun x => (s.map (·.1)).contains x))).length

/-- 211-257 `do_factorize` -/
def Seq.doFactorize (v : Nat) (tset fset : Option Vals) : Seq → M Bool
  | .int _ => .error .attributeError
  | .boo _ l _ => if l > 0 then .ok true else .error .typeError
  | .lst op l es =>
    if l > 0 then .ok true
    else match tset, fset with
    | none, none => .ok false
    | none, some _ => .ok true
    | some _, none => .ok true
    | some ts, some fs => do
      let nt := keyCount es ts
      let nf := keyCount es fs
      if nt == 1 && nf == 1 then .ok false
      else match ← findVal v es with
      | none => .ok false
      | some value =>
        if nt == 1 then
          match op with
          | .and => .ok (!(value > 0))
          | .or => .ok (!(value < 0))
        else if nf == 1 then
          match op with
          | .and => .ok (!(value < 0))
          | .or => .ok (!(value > 0))
        else .ok true

/-- 198-202 -/
def setsOf (ct : Option CTab) (v : Nat) : M (Option Vals × Option Vals) :=
  match ct with
  | none => .ok (some [(v, some true)], some [(v, some false)])
  | some t => t v

/-- 195-209, loop of `simplify_sequence`; `names` is `newNames` -/
def simpSeqLoop (guard : Bool) (f : Nat) (ct : Option CTab) : List Nat → List Nat → Seq → M Seq
  | [], _, s => .ok s
  | v :: vs, names, s =>
    if names.contains v then do
      let (t, e) ← setsOf ct v
      if ← s.doFactorize v t e then do
        match ← s.factorize guard f v t e with
        | .boo op l b => .ok (.boo op l b)
        | s => simpSeqLoop guard f ct vs s.surfaces s
      else simpSeqLoop guard f ct vs names s
    else simpSeqLoop guard f ct vs names s

/-- 184-209 `simplify_sequence(CT)`. `enum` gives the order in which the Python set of surfaces of an
expression is iterated (any order: the theorems hold for every `enum`). -/
def Seq.simpSeq (guard : Bool) (enum : Seq → List Nat) (f : Nat) (ct : Option CTab) (s : Seq) : M Seq :=
  if s.levOf < 1 && ct.isNone then .ok s.clean
  else simpSeqLoop guard f ct (enum s) s.surfaces s

/-- 171-172 on the elements, then the rest of 170-175; `rec` is the recursive `simplify` -/
def simpInner (f : Nat) (rec : Seq → M Seq) : Seq → M Seq
  | .lst op l es =>
    if l > 0 then do
      let es' ← mapM' rec es
      let s ← (Seq.clean (.lst op l es')).joinOps f false
      .ok s.levelUpdate
    else .ok (.lst op l es)
  | .boo op l b => if l > 0 then .error .typeError else .ok (.boo op l b)
  | .int _ => .error .attributeError

/-- 168-182 `simplify(CT, depth)` -/
def Seq.simplify (guard : Bool) (enum : Seq → List Nat) (ct : Option CTab) : Nat → Nat → Seq → M Seq
  | 0, _, _ => .error .recursion
  | f + 1, depth, s => do
    let s ← simpInner f (Seq.simplify guard enum ct f (depth + 1)) s
    match s with
    | .lst op l es =>
      if l > 0 || es.length > 1 then do
        let s' ← (Seq.lst op l es).simpSeq guard enum f ct
        if s'.levOf > l && depth < 10 then Seq.simplify guard enum ct f (depth + 1) s'
        else .ok s'
      else .ok s
    | s => .ok s

/-- 674-679, loop of `substitute_integer_element`; `rec` is the recursive call -/
def substIntLoop (rec : Seq → M Seq) (target : Int) (new : Seq) : List Seq → M (List Seq)
  | [] => .ok []
  | .int n :: es => do
    let es' ← substIntLoop rec target new es
    .ok ((if n = target then new else .int n) :: es')
  | e :: es => do
    let e' ← rec e
    let es' ← substIntLoop rec target new es
    .ok (e' :: es')

/-- 671-679 `substitute_integer_element(Seq, target, newElement)`. The same object `newElement` is
stored at every occurrence (aliasing is not represented here). -/
def Seq.substInt : Nat → Int → Seq → Seq → M Seq
  | 0, _, _, _ => .error .recursion
  | _ + 1, _, _, .int _ => .error .attributeError
  | _ + 1, _, _, .boo _ _ _ => .error .typeError
  | f + 1, target, new, .lst op l es => do
    let es' ← substIntLoop (Seq.substInt f target new) target new es
    .ok (.lst op l es')

/-- 658-667 `insert_in_sequence(Seq, trgt, nsrf, operator)`. `BoolSequence("t:n")` /
`BoolSequence("t n")` is the two-element level-0 sequence: a Python set of the two numbers (order
irrelevant, one element if they are equal), or a bare boolean if they are opposite (596-604). -/
def twoSeq (op : Op) (t n : Int) : Seq :=
  if n = t then .lst op 0 [.int t]
  else if n = -t then .boo op (-1) (!op.neutral)
  else .lst op 0 [.int t, .int n]

/-- 658-667 -/
def insertInSequence (f : Nat) (s : Seq) (t n : Int) (op : Op) : M Seq := do
  let s ← Seq.substInt f t (twoSeq op t n) s
  .ok s.levelUpdate

end Geouned
