import Verif.Text.Model
/-!
# Model of the cell definitions of GEOReverse

`src/geouned/GEOReverse/Modules/Utils/booleanFunction.py`: an older copy of the class of GEOUNED. `outer_terms`, `redundant`, `is_integer`
(545-647) are, line by line, those of GEOUNED, modelled in `Text/Model.lean` (`outerTerms`, `asInteger`); `group_single` (464-484) and
`get_complementary` (71-84) are those of `Bool/Model.lean`. What differs is modelled here: `set_def` (451-462), `evaluate` (415-449),
`append` (35-50), `clean` (249-276), `level_update` (521-533), `join_operators` (279-320).

Simplification: sequences are values; that two places may hold the same object is not represented.
-/
namespace Geouned.RBool
open Geouned Geouned.Text

/-- booleanFunction.py 455-461: the loop over the terms, with the stored level and the elements so far; `rec` is `BoolSequence(t)` -/
def defLoop (rec : List Tok → M Seq) : List (List Tok) → Int → List Seq → M (Int × List Seq)
  | [], l, es => .ok (l, es)
  | t :: ts, l, es =>
    match asInteger t with
    | some n => defLoop rec ts l (es ++ [.int n])
    | none => do
      let x ← rec t
      defLoop rec ts (max (x.levOf + 1) l) (es ++ [x])

/-- booleanFunction.py 451-462 `set_def(expression)`; `f`: recursion depth allowed.
`BoolSequence("")` (14-21) has no operator: represented as an error. -/
def setDef : Nat → List Tok → M Seq
  | 0, _ => .error .recursion
  | _ + 1, [] => .error .attributeError
  | f + 1, t :: ts => do
    let r ← defLoop (setDef f) (outerTerms (t :: ts)).1 0 []
    Seq.groupSingle (.lst (outerTerms (t :: ts)).2 r.1 r.2)

/-- a dictionary `{surface: True | False | None}` -/
abbrev Known := Nat → Option (Option Bool)

/-- the value of a signed surface number, booleanFunction.py 421-432 -/
def litVal (vs : Known) (n : Int) : Option Bool :=
  match vs n.natAbs with
  | some (some b) => some (if n < 0 then !b else b)
  | _ => none

/-- booleanFunction.py 420-449: the loop over the elements (`nv` is `noneVal`) and the end of `evaluate`; `rec` is `e.evaluate`. The first
result is the list of elements after the call: `evaluate` groups the single surfaces of what it visits. -/
def evalLoop (rec : Seq → M (Seq × Option Bool)) (vs : Known) (op : Op) : Bool → List Seq → M (List Seq × Option Bool)
  | nv, [] => .ok ([], if nv then none else some (op == .and))
  | nv, .int n :: es =>
    match litVal vs n with
    | none => do
      let r ← evalLoop rec vs op true es
      .ok (.int n :: r.1, r.2)
    | some v =>
      if (op == .and && !v) || (op == .or && v) then .ok (.int n :: es, some v)
      else do
        let r ← evalLoop rec vs op nv es
        .ok (.int n :: r.1, r.2)
  | nv, e :: es => do
    let x ← rec e
    match x.2 with
    | none => do
      let r ← evalLoop rec vs op true es
      .ok (x.1 :: r.1, r.2)
    | some v =>
      if (op == .and && !v) || (op == .or && v) then .ok (x.1 :: es, some v)
      else do
        let r ← evalLoop rec vs op nv es
        .ok (x.1 :: r.1, r.2)

/-- booleanFunction.py 415-449 `evaluate(valueSet)`: the sequence after the call, and the value (`none` is Python's `None`).
`f`: recursion depth allowed. -/
def evaluate : Nat → Known → Seq → M (Seq × Option Bool)
  | 0, _, _ => .error .recursion
  | _ + 1, _, .int _ => .error .attributeError
  | _ + 1, _, .boo op l b => .ok (.boo op l b, some b)
  | f + 1, vs, .lst op l es => do
    let s ← Seq.groupSingle (.lst op l es)
    match s with
    | .lst op' l' es' => do
      let r ← evalLoop (evaluate f vs) vs op' false es'
      .ok (.lst op' l' r.1, r.2)
    | _ => .error .typeError

/-- any number of calls of `evaluate` on the same sequence, with the answers -/
def evaluates (f : Nat) : List Known → Seq → M (Seq × List (Option Bool))
  | [], s => .ok (s, [])
  | vs :: l, s => do
    let x ← evaluate f vs s
    let r ← evaluates f l x.1
    .ok (r.1, x.2 :: r.2)

end Geouned.RBool
