import Verif.Text.Spec
import Verif.Bool.Model
/-!
# Reading and cleaning the text of cell definitions

Model of `outer_terms`, `redundant`, `is_integer`, `BoolSequence.set_def` (`src/geouned/GEOUNED/utils/boolean_function.py` 576-606, 682-785),
of `remove_redundant`, `redundant` (`src/geouned/GEOUNED/write/string_functions.py` 84-160), and of the writers of cell definitions
(`src/geouned/GEOUNED/write/functions.py` 99-194).

Simplification: a text is the list of its tokens (a signed number is one token, each blank is one token); no newline, no MCNP comment (`C`, `$`).
Without newlines the last three substitutions of `remove_redundant` (151-158) do nothing.
-/
namespace Geouned.Text

/-- The loops over the parentheses keep a text with some parts masked. An item is a stretch of that text:
* `tok t`  : not masked;
* `gone t` : a removed parenthesis, a blank in the masked text. `outer_terms` goes back to the original text, where it is `t`;
* `block ts` : a masked parenthesis: `[00...0]` in `outer_terms`, `[...;...]` in `remove_redundant`; `ts` is the text it stands for. -/
inductive Item where
  | tok (t : Tok)
  | gone (t : Tok)
  | block (ts : List Tok)
  deriving DecidableEq, Repr

/-- The text that an item stands for in the end. `keep`: `outer_terms` slices the original expression (boolean_function.py 716-736);
`remove_redundant` restores the brackets only (string_functions.py 149). -/
def Item.orig (keep : Bool) : Item → List Tok
  | .tok t => [t]
  | .gone t => if keep then [t] else [.blank]
  | .block ts => ts

def origs (keep : Bool) (w : List Item) : List Tok := w.flatMap (Item.orig keep)

/-- after a `(`: the text up to the first parenthesis, if that is a `)` (pattern `\([^\(^\)]*\)`, boolean_function.py 10, string_functions.py 47) -/
def spanInner : List Item → Option (List Item × List Item)
  | [] => none
  | .tok .rp :: r => some ([], r)
  | .tok .lp :: _ => none
  | x :: r => (spanInner r).map fun p => (x :: p.1, p.2)

/-- `mostinner.search`: the first most inner parenthesis: text before, inside, after -/
def findInner : List Item → Option (List Item × List Item × List Item)
  | [] => none
  | .tok .lp :: r =>
    match spanInner r with
    | some (i, p) => some ([], i, p)
    | none => (findInner r).map fun q => (.tok .lp :: q.1, q.2.1, q.2.2)
  | x :: r => (findInner r).map fun q => (x :: q.1, q.2.1, q.2.2)

/-- boolean_function.py 743-752, string_functions.py 88-97: `w` is the text on the left, nearest character first -/
def leftOK : List Item → Bool
  | [] => true
  | .tok .blank :: w => leftOK w
  | .gone _ :: w => leftOK w
  | .tok .lp :: _ => true
  | .tok .colon :: _ => true
  | _ => false

/-- boolean_function.py 759-768, string_functions.py 104-113 -/
def rightOK : List Item → Bool
  | [] => true
  | .tok .blank :: w => rightOK w
  | .gone _ :: w => rightOK w
  | .tok .rp :: _ => true
  | .tok .colon :: _ => true
  | _ => false

/-- `redundant(m, geom)`, boolean_function.py 739-777, string_functions.py 84-122 -/
def redundant (left inner right : List Item) : Bool :=
  if ¬ (.tok .colon ∈ inner) then true else leftOK left.reverse && rightOK right

/-- what the loop puts in place of the parenthesis, boolean_function.py 706-712, string_functions.py 139-145 -/
def masked (keep : Bool) (left inner right : List Item) : List Item :=
  if redundant left inner right then .gone .lp :: (inner ++ [.gone .rp])
  else [.block (.lp :: (origs keep inner ++ [.rp]))]

/-- boolean_function.py 701-714, string_functions.py 134-146, the inner loop (`k`: iterations left): `done` is the text before `pos` -/
def pass (keep : Bool) : Nat → List Item → List Item → List Item
  | 0, done, rest => done ++ rest
  | k + 1, done, rest =>
    match findInner rest with
    | none => done ++ rest
    | some (pre, inner, post) =>
      pass keep k (done ++ pre ++ masked keep (done ++ pre) inner post) post

/-- boolean_function.py 695-714, string_functions.py 129-146, the outer loop (`k`: iterations left): until a pass finds no parenthesis -/
def passes (keep : Bool) : Nat → List Item → List Item
  | 0, w => w
  | k + 1, w => if (findInner w).isNone then w else passes keep k (pass keep w.length [] w)

/-- the loop, started on a text; every pass but the last removes a `(` -/
def mask (keep : Bool) (ts : List Tok) : List Item :=
  passes keep (ts.length + 1) (ts.map .tok)

/-- string_functions.py 125-160 `remove_redundant(geom)` -/
def removeRedundant (ts : List Tok) : List Tok := origs false (mask false ts)

/-- boolean_function.py 716-726: slices between the `:` of the masked text -/
def splitColon : List Item → List (List Item)
  | [] => [[]]
  | .tok .colon :: w => [] :: splitColon w
  | x :: w =>
    match splitColon w with
    | [] => [[x]]
    | p :: ps => (x :: p) :: ps

/-- `str.strip()` -/
def strip (ts : List Tok) : List Tok := ((ts.dropWhile (· = .blank)).reverse.dropWhile (· = .blank)).reverse

/-- `str.strip("(")`, `str.strip(")")` -/
def stripTok (t : Tok) (ts : List Tok) : List Tok := ((ts.dropWhile (· = t)).reverse.dropWhile (· = t)).reverse

/-- boolean_function.py 728-736: numbers and blocks of the masked text -/
def andTerms : List Item → List (List Tok)
  | [] => []
  | .tok (.num n) :: w => [.num n] :: andTerms w
  | .block ts :: w => ts :: andTerms w
  | _ :: w => andTerms w

/-- boolean_function.py 682-736 `outer_terms(expression)` -/
def outerTerms (ts : List Tok) : List (List Tok) × Op :=
  let w := mask true ts
  if .tok .colon ∈ w then ((splitColon w).map fun p => strip (origs true p), .or)
  else (andTerms w, .and)

/-- boolean_function.py 780-785 `is_integer`, and the `int(...)` of 586: parentheses stripped, then blanks around a number are allowed -/
def asInteger (ts : List Tok) : Option Int :=
  match strip (stripTok .rp (stripTok .lp ts)) with
  | [.num n] => some n
  | _ => none

/-- `self.level = ...` -/
def setLevel (l : Int) : Seq → Seq
  | .int n => .int n
  | .boo op _ b => .boo op l b
  | .lst op _ es => .lst op l es

/-- boolean_function.py 585-594: the loop over the terms; `rec` is `BoolSequence(t)`; the second result is `lev0Seq` with repetitions -/
def termLoop (rec : List Tok → M Seq) : List (List Tok) → Seq → List Int → M (Seq × List Int)
  | [], s, ns => .ok (s, ns)
  | t :: ts, s, ns =>
    match asInteger t with
    | some n => termLoop rec ts s (ns ++ [n])
    | none => do
      let x ← rec t
      let s' ← (setLevel (max (x.levOf + 1) s.levOf) s).append [.seq x]
      termLoop rec ts s' ns

/-- boolean_function.py 596-604: the integers are put in, unless some number and its negative are among them.
`order`: the order in which a Python set of ints is iterated -/
def endDef (order : List Int → List Int) (op : Op) (s : Seq) (ns : List Int) : M Seq :=
  if (dedup ns).length ≠ (dedup (ns.map Int.natAbs)).length then .ok (.boo op (-1) (!op.neutral))
  else s.append ((order (dedup ns)).map .int)

/-- boolean_function.py 576-606 `set_def(expression)`. `f`: recursion depth allowed.
`BoolSequence("")` (18-25) has no operator: represented as an error. -/
def setDef (order : List Int → List Int) : Nat → List Tok → M Seq
  | 0, _ => .error .recursion
  | _ + 1, [] => .error .attributeError
  | f + 1, t :: ts => do
    let r ← termLoop (setDef order f) (outerTerms (t :: ts)).1 (.lst (outerTerms (t :: ts)).2 0 []) []
    let s ← endDef order (outerTerms (t :: ts)).2 r.1 r.2
    s.groupSingle

/-! ## Writers -/

/-- `sep.join(terms)` -/
def join {α : Type} (sep : List α) : List (List α) → List α
  | [] => []
  | [t] => t
  | t :: t' :: ts => t ++ (sep ++ join sep (t' :: ts))

/-- a writer: how numbers, the two separators and the parentheses are written -/
structure Style (α : Type) where
  num : Int → List α
  sep : Op → List α
  lp : α
  rp : α

/-- functions.py 130-149 `write_sequence_mcnp`, 152-171 `write_sequence_serpent` (it calls `write_sequence_mcnp` for the parts),
174-193 `write_sequence_phits`: parentheses, blank for AND, `:` for OR -/
def mcnpStyle : Style Tok := ⟨fun n => [.num n], fun | .and => [.blank] | .or => [.colon], .lp, .rp⟩

/-- functions.py 196-214 `write_sequence_omc_xml`; the token `colon` stands for the character `|` of OpenMC -/
def xmlStyle : Style Tok := ⟨fun n => [.num n], fun | .and => [.blank] | .or => [.blank, .colon, .blank], .lp, .rp⟩

/-- functions.py 217-238 `write_sequence_omc_py` (blanks left out): `strSurf` -/
def pyStyle : Style PTok := ⟨fun n => [.surf (n < 0) n.natAbs], fun | .and => [.amp] | .or => [.bar], .lp, .rp⟩

/-- `map(str, Seq.elements)` at level 0: the elements are numbers (a sequence would be written by `__str__`, not representable: `lossy`) -/
def level0Terms {α : Type} (st : Style α) : List Seq → M (List (List α))
  | [] => .ok []
  | .int n :: es => do
    let r ← level0Terms st es
    .ok (st.num n :: r)
  | _ :: _ => .error .lossy

/-- functions.py 137-142, loop -/
def termsLoop {α : Type} (st : Style α) (rec : Seq → M (List α)) : List Seq → M (List (List α))
  | [] => .ok []
  | .int n :: es => do
    let r ← termsLoop st rec es
    .ok (st.num n :: r)
  | e :: es => do
    let t ← rec e
    let r ← termsLoop st rec es
    .ok (t :: r)

/-- functions.py 130-149 and the other writers. `f`: recursion depth allowed. A bare boolean cannot be iterated. -/
def writeSeq {α : Type} (st : Style α) : Nat → Seq → M (List α)
  | 0, _ => .error .recursion
  | _ + 1, .int _ => .error .attributeError
  | _ + 1, .boo _ _ _ => .error .typeError
  | f + 1, .lst op l es =>
    if l = 0 then do
      let terms ← level0Terms st es
      .ok (st.lp :: (join (st.sep op) terms ++ [st.rp]))
    else do
      let terms ← termsLoop st (writeSeq st f) es
      .ok (st.lp :: (join (st.sep op) terms ++ [st.rp]))

/-- functions.py 99-120, without the line wrapping: `remove_redundant(write_sequence_mcnp(definition))` -/
def cellText (f : Nat) (s : Seq) : M (List Tok) := do
  let ts ← writeSeq mcnpStyle f s
  .ok (removeRedundant ts)

end Geouned.Text
