import Verif.Text.CharSpec
import Verif.Text.Model
import Verif.Text.Wrap
/-!
# Cell definitions, character by character

Model of `write_mcnp_cell_def` and its parts on the characters (`src/geouned/GEOUNED/write/functions.py` 99-193) and of `remove_redundant`
(`src/geouned/GEOUNED/write/string_functions.py` 84-160). Simplification: the text has no newline, so that the substitutions of
string_functions.py 151-158 do nothing.
-/
namespace Geouned.Text

/-- `str(n)` for an int -/
def strInt (n : Int) : List Char := if n < 0 then '-' :: Nat.toDigits 10 n.natAbs else Nat.toDigits 10 n.natAbs

/-- functions.py 130-149 `write_sequence_mcnp`, 152-171, 174-193, on characters -/
def charStyle : Style Char := ⟨strInt, fun | .and => [' '] | .or => [':'], '(', ')'⟩

/-- `mostinner = re.compile(r"\([^\(^\)]*\)")` (string_functions.py 47), after the `(`; also `^` is excluded -/
def spanC : List Char → Option (List Char × List Char)
  | [] => none
  | c :: r =>
    if c = ')' then some ([], r)
    else if c = '(' ∨ c = '^' then none
    else (spanC r).map fun p => (c :: p.1, p.2)

/-- `mostinner.search`: text before, inside, after -/
def findC : List Char → Option (List Char × List Char × List Char)
  | [] => none
  | c :: r =>
    if c = '(' then
      match spanC r with
      | some (i, p) => some ([], i, p)
      | none => (findC r).map fun q => (c :: q.1, q.2.1, q.2.2)
    else (findC r).map fun q => (c :: q.1, q.2.1, q.2.2)

/-- string_functions.py 88-97: `("\n", "C", "$", " ")` are skipped -/
def skipped (c : Char) : Bool := c = '\n' || c = 'C' || c = '$' || c = ' '

/-- string_functions.py 88-97, 104-113: the nearest character that is not skipped is `p` or `:`, or there is none -/
def nearC (p : Char) : List Char → Bool
  | [] => true
  | c :: w => if skipped c then nearC p w else c = p || c = ':'

/-- string_functions.py 84-122 `redundant(m, geom)` -/
def redundantC (left inner right : List Char) : Bool :=
  if ':' ∉ inner then true else nearC '(' left.reverse && nearC ')' right

/-- string_functions.py 139-145 -/
def maskedC (left inner right : List Char) : List Char :=
  if redundantC left inner right then ' ' :: (inner ++ [' '])
  else '[' :: (inner.map (fun c => if c = ':' then ';' else c) ++ [']'])

/-- string_functions.py 134-146, inner loop -/
def passC : Nat → List Char → List Char → List Char
  | 0, done, rest => done ++ rest
  | k + 1, done, rest =>
    match findC rest with
    | none => done ++ rest
    | some (pre, inner, post) => passC k (done ++ pre ++ maskedC (done ++ pre) inner post) post

/-- string_functions.py 129-146, outer loop -/
def passesC : Nat → List Char → List Char
  | 0, w => w
  | k + 1, w => if (findC w).isNone then w else passesC k (passC w.length [] w)

/-- string_functions.py 67-75 `reverse_repl` -/
def reverseRepl (c : Char) : Char := if c = '[' then '(' else if c = ']' then ')' else if c = ';' then ':' else c

/-- string_functions.py 125-160 `remove_redundant(geom)` -/
def removeRedundantC (s : List Char) : List Char := (passesC (s.length + 1) s).map reverseRepl

/-- functions.py 99-104 (107-120) `write_mcnp_cell_def(definition, tabspace, offset)`, the same for PHITS and Serpent; `size` is 80.
`f`: recursion depth allowed; `k`: rounds of `wrap_line` allowed. -/
def cellDef (size tab offset f k : Nat) (s : Seq) : M (List Char) := do
  let t ← writeSeq charStyle f s
  Wrap.wrapLine size tab offset k (removeRedundantC t)

end Geouned.Text
