import Verif.Misc.Util
/-!
# Cell ranges of the reverse conversion

Model of `getRangeData` (`src/geouned/GEOReverse/Modules/processInp.py` 162-191). Strings are lists of characters. The
character classes of Python (`str.isspace`, `str.isnumeric`, decimal value used by `int`) are a parameter, because
`isnumeric` holds for many more characters than the decimal digits.
-/
namespace Geouned.Range

/-- character classes -/
structure Chars where
  ws : Char → Bool
  num : Char → Bool
  dec : Char → Option Nat

/-- the classes are disjoint and do not contain the separators -/
structure Chars.Lawful (cc : Chars) : Prop where
  num_ws : ∀ c, cc.num c = true → cc.ws c = false
  dec_num : ∀ c d, cc.dec c = some d → cc.num c = true
  comma : cc.ws ',' = false ∧ cc.num ',' = false
  colon : cc.ws ':' = false ∧ cc.num ':' = false

/-- `str.split(c)` -/
def split (c : Char) : List Char → List (List Char)
  | [] => [[]]
  | x :: xs =>
    if x = c then [] :: split c xs
    else match split c xs with
      | [] => [[x]]
      | y :: ys => (x :: y) :: ys

/-- `str.strip()` -/
def strip (cc : Chars) (s : List Char) : List Char := ((s.dropWhile cc.ws).reverse.dropWhile cc.ws).reverse

/-- `str.isnumeric()` -/
def isnumeric (cc : Chars) (s : List Char) : Bool := !s.isEmpty && s.all cc.num

/-- decimal value of the characters, `none` if one is not a decimal digit -/
def decVal (cc : Chars) : Nat → List Char → Option Nat
  | acc, [] => some acc
  | acc, c :: cs =>
    match cc.dec c with
    | some d => decVal cc (10 * acc + d) cs
    | none => none

/-- the exceptions of the code -/
inductive Err where
  | valueError
  deriving DecidableEq, Repr

/-- `int(s)` for the strings it is applied to (nonempty, no sign, no underscore) -/
def toInt (cc : Chars) (s : List Char) : Except Err Nat :=
  match decVal cc 0 (strip cc s) with
  | some n => .ok n
  | none => .error .valueError

/-- 169-187, body of the loop: `none` is `return None` -/
def field (cc : Chars) (i : List Char) : Except Err (Option (List Nat)) :=
  if isnumeric cc (strip cc i) then do
    let n ← toInt cc i
    .ok (some [n])
  else match split ':' i with
    | [a, b] =>
      if isnumeric cc (strip cc a) && isnumeric cc (strip cc b) then do
        let i1 ← toInt cc a
        let i2 ← toInt cc b
        if i1 > i2 then .ok none else .ok (some (List.range' i1 (i2 + 1 - i1)))
      else .ok none
    | _ => .ok none

/-- 169-187, the loop; the set is a list (repetitions removed at the end) -/
def loop (cc : Chars) : List (List Char) → List Nat → Except Err (Option (List Nat))
  | [], acc => .ok (some acc)
  | i :: is, acc => do
    match ← field cc i with
    | none => .ok none
    | some l => loop cc is (acc ++ l)

/-- a list without repetitions with the same members -/
def toSet : List Nat → List Nat
  | [] => []
  | a :: l => if a ∈ l then toSet l else a :: toSet l

/-- 162-191 `getRangeData` -/
def getRangeData (cc : Chars) : Option (List Char) → Except Err (Option (List Nat))
  | none => .ok none
  | some raw => do
    match ← loop cc (split ',' raw) [] with
    | none => .ok none
    | some l => .ok (some (insSort (fun a b => decide (a ≤ b)) (toSet l)))

end Geouned.Range
