import Verif.CellText.Spec
/-!
# Model of the reading of a cell card

`src/geouned/GEOReverse/Modules/remh.py` 10-75 (regular expressions), 244-266 (`Cline.remove_comments`), 502-640 (`CellCardString`);
`Parser/parser.py` 268-360, 755-798 (what `Card.get_values` does to a cell card); `MCNPinput.py` 95-108.

Simplifications: the text contains no `$` (`Card.get_input` cuts it off, so `remove_dollar` does nothing) and only ASCII characters; `int(text)` knows a sign
and digits (no `_`); of `get_values` the template and the numbers of surfaces are left out, as well as the exceptions that the values of `U` and
`FILL` can raise there (lattice arrays).
-/
namespace Geouned.CellText

variable {V : Type}

def low (s : List Char) : List Char := s.map Char.toLower

/-- the regular expressions `[-+]?(\d+\.\d+|\.\d+|\d+\.?)(e[+-]\d+)?` (16-18, 71), at the beginning of a text: what matches and the rest -/
def matchExp (s : List Char) : List Char × List Char :=
  match s with
  | e :: g :: q =>
    if (e = 'e' ∨ e = 'E') ∧ (g = '+' ∨ g = '-') ∧ q.takeWhile Char.isDigit ≠ [] then (e :: g :: q.takeWhile Char.isDigit, q.dropWhile Char.isDigit)
    else ([], s)
  | _ => ([], s)

/-- `(\d+\.\d+|\.\d+|\d+\.?)` -/
def matchMantissa (s : List Char) : Option (List Char × List Char) :=
  let d := s.takeWhile Char.isDigit
  let r := s.dropWhile Char.isDigit
  match r with
  | '.' :: q =>
    let f := q.takeWhile Char.isDigit
    if d = [] ∧ f = [] then none else some (d ++ '.' :: f, q.dropWhile Char.isDigit)
  | _ => if d = [] then none else some (d, r)

/-- `[-+]?` -/
def matchSign (s : List Char) : List Char × List Char :=
  match s with
  | c :: r => if c = '+' ∨ c = '-' then ([c], r) else ([], s)
  | [] => ([], [])

def matchNum (s : List Char) : Option (List Char × List Char) :=
  (matchMantissa (matchSign s).2).map (fun m => ((matchSign s).1 ++ m.1 ++ (matchExp m.2).1, (matchExp m.2).2))

/-- `grlnumber.search`: the text before, the number, the text after -/
def searchNum : List Char → Option (List Char × List Char × List Char)
  | [] => none
  | c :: s =>
    match matchNum (c :: s) with
    | some (n, r) => some ([], n, r)
    | none => (searchNum s).map (fun x => (c :: x.1, x.2.1, x.2.2))

/-- `trfnumber.search` (71): the next number (`some`) or closing parenthesis (`none`), and the text after it -/
def searchEntry : List Char → Option (Option (List Char) × List Char)
  | [] => none
  | c :: s =>
    match matchNum (c :: s) with
    | some (n, r) => some (some n, r)
    | none => if c = ')' then some (none, s) else searchEntry s

/-- `unsignedint.search` (24) -/
def searchInt : List Char → Option (List Char)
  | [] => none
  | c :: s => if c.isDigit then some ((c :: s).takeWhile Char.isDigit) else searchInt s

/-- `celmat.match` (13-15): `(^ *\d+) +(\d+|like)`; the digits of the first group, the second group, the rest -/
def celmat (s : List Char) : Option (List Char × List Char × List Char) :=
  let a := s.dropWhile (· = ' ')
  let d := a.takeWhile Char.isDigit
  let r := a.dropWhile Char.isDigit
  let q := r.dropWhile (· = ' ')
  let n := q.takeWhile Char.isDigit
  if d = [] ∨ r.takeWhile (· = ' ') = [] then none
  else if n ≠ [] then some (d, n, q.dropWhile Char.isDigit)
  else if low (q.take 4) = ['l', 'i', 'k', 'e'] then some (d, q.take 4, q.drop 4)
  else none

/-- the class `[\(\):\-\+\d+\.\# ]` (19-21, 62) -/
def inClass (c : Char) : Bool := c ∈ ['(', ')', ':', '-', '+', '.', '#', ' '] || c.isDigit

/-- `\n {5}` at the beginning -/
def afterLine (s : List Char) : Option (List Char) :=
  match s with
  | '\n' :: ' ' :: ' ' :: ' ' :: ' ' :: ' ' :: r => some r
  | _ => none

/-- `[...]*([\*a-z])` (19-21) after the text `pre`: the text up to the letter, and the rest -/
def paramHere (pre body : List Char) : Option (List Char × List Char) :=
  match body.dropWhile inClass with
  | x :: r => if x = '*' ∨ x.isAlpha = true then some (pre ++ body.takeWhile inClass, x :: r) else none
  | [] => none

/-- `param.search` (19-21): `((^|\n {5})[...]*)([\*a-z])`; the text up to the end of the first group, and the rest. `start`: this is the beginning of the text. -/
def searchParam (start : Bool) : List Char → Option (List Char × List Char)
  | [] => none
  | c :: s =>
    (if start then paramHere [] (c :: s) else none).or
      (((afterLine (c :: s)).bind (paramHere ['\n', ' ', ' ', ' ', ' ', ' '])).or
        ((searchParam false s).map (fun x => (c :: x.1, x.2))))

/-- `gline` (61-63) at the beginning of a text: `(^ ?[...]+|\n {5}[...]+)`; what matches and the rest -/
def matchGline (start : Bool) (s : List Char) : Option (List Char × List Char) :=
  if start = true ∧ s.takeWhile inClass ≠ [] then some (s.takeWhile inClass, s.dropWhile inClass)
  else
    match afterLine s with
    | some r => if r.takeWhile inClass = [] then none else some ('\n' :: ' ' :: ' ' :: ' ' :: ' ' :: ' ' :: r.takeWhile inClass, r.dropWhile inClass)
    | none => none

/-- `re.split(gline, s)` (251): the pieces between the matches and the matches; `cur` is the piece read so far. The number is the length of the text
(each step shortens it). -/
def splitG : Nat → Bool → List Char → List Char → List (List Char)
  | 0, _, cur, s => [cur ++ s]
  | n + 1, start, cur, s =>
    match matchGline start s with
    | some (m, r) => cur :: m :: splitG n false [] r
    | none =>
      match s with
      | [] => [cur]
      | c :: r => splitG n false (cur ++ [c]) r

/-- `comments.match` (64) on a text without `$`: `\n *c`; what matches -/
def commentHead (s : List Char) : Option (List Char) :=
  match s with
  | '\n' :: r =>
    match r.dropWhile (· = ' ') with
    | c :: _ => if c = 'c' ∨ c = 'C' then some ('\n' :: r.takeWhile (· = ' ') ++ [c]) else none
    | [] => none
  | _ => none

/-- 244-266 `remove_comments` -/
def removeComments (s : List Char) : List Char :=
  (((splitG (s.length + 1) true [] s).filter (· ≠ [])).map (fun p => (commentHead p).getD p)).flatten

/-- `KEY *= *` (67-69): the text before and after the first match -/
def matchKey (word s : List Char) : Option (List Char) :=
  if low (s.take word.length) = word then
    match (s.drop word.length).dropWhile (· = ' ') with
    | '=' :: r => some (r.dropWhile (· = ' '))
    | _ => none
  else none

def searchKey (word : List Char) : List Char → Option (List Char × List Char)
  | [] => none
  | c :: s =>
    match matchKey word (c :: s) with
    | some r => some ([], r)
    | none => (searchKey word s).map (fun x => (c :: x.1, x.2))

/-- `int(text)` -/
def pyInt (t : List Char) : Except Err Int :=
  let d := (matchSign t).2
  if d ≠ [] ∧ ∀ c ∈ d, c.isDigit then .ok (if (matchSign t).1 = ['-'] then - (value d : Int) else value d)
  else .error .value

def pyFloat (F : Arith V) (t : List Char) : Except Err V :=
  match F.flt t with
  | some v => .ok v
  | none => .error .value

/-- `self.parm.str[mt.start() - 1] == "*"` (586, 622); the index -1 is the last character -/
def starred (parm before : List Char) : Bool :=
  match before.getLast? with
  | some c => c = '*'
  | none => parm.getLast? = some '*'

/-- 600-602, 637-639 -/
def toCosines (F : Arith V) (angle : Bool) (l : List V) : List V :=
  if angle = true ∧ 3 < l.length then l.take 3 ++ ((l.drop 3).take 9).map F.cosd ++ l.drop 12 else l

/-- 592-599: the loop over the entries of `TRCL`; each step shortens the text -/
def entriesLoop (F : Arith V) : Nat → List Char → Except Err (List V)
  | 0, _ => .error .attribute
  | n + 1, s =>
    match searchEntry s with
    | none => .error .attribute
    | some (none, _) => .ok []
    | some (some t, r) => do
      let v ← pyFloat F t
      let l ← entriesLoop F n r
      .ok (v :: l)

/-- 581-604: `TRCL` -/
def getTrcl (F : Arith V) (parm : List Char) : Except Err (Option (TrVal V)) :=
  match searchKey ['t', 'r', 'c', 'l'] parm with
  | none => .ok none
  | some (before, string) =>
    match searchNum string with
    | none => .error .attribute
    | some (b, n, _) =>
      if '(' ∈ b ++ n then do
        let l ← entriesLoop F (string.length + 1) string
        .ok (some (.list (toCosines F (starred parm before) l)))
      else do
        let i ← pyInt n
        .ok (some (.number i))

/-- 606-610: `U` -/
def getU (parm : List Char) : Except Err (Option Int) :=
  match searchKey ['u'] parm with
  | none => .ok none
  | some (_, string) =>
    match searchNum string with
    | none => .error .attribute
    | some (_, n, _) => do
      let i ← pyInt n
      .ok (some i)

/-- `str.split()` -/
def isWhite (c : Char) : Bool := c = ' ' || c = '\n'

def pySplitAux (cur : List Char) : List Char → List (List Char)
  | [] => if cur = [] then [] else [cur]
  | c :: s => if isWhite c then (if cur = [] then pySplitAux [] s else cur :: pySplitAux [] s) else pySplitAux (cur ++ [c]) s

def pySplit (s : List Char) : List (List Char) := pySplitAux [] s

/-- `list(map(float, tr))` -/
def floats (F : Arith V) : List (List Char) → Except Err (List V)
  | [] => .ok []
  | t :: ts => do
    let v ← pyFloat F t
    let l ← floats F ts
    .ok (v :: l)

/-- 612-640: `FILL` and `TR` -/
def getFill (F : Arith V) (parm : List Char) : Except Err (Option Int × Option (TrVal V)) :=
  match searchKey ['f', 'i', 'l', 'l'] parm with
  | none => .ok (none, none)
  | some (before, fillstring) =>
    match searchNum fillstring with
    | none => .error .attribute
    | some (_, n, _) =>
      match pyInt n with
      | .error e => .error e
      | .ok i =>
        if '(' ∈ fillstring then
          let inner := (fillstring.dropWhile (· ≠ '(')).drop 1
          if ')' ∈ inner then
            let tr := pySplit (inner.takeWhile (· ≠ ')'))
            if tr.length = 1 then do
              let k ← pyInt (tr.headD [])
              .ok (some i, some (.number k))
            else do
              let l ← floats F tr
              .ok (some i, some (.list (toCosines F (starred parm before) l)))
          else .error .attribute
        else .ok (some i, none)

/-- `likebut.search` (22): the text up to the end of `but`, and the rest -/
def searchBut : List Char → Option (List Char × List Char)
  | [] => none
  | c :: s =>
    if low ((c :: s).take 3) = ['b', 'u', 't'] then some ((c :: s).take 3, (c :: s).drop 3)
    else (searchBut s).map (fun x => (c :: x.1, x.2))

/-- `likemat.search` (72): `MAT *= *(\d+)` -/
def searchMat : List Char → Option (List Char)
  | [] => none
  | c :: s =>
    match matchKey ['m', 'a', 't'] (c :: s) with
    | some r => if r.takeWhile Char.isDigit ≠ [] then some (r.takeWhile Char.isDigit) else searchMat s
    | none => searchMat s

/-- `trans.search` (23): `trcl` anywhere (the alternative, which needs the text `(,`, is left out) -/
def hasTrcl : List Char → Bool
  | [] => false
  | c :: s => low ((c :: s).take 4) = ['t', 'r', 'c', 'l'] || hasTrcl s

/-- a `CellCardString` -/
structure CellCard (V : Type) where
  name : Nat
  hproc : Bool
  likeCell : Option Nat
  mat : Option Nat
  geom : List Char
  parm : List Char
  u : Option Int
  fill : Option Int
  tr : Option (TrVal V)
  trcl : Option (TrVal V)

/-- 515-577 `__card_split__`, 546-577: geometry and parameters of the text after the head. The loop 556-560 finds the first newline each time. -/
def splitCard (s0 : List Char) : List Char × List Char × Bool :=
  let s := removeComments s0
  let m := searchParam true s
  let linecut := match m with
    | some (g, _) => g.count '\n'
    | none => s.count '\n'
  let m := if linecut ≠ 0 then (searchParam false (s.dropWhile (· ≠ '\n'))).map (fun x => (s.takeWhile (· ≠ '\n') ++ x.1, x.2)) else m
  match m with
  | some (g, p) => (g, removeComments p, !hasTrcl (removeComments p))
  | none => (s, [], true)

/-- 503-640 `CellCardString.__init__` -/
def cellCardString (F : Arith V) (cardin : List Char) : Except Err (CellCard V) :=
  match celmat cardin with
  | none => .error .attribute
  | some (cel, scnd, rest) =>
    let finish (likeCell mat : Option Nat) (geom parm : List Char) (hproc : Bool) : Except Err (CellCard V) := do
      let trcl ← getTrcl F parm
      let u ← getU parm
      let f ← getFill F parm
      .ok ⟨value cel, hproc, likeCell, mat, geom, parm, u, f.1, f.2, trcl⟩
    if low scnd = ['l', 'i', 'k', 'e'] then
      match searchBut rest with
      | none => .error .attribute
      | some (g, parm) =>
        match searchInt (scnd ++ g) with
        | none => .error .attribute
        | some n => finish (some (value n)) ((searchMat parm).map value) (scnd ++ g) parm false
    else if scnd = ['0'] then
      let r := splitCard rest
      finish none (some 0) r.1 r.2.1 r.2.2
    else
      match searchNum rest with
      | none => .error .attribute
      | some (_, _, after) =>
        let r := splitCard after
        finish none (some (value scnd)) r.1 r.2.1 r.2.2

/-- `word in text` -/
def hasInfix (word : List Char) : List Char → Bool
  | [] => word = []
  | c :: s => word.isPrefixOf (c :: s) || hasInfix word s

/-- `Card.get_values` of a cell card (parser.py 268-300, 321-332, 776-818): the name, and the exceptions raised by the first words -/
def getValues (inpt : List Char) : Except Err Int := do
  if hasInfix ['l', 'i', 'k', 'e'] inpt then .ok ()
  else
    match pySplit (inpt.map (fun c => if c = '=' then ' ' else c)) with
    | _ :: mat :: _ :: _ => do
      let _ ← pyInt mat
      .ok ()
    | _ => .error .value
  if hasInfix ['l', 'i', 'k', 'e', ' '] (low inpt) then
    match pySplit inpt with
    | js :: _ :: ref :: _ :: _ :: _ => do
      let i ← pyInt js
      let _ ← pyInt ref
      .ok i
    | _ => .error .index
  else
    match pySplit inpt with
    | js :: ms :: _ => do
      let i ← pyInt js
      let _ ← pyInt ms
      .ok i
    | _ => .error .index

/-- MCNPinput.py 95-108: one cell card: its name for the table of cells, and the card -/
def readCell (F : Arith V) (text : List Char) : Except Err (Int × CellCard V) := do
  let n ← getValues text
  let c ← cellCardString F text
  .ok (n, c)

end Geouned.CellText
