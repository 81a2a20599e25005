import Verif.Text.WrapSpec
import Verif.Bool.Spec
/-!
# Wrapping of long lines

Model of `CellString.wrap_line`, `CardLine` (`src/geouned/GEOUNED/write/functions.py` 11-82) and of `trim`, `cut_line` (1113-1154).
Texts are lists of characters. Simplifications: `\d` and `str.strip` are modelled for ASCII digits and ASCII white space.
-/
namespace Geouned.Wrap

/-! ## Python strings -/

/-- `s[i]`, with negative `i` counting from the end -/
def pyGet (s : List Char) (i : Int) : M Char :=
  match s[(if i < 0 then i + s.length else i).toNat]? with
  | some c => if i < -(s.length : Int) then .error .indexError else .ok c
  | none => .error .indexError

/-- bound of a slice -/
def pyBound (s : List Char) (i : Int) : Nat := (if i < 0 then i + s.length else i).toNat

/-- `s[a:b]` -/
def pySlice (s : List Char) (a b : Int) : List Char := (s.take (pyBound s b)).drop (pyBound s a)

/-- `str.strip()` -/
def strip (s : List Char) : List Char :=
  ((s.dropWhile Char.isWhitespace).reverse.dropWhile Char.isWhitespace).reverse

/-! ## The substitutions of `wrap_line` -/

/-- functions.py 49 `re.sub(" +", " ", s)` -/
def squeeze : List Char → List Char
  | [] => []
  | c :: s => if c = ' ' ∧ s.head? = some ' ' then squeeze s else c :: squeeze s

/-- functions.py 50-52 `re.sub(" *c *", "c", s)`: all blanks next to `c` go -/
def absorb (c : Char) : List Char → List Char
  | [] => []
  | x :: s =>
    if x = c then c :: (absorb c s).dropWhile (· = ' ')
    else if x = ' ' ∧ (absorb c s).head? = some c then absorb c s
    else x :: absorb c s

/-- functions.py 53-56: a blank between two neighbours `a`, `b` with `p a b` -/
def sepIf (p : Char → Char → Bool) : List Char → List Char
  | [] => []
  | [a] => [a]
  | a :: b :: s => if p a b then a :: ' ' :: sepIf p (b :: s) else a :: sepIf p (b :: s)

/-- functions.py 48-56 -/
def normalise (s : List Char) : List Char :=
  let s := strip s
  let s := squeeze s
  let s := absorb '(' s
  let s := absorb ')' s
  let s := absorb ':' s
  let s := sepIf (fun a b => a = ')' && b = '(') s
  let s := sepIf (fun a b => a.isDigit && b = '(') s
  let s := sepIf (fun a b => a = ')' && b.isDigit) s
  sepIf (fun a b => a = ')' && b = '-') s

/-! ## The loop of `wrap_line` -/

/-- functions.py 67 `(")", ":", " ")` -/
def isBreak (c : Char) : Bool := c = ')' || c = ':' || c = ' '

/-- functions.py 67-68: back to the last place where the line may be cut (`k`: steps allowed) -/
def scanBack (s : List Char) : Nat → Int → M Int
  | 0, _ => .error .recursion
  | k + 1, i => do
    let c ← pyGet s i
    if isBreak c then .ok i else scanBack s k (i - 1)

/-- functions.py 66-80: `size`, `tab` are `self.lineSize`, `self.tabspace`. `f`: rounds allowed; `recursion` means that the loop is still running. -/
def wrapLoop (size tab : Nat) (s : List Char) : Nat → Int → Int → Int → List Char → M (List Char)
  | 0, _, _, _, _ => .error .recursion
  | f + 1, init, icount, lenleft, newline => do
    let j ← scanBack s (icount + s.length + 2).toNat icount
    let newline := newline ++ pySlice s init (j + 1)
    let lenleft := lenleft - (j - init + 1)
    let init := j + 1
    let icount := j + ((size : Int) - tab)
    if lenleft = 0 then .ok newline
    else if icount < s.length then wrapLoop size tab s f init icount lenleft (newline ++ '\n' :: List.replicate tab ' ')
    else .ok (newline ++ '\n' :: List.replicate tab ' ' ++ pySlice s init s.length)

/-- functions.py 46-82 `CellString.wrap_line(offset)` -/
def wrapLine (size tab offset f : Nat) (s : List Char) : M (List Char) :=
  let s := normalise s
  if s.length + offset ≤ size then .ok s
  else wrapLoop size tab s f 0 ((size : Int) - 1 - offset) s.length []

/-! ## `CardLine` -/

/-- functions.py 11-18; `left` is `__leftspace__` -/
structure CardLine where
  str : List Char
  size : Nat
  left : Int
  tab : Nat

/-- functions.py 12-18 `CardLine(card, linesize, tabspace)` -/
def CardLine.new (card : List Char) (size tab : Nat) : CardLine :=
  { str := card ++ [' '], size := size, left := (size : Int) - (card.length + 1), tab := tab }

/-- functions.py 22-30, loop; the data come formatted (`"{:{fmt}}"`) -/
def extendLoop (size tab : Nat) : List (List Char) → List Char → Int → List Char → List Char × Int × List Char
  | [], str, left, line => (str, left, line)
  | d :: ds, str, left, line =>
    let e := d ++ [' ']
    if left - e.length > 0 then extendLoop size tab ds str (left - e.length) (line ++ e)
    else
      let line' := List.replicate tab ' ' ++ e
      extendLoop size tab ds (str ++ line ++ ['\n']) ((size : Int) - line'.length) line'

/-- functions.py 20-32 `CardLine.extend(dataList)` -/
def CardLine.extend (c : CardLine) (ds : List (List Char)) : CardLine :=
  match extendLoop c.size c.tab ds c.str c.left [] with
  | (str, left, line) => { c with str := str ++ line, left := left }

/-! ## `trim` for surface cards -/

/-- `line.rfind(" ")` -/
def rfindBlank (s : List Char) : Int :=
  match s.reverse.findIdx? (· = ' ') with
  | some i => (s.length : Int) - 1 - i
  | none => -1

/-- functions.py 1138-1154 `cut_line(line, lineLength)`. The loop of 1140-1143 does not change `line`: either it ends in the first round,
or never (`recursion`). -/
def cutLine (size : Nat) (s : List Char) : M (List Char) :=
  let pos := rfindBlank s
  if pos ≤ size then
    let line1 := pySlice s 0 pos
    let line2 := pySlice s (pos + 1) s.length
    if strip line2 = [] then .ok line1
    else .ok (line1 ++ '\n' :: List.replicate 10 ' ' ++ line2)
  else .error .recursion

/-- functions.py 1127-1131: one line -/
def trimOne (size : Nat) (l : List Char) : M (List Char) :=
  if l.length > size then cutLine size l else .ok l

/-- functions.py 1126-1133, loop: every line followed by a newline -/
def trimLoop (size : Nat) : List (List Char) → M (List Char)
  | [] => .ok []
  | l :: ls => do
    let l' ← trimOne size l
    let r ← trimLoop size ls
    .ok (l' ++ '\n' :: r)

/-- functions.py 1113-1135 `trim(surfDef, lineLength)` -/
def trim (size : Nat) (s : List Char) : M (List Char) :=
  let lines := linesOf s
  if lines.all (fun l => l.length ≤ size) then .ok s
  else do
    let r ← trimLoop size lines
    .ok r.dropLast

end Geouned.Wrap
