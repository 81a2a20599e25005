import Verif.Card.Spec
/-!
# Model of the division of an MCNP file into cards

`src/geouned/GEOReverse/Modules/Parser/parser.py` 42-68 (`CidClass`), 92-151 and 205-266 (`Card.__init__`, `Card.get_input`), 1154-1342
(`is_commented`, `is_fc_card`, `is_blankline`, `get_cards`, `index_`, `get_cards_from_input`).

Simplifications: `\r\n` and `\r` have already become `\n` (text mode of `open`); `str.lower` is modelled for ASCII letters (the texts compared with
consist of such letters); the templates, the line numbers and the debug output are left out.
-/
namespace Geouned.Card

/-- a `Card`: `lines`, `ctype`, `input` -/
structure PyCard where
  lines : List (List Char)
  ctype : Int
  input : List (List Char)

/-- parser.py 59-68 -/
def cidComment : Int := -1
def cidBlank : Int := -2
def cidMessage : Int := 1
def cidTitle : Int := 2
def cidCell : Int := 3
def cidSurface : Int := 4
def cidData : Int := 5

/-- `str.lstrip()` -/
def lstrip (l : List Char) : List Char := l.dropWhile white

/-- `str.lower()` -/
def lower (l : List Char) : List Char := l.map Char.toLower

/-- `str.strip() == ""`: parser.py 1183-1187 `is_blankline` -/
def isBlankline (l : List Char) : Bool := l.all white

/-- the characters at which `str.splitlines` ends a line -/
def lineEnd (c : Char) : Bool := c.toNat ∈ [10, 11, 12, 13, 28, 29, 30, 0x85, 0x2028, 0x2029]

/-- parser.py 1154-1173 `is_commented`; the empty string, for which it raises `IndexError`, is not a line -/
def isCommented (l : List Char) : Bool :=
  let l := l.takeWhile (fun c => !lineEnd c)
  let ls := lower (lstrip (l.take 6))
  if ls.take 2 = ['c', ' '] then true
  else if lower l = ['c'] then true
  else if '$' ∈ l then (l.takeWhile (· ≠ '$')).all white
  else false

/-- parser.py 1176-1180 `is_fc_card` -/
def isFcCard (l : List Char) : Bool := (lower (lstrip l)).take 2 = ['f', 'c']

/-- parser.py 1200-1210 `index_(line, "$&")` -/
def index (l : List Char) : Nat :=
  if l.any (fun c => c = '$' || c = '&') then (l.takeWhile (fun c => !(c = '$' || c = '&'))).length
  else l.length - 1

/-- the first word of a text, `split()[0]`; `none`: `IndexError` -/
def firstWord (l : List Char) : Option (List Char) :=
  match lstrip l with
  | [] => none
  | c :: r => some ((c :: r).takeWhile (fun c => !white c))

/-- parser.py 205-266 `get_input`: the value of `input`. For comments and blank lines it is the empty string. -/
def getInput (lines : List (List Char)) (ctype : Int) : Except Err (List (List Char)) :=
  if ctype = cidComment ∨ ctype = cidBlank then .ok []
  else
    match firstWord lines.flatten with
    | none => .error .index
    | some w =>
      if w.take 2 = ['f', 'c'] then .ok [lines.flatten.take 80]
      else .ok ((lines.filter (fun l => !isCommented l)).map (fun l => l.take (index l)))

/-- parser.py 1224-1237 `replace_tab`, with the column `n`. Simplification: one pass over the line instead of a search for the next tab. -/
def replaceTab (n : Nat) : List Char → List Char
  | [] => []
  | c :: l =>
    if c = '\t' then
      let k := (n / 8 + 1) * 8 - n
      List.replicate k ' ' ++ replaceTab (n + k) l
    else c :: replaceTab (n + 1) l

/-- the lines of a file, as `for l in f` gives them -/
def pyLines : List Char → List (List Char)
  | [] => []
  | c :: s =>
    if c = '\n' then ['\n'] :: pyLines s
    else
      match pyLines s with
      | [] => [[c]]
      | l :: ls => (c :: l) :: ls

/-- a card before `get_input`: lines and type -/
abbrev Raw := List (List Char) × Int

/-- `if card: yield ...` -/
def flush (card : List (List Char)) (ct : Int) : List Raw := if card = [] then [] else [(card, ct)]

/-- parser.py 1317, 1337: `l[: index_(l)].find("&", 0, 81) > -1` -/
def ampFlag (l : List Char) : Bool := '&' ∈ (l.take (index l)).take 81

/-- parser.py 1293-1342: the loop over the lines; `ncid`, `cf`, `card`, `cmnt` are the variables of the code -/
def loop (ncid : Nat) (cf : Bool) (card cmnt : List (List Char)) : List (List Char) → List Raw
  | [] => flush card ncid ++ flush cmnt cidComment
  | l0 :: ls =>
    let l := replaceTab 0 l0
    if isBlankline l then
      flush card ncid ++ flush cmnt cidComment ++ [([l], cidBlank)] ++
        (if ncid + 1 = 6 then [] else loop (ncid + 1) cf [] [] ls)
    else if l.take 5 = [' ', ' ', ' ', ' ', ' '] || cf then
      loop ncid (ampFlag l) (card ++ cmnt ++ [l]) [] ls
    else if isCommented l then
      loop ncid cf card (cmnt ++ [l]) ls
    else
      flush card ncid ++ flush cmnt cidComment ++ loop ncid (!isFcCard l && ampFlag l) [l] [] ls

/-- parser.py 1253-1260: the message block up to the blank line: its lines, the blank line, the lines after it; `none`: the file ends
first (`StopIteration` in a generator) -/
def messageBlock : List (List Char) → Option (List (List Char) × List Char × List (List Char))
  | [] => none
  | l0 :: ls =>
    let l := replaceTab 0 l0
    if isBlankline l then some ([], l, ls)
    else (messageBlock ls).map (fun r => (l :: r.1, r.2.1, r.2.2))

/-- parser.py 1213-1342 `get_cards_from_input`: the cards before `get_input`, and the exception with which the generator ends -/
def rawCards (s : List Char) : List Raw × Option Err :=
  match pyLines s with
  | [] => ([], some .runtime)
  | l0 :: ls =>
    let l := replaceTab 0 l0
    let kw := lower ((lstrip l).take 8)
    if kw = "message:".toList then
      match messageBlock (l0 :: ls) with
      | none => ([], some .runtime)
      | some (res, b, []) => ([(res, cidMessage), ([b], cidBlank)], some .runtime)
      | some (res, b, t :: rest) =>
        ([(res, cidMessage), ([b], cidBlank), ([replaceTab 0 t], cidTitle)] ++ loop 3 false [] [] rest, none)
    else if kw = "continue".toList then (loop 5 false [] [] ls, none)
    else ((([l], cidTitle) : Raw) :: loop 3 false [] [] ls, none)

/-- the `Card` objects are made one after the other -/
def makeCards : List Raw → Except Err (List PyCard)
  | [] => .ok []
  | r :: rs => do
    let i ← getInput r.1 r.2
    let cs ← makeCards rs
    .ok (⟨r.1, r.2, i⟩ :: cs)

/-- MCNPinput.py 34: `list(mp.get_cards(name))` for a file with the characters `s` -/
def getCards (s : List Char) : Except Err (List PyCard) :=
  match makeCards (rawCards s).1 with
  | .error e => .error e
  | .ok cs =>
    match (rawCards s).2 with
    | some e => .error e
    | none => .ok cs

end Geouned.Card
