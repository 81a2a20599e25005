import Verif.CellText.Model
import Verif.Card.Model
import Verif.SurfText.Spec
/-!
# Model of the reading of surface cards and transformation cards

`src/geouned/GEOReverse/Modules/Parser/parser.py` 13-36 (regular expressions and formats), 268-318 (`_protect_nums`), 321-360 (`get_values`), 988-1148
(`_split_surface`, `_get_int`, `_parse_tr`, `_split_data`); `MCNPinput.py` 31-36, 212-238.

Simplifications: the texts have no white space but blanks and line ends; of the values that `_split_data` finds in tally and material cards only the
exceptions are kept, for nothing else is used; the brackets of tally cards, hidden by `_protect_nums`, do not change the first two characters and are left
out. The templates (`input` after the reading) of surface cards are not used again and are left out.
-/
namespace Geouned.SurfText
open Geouned.CellText

variable {V : Type}

/-- `str.replace(old, new, 1)` -/
def replaceFirst (old new : List Char) : List Char → List Char
  | [] => if old = [] then new else []
  | c :: s => if old.isPrefixOf (c :: s) then new ++ (c :: s).drop old.length else c :: replaceFirst old new s

/-- `re_rpt.findall` (19): `\d+[ri]` in any case; `cur` are the digits read last -/
def findRpt (cur : List Char) : List Char → List (List Char)
  | [] => []
  | c :: s =>
    if c.isDigit then findRpt (cur ++ [c]) s
    else if cur ≠ [] ∧ (c.toLower = 'r' ∨ c.toLower = 'i') then (cur ++ [c]) :: findRpt [] s
    else findRpt [] s

/-- parser.py 300-305, the part of `_protect_nums` that concerns all cards -/
def protect (s : List Char) : List Char := (findRpt [] s).foldl (fun t m => replaceFirst m ['!'] t) s

/-- parser.py 1000-1002: the name without its first character if that is no digit -/
def bareName (js : List Char) : List Char :=
  match js with
  | c :: r => if c.isDigit then js else r
  | [] => []

/-- parser.py 988-1033 `_split_surface`, 329-336: name, transformation, mnemonic in small letters, coefficients -/
def splitSurface (F : Arith V) (s : List Char) : Except Err (SurfVal V) :=
  match pySplit s with
  | [] => .error .index
  | js :: t =>
    match pyInt (bareName js) with
    | .error e => .error e
    | .ok name =>
      match t with
      | [] => .error .index
      | ns :: t =>
        let last (tr : Option Int) (st : List Char) (t : List (List Char)) : Except Err (SurfVal V) :=
          match floats F t with
          | .error e => .error e
          | .ok l => .ok ⟨name, tr, low st, l⟩
        match ns with
        | [] => .error .index
        | c :: r =>
          if c.isDigit then
            match pyInt ns with
            | .error e => .error e
            | .ok n =>
              match t with
              | [] => .error .index
              | st :: t => last (some n) st t
          else if c = '-' then
            match pyInt r with
            | .error e => .error e
            | .ok _ =>
              match t with
              | [] => .error .index
              | st :: t => last none st t
          else if c.isAlpha then last none ns t
          else .error .value

/-- parser.py 1036-1043 `_get_int` -/
def getInt (r : List Char) : List Char → List Char
  | [] => r
  | c :: s => if r ≠ [] ∧ c.isAlpha then r else if c.isDigit then getInt (r ++ [c]) s else getInt r s

/-- parser.py 31-34 `fmt_d` -/
def fmtD (s : List Char) : List Char := ['{', ':', '<'] ++ Nat.toDigits 10 s.length ++ ['}']

/-- parser.py 1065-1148 `_split_data`: for a transformation card its number and the template, `none` for other cards -/
def splitData (s : List Char) : Except Err (Option (Int × List Char)) :=
  match pySplit s with
  | [] => .error .index
  | w :: _ =>
    if hasInfix ['t', 'r'] (low (w.take 3)) then
      match pyInt (getInt [] w) with
      | .error e => .error e
      | .ok n => .ok (some (n, replaceFirst ['_'] (fmtD (getInt [] w)) (replaceFirst (getInt [] w) ['_'] s)))
    else if low (w.take 1) = ['m'] ∧ hasInfix ['m', 'o', 'd', 'e'] (low w) = false ∧ hasInfix ['m', 'e', 's', 'h'] (low w) = false ∧
        hasInfix ['m', 'p', 'h', 'y', 's'] (low w) = false then
      match pyInt (getInt [] w) with
      | .error e => .error e
      | .ok _ => .ok none
    else if low (w.take 1) = ['f'] ∧ w.length = 1 then .error .index
    else if low w = ['f', 'm', 'e', 's', 'h'] then .error .index
    else .ok none

/-- parser.py 1046-1062 `_parse_tr`: star and values -/
def parseTr (F : Arith V) (s : List Char) : Except Err (Bool × List V) :=
  match pySplit s with
  | [] => .error .value
  | [_] => .error .value
  | w :: ws =>
    match floats F ws with
    | .error e => .error e
    | .ok l => .ok (decide ('*' ∈ w), l)

/-- parser.py 337-346: the values of a data card -/
def dataValues (F : Arith V) (s : List Char) : Except Err (Option (TrCard V)) :=
  match splitData s with
  | .error e => .error e
  | .ok none => .ok none
  | .ok (some (n, t)) =>
    match parseTr F t with
    | .error e => .error e
    | .ok (star, l) => .ok (some ⟨n, star, l⟩)

/-- `"\n".join(input)` -/
def joinLines : List (List Char) → List Char
  | [] => []
  | [l] => l
  | l :: ls => l ++ '\n' :: joinLines ls

/-- MCNPinput.py 226-238 `__getTransList__`: number, star and entries of the transformation cards, in their order (what is made of them is in `RSurf/Model.lean`) -/
def transCards (F : Arith V) : List Card.PyCard → Except Err (List (TrCard V))
  | [] => .ok []
  | c :: cs =>
    if c.ctype = Card.cidData then
      match dataValues F (protect (joinLines c.input)) with
      | .error e => .error e
      | .ok r =>
        match transCards F cs with
        | .error e => .error e
        | .ok l => .ok (r.toList ++ l)
    else transCards F cs

/-- MCNPinput.py 212-221 `GetSurfaces`: the surface cards in their order -/
def surfaceCards (F : Arith V) : List Card.PyCard → Except Err (List (SurfVal V))
  | [] => .ok []
  | c :: cs =>
    if c.ctype = Card.cidSurface then
      match splitSurface F (protect (joinLines c.input)) with
      | .error e => .error e
      | .ok r =>
        match surfaceCards F cs with
        | .error e => .error e
        | .ok l => .ok (r :: l)
    else surfaceCards F cs

end Geouned.SurfText
