import Verif.CellText.Spec
import Verif.Card.Spec
/-!
# What surface cards and data cards say (specification of C81)

The rules of the MCNP manual for the words of a surface card

    [* or +]name [number of a TR card, or -name of a periodic surface] mnemonic entries

and of a transformation card `TRn entries` or `*TRn entries`. All other data cards say nothing about the geometry.
-/
namespace Geouned.SurfText
open Geouned.CellText

/-- the words of a line: what stands between blanks -/
inductive Spelled : List Char → List (List Char) → Prop
  | nil : Spelled [] []
  | blank (s : List Char) (ws : List (List Char)) : Spelled s ws → Spelled (' ' :: s) ws
  | word (w s : List Char) (ws : List (List Char)) : w ≠ [] → ' ' ∉ w → (s = [] ∨ s.head? = some ' ') → Spelled s ws → Spelled (w ++ s) (w :: ws)

/-- the words of a card: those of its lines, one after the other -/
def CardWords (c : Card.CardText) (ws : List (List Char)) : Prop :=
  ∃ wss : List (List (List Char)), List.Forall₂ Spelled c.says wss ∧ ws = wss.flatten

/-- an entry of a card -/
inductive Entry where
  /-- a number in the usual form -/
  | num (t : List Char)
  /-- a number in a form known to Fortran: `1.5-3`, `1.5+3`, `1.5d3`, `1.5D-3` (mantissa, letter or nothing, exponent) -/
  | fortran (m l x : List Char)
  /-- `nR`: the entry before, `n` times more (once if there is no `n`) -/
  | rep (n : List Char) (r : Char)

def Entry.text : Entry → List Char
  | .num t => t
  | .fortran m l x => m ++ l ++ x
  | .rep n r => n ++ [r]

def Entry.Ok : Entry → Prop
  | .num t => Number False t
  | .fortran m l x => ∃ s a g d, m = s ++ a ∧ Sign s ∧ Mantissa a ∧ x = g ++ d ∧ Sign g ∧ Digits d ∧ ((l = [] ∧ g ≠ []) ∨ l = ['d'] ∨ l = ['D'])
  | .rep n r => (n = [] ∨ Digits n) ∧ (r = 'r' ∨ r = 'R')

/-- the numbers (in the usual form) that entries stand for; `prev` is the number before them. A repetition of nothing has no meaning. -/
def numbers (prev : Option (List Char)) : List Entry → Option (List (List Char))
  | [] => some []
  | .num t :: es => (numbers (some t) es).map (fun l => t :: l)
  | .fortran m _ x :: es => (numbers (some (m ++ 'e' :: x)) es).map (fun l => (m ++ 'e' :: x) :: l)
  | .rep n _ :: es =>
    match prev with
    | none => none
    | some t => (numbers prev es).map (fun l => List.replicate (if n = [] then 1 else value n) t ++ l)

/-- a surface card -/
structure SurfCard where
  flag : List Char
  name : List Char
  /-- the number of a TR card (`false`), or that of a periodic surface, written with a minus sign (`true`) -/
  link : Option (Bool × List Char)
  mn : List Char
  entries : List Entry

def SurfCard.words (c : SurfCard) : List (List Char) :=
  (c.flag ++ c.name) :: (match c.link with | none => [] | some (false, t) => [t] | some (true, t) => ['-' :: t])
    ++ c.mn :: c.entries.map Entry.text

structure SurfCard.Ok (c : SurfCard) : Prop where
  flag : c.flag = [] ∨ c.flag = ['*'] ∨ c.flag = ['+']
  name : Digits c.name
  link : ∀ x, c.link = some x → Digits x.2
  mn : (∃ x r, c.mn = x :: r ∧ x.isAlpha = true) ∧ ∀ x ∈ c.mn, x.isAlpha = true ∨ x = '/'
  entries : ∀ e ∈ c.entries, e.Ok
  meaning : (numbers none c.entries).isSome = true

/-- a surface: name, number of its transformation, mnemonic, entries -/
structure SurfVal (V : Type) where
  name : Int
  tr : Option Int
  mn : List Char
  coefs : List V

/-- what a surface card says. The mnemonic is given in small letters. -/
def SurfCard.Says {V : Type} (F : Arith V) (c : SurfCard) (r : SurfVal V) : Prop :=
  r.name = value c.name ∧
    r.tr = (match c.link with | some (false, t) => some (value t : Int) | _ => none) ∧
    r.mn = c.mn.map Char.toLower ∧
    ∃ ts, numbers none c.entries = some ts ∧ ts.mapM F.flt = some r.coefs

/-- a data card: a transformation (with a star or not; `TR` in any spelling; number; entries) or something else, with its words -/
inductive DataCard where
  | tr (star : Bool) (word num : List Char) (entries : List Entry)
  | other (w : List Char) (rest : List (List Char))

def DataCard.words : DataCard → List (List Char)
  | .tr star word num es => ((if star then ['*'] else []) ++ word ++ num) :: es.map Entry.text
  | .other w rest => w :: rest

/-- the name of any other data card: a star, a plus sign or nothing, letters, and perhaps something that begins with a digit, `:` or `,`; it
does not consist of `TR` and a number -/
def DataCard.Ok : DataCard → Prop
  | .tr _ word num es => Same ['t', 'r'] word ∧ Digits num ∧ es ≠ [] ∧ (∀ e ∈ es, e.Ok) ∧ (numbers none es).isSome = true
  | .other w _ => ∃ s l r, w = s ++ l ++ r ∧ (s = [] ∨ s = ['*'] ∨ s = ['+']) ∧ l ≠ [] ∧ (∀ x ∈ l, x.isAlpha = true) ∧
      (∀ x, r.head? = some x → x.isDigit = true ∨ x = ':' ∨ x = ',') ∧ ¬ (Same ['t', 'r'] l ∧ Digits r)

/-- a transformation: number, star, entries -/
structure TrCard (V : Type) where
  num : Int
  star : Bool
  entries : List V

/-- what a transformation card says -/
def SaysTr {V : Type} (F : Arith V) (star : Bool) (num : List Char) (es : List Entry) (r : TrCard V) : Prop :=
  r.num = value num ∧ r.star = star ∧ ∃ ts, numbers none es = some ts ∧ ts.mapM F.flt = some r.entries

/-- what the data cards of a file say: the transformations in their order -/
inductive AllTr {V : Type} (F : Arith V) : List DataCard → List (TrCard V) → Prop
  | nil : AllTr F [] []
  | tr (star : Bool) (word num : List Char) (es : List Entry) (r : TrCard V) (ds : List DataCard) (rs : List (TrCard V)) :
      SaysTr F star num es r → AllTr F ds rs → AllTr F (.tr star word num es :: ds) (r :: rs)
  | other (w : List Char) (rest : List (List Char)) (ds : List DataCard) (rs : List (TrCard V)) : AllTr F ds rs → AllTr F (.other w rest :: ds) rs

end Geouned.SurfText
