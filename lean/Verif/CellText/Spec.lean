import Mathlib.Data.List.Basic
/-!
# What a cell card says (specification of C80)

The rules of the MCNP manual for the text of a cell card (comments, `$` and `&` already removed; lines separated by newline characters; a line that
continues the card begins with at least five blanks):

    name material [density] geometry parameters       or       name LIKE cell BUT parameters
-/
namespace Geouned.CellText

/-- exceptions of Python -/
inductive Err where
  | index | value | attribute
  deriving DecidableEq, Repr

/-- a word of digits -/
def Digits (t : List Char) : Prop := t ≠ [] ∧ ∀ c ∈ t, c.isDigit = true

/-- the number that a word of digits stands for -/
def value (t : List Char) : Nat := t.foldl (fun n c => 10 * n + (c.toNat - '0'.toNat)) 0

/-- blanks and line ends, each line end followed by at least five blanks -/
inductive Gap : List Char → Prop
  | nil : Gap []
  | blank (g : List Char) : Gap g → Gap (' ' :: g)
  | line (g : List Char) : Gap g → Gap ('\n' :: ' ' :: ' ' :: ' ' :: ' ' :: ' ' :: g)

/-- only blanks -/
def Blanks (g : List Char) : Prop := ∀ c ∈ g, c = ' '

/-- a sign or none -/
def Sign (s : List Char) : Prop := s = [] ∨ s = ['+'] ∨ s = ['-']

/-- digits with or without a decimal point -/
inductive Mantissa : List Char → Prop
  | int (a : List Char) : Digits a → Mantissa a
  | point (a b : List Char) : (∀ c ∈ a, c.isDigit = true) → (∀ c ∈ b, c.isDigit = true) → (a ≠ [] ∨ b ≠ []) → Mantissa (a ++ '.' :: b)

/-- a number; `strict`: a sign in the exponent is required -/
inductive Number (strict : Prop) : List Char → Prop
  | plain (s m : List Char) : Sign s → Mantissa m → Number strict (s ++ m)
  | exp (s m : List Char) (e : Char) (g d : List Char) : Sign s → Mantissa m → (e = 'e' ∨ e = 'E') → Sign g → Digits d → (strict → g ≠ []) →
      Number strict (s ++ m ++ e :: (g ++ d))

/-- the geometry: surface and cell numbers, the operators `#`, `:`, blank and parentheses, over one or more lines -/
inductive Geometry : List Char → Prop
  | nil : Geometry []
  | char (c : Char) (g : List Char) : c ∈ ['(', ')', ':', '-', '+', '.', '#', ' '] ∨ c.isDigit = true → Geometry g → Geometry (c :: g)
  | line (g : List Char) : Geometry g → Geometry ('\n' :: ' ' :: ' ' :: ' ' :: ' ' :: ' ' :: g)

/-- words, each with the gap after it -/
abbrev Words := List (List Char × List Char)

def wordsText (w : Words) : List Char := w.flatMap (fun x => x.1 ++ x.2)

/-- numbers separated by gaps -/
structure WordsOk (strict : Prop) (w : Words) : Prop where
  some : w ≠ []
  number : ∀ x ∈ w, Number strict x.1
  gap : ∀ x ∈ w, Gap x.2
  apart : ∀ x ∈ w.dropLast, x.2 ≠ []

/-- a transformation: the number of a TR card, or its entries in parentheses (with the gap after the open parenthesis) -/
inductive Tr where
  | number (t : List Char)
  | entries (gap : List Char) (w : Words)

def parens (gap : List Char) (w : Words) : List Char := '(' :: gap ++ wordsText w ++ [')']

def Tr.text : Tr → List Char
  | .number t => t
  | .entries g w => parens g w

/-- the value of a parameter -/
inductive PVal where
  /-- `U=n` -/
  | uni (t : List Char)
  /-- `FILL=n`, with a transformation in parentheses or not (after a gap) -/
  | fill (t : List Char) (tr : Option (List Char × List Char × Words))
  /-- `TRCL=n` or `TRCL=(...)` -/
  | trcl (tr : Tr)
  /-- `MAT=n` (only in `LIKE` cards) -/
  | mat (t : List Char)
  /-- any other parameter -/
  | other (w : Words)

def PVal.text : PVal → List Char
  | .uni t => t
  | .fill t none => t
  | .fill t (some (g, o, w)) => t ++ g ++ parens o w
  | .trcl tr => tr.text
  | .mat t => t
  | .other w => wordsText w

/-- a parameter: a star or not, its key, what is between key and value, the value and the gap after it -/
structure Param where
  star : Bool
  key : List Char
  eq : List Char
  val : PVal
  gap : List Char

def Param.text (p : Param) : List Char := (if p.star then ['*'] else []) ++ p.key ++ p.eq ++ p.val.text ++ p.gap

/-- the same word up to upper and lower case -/
def Same (word t : List Char) : Prop := t.map Char.toLower = word

/-- the value is written correctly and the key is the right one; the keys other than `U`, `FILL`, `TRCL` and `MAT` begin with a letter, consist of letters,
digits, `:` and `,` -/
def Param.ValOk (strict : Prop) (p : Param) : Prop :=
  match p.val with
  | .uni t => Same ['u'] p.key ∧ p.star = false ∧ ∃ s d, t = s ++ d ∧ Sign s ∧ Digits d
  | .fill t tr => Same ['f', 'i', 'l', 'l'] p.key ∧ Digits t ∧ ∀ x, tr = some x → Gap x.1 ∧ Gap x.2.1 ∧ WordsOk False x.2.2 ∧ (x.2.2.length = 1 → ∀ y ∈ x.2.2, Digits y.1)
  | .trcl (.number t) => Same ['t', 'r', 'c', 'l'] p.key ∧ Digits t
  | .trcl (.entries g w) => Same ['t', 'r', 'c', 'l'] p.key ∧ Gap g ∧ WordsOk strict w
  | .mat t => Same ['m', 'a', 't'] p.key ∧ p.star = false ∧ Digits t
  | .other w => p.star = false ∧ WordsOk False w ∧ (∃ c r, p.key = c :: r ∧ c.isAlpha = true) ∧
      (∀ c ∈ p.key, c.isAlpha = true ∨ c.isDigit = true ∨ c = ':' ∨ c = ',') ∧
      ¬ Same ['u'] p.key ∧ ¬ Same ['f', 'i', 'l', 'l'] p.key ∧ ¬ Same ['t', 'r', 'c', 'l'] p.key ∧ ¬ Same ['m', 'a', 't'] p.key

/-- key and value are separated by an equals sign or by blanks -/
def Param.EqOk (p : Param) : Prop := (∃ a b, p.eq = a ++ '=' :: b ∧ Blanks a ∧ Gap b) ∨ (p.eq ≠ [] ∧ Gap p.eq)

/-- which parameter -/
inductive Kind where
  | uni | fill | trcl | mat | other
  deriving DecidableEq, Repr

def Param.kind (p : Param) : Kind :=
  match p.val with
  | .uni _ => .uni
  | .fill _ _ => .fill
  | .trcl _ => .trcl
  | .mat _ => .mat
  | .other _ => .other

/-- a list of parameters: each correct, separated by gaps, none of `U`, `FILL`, `TRCL`, `MAT` twice -/
structure ParamsOk (strict : Prop) (ps : List Param) : Prop where
  val : ∀ p ∈ ps, p.ValOk strict
  eq : ∀ p ∈ ps, p.EqOk
  gap : ∀ p ∈ ps, Gap p.gap
  apart : ∀ p ∈ ps.dropLast, p.gap ≠ []
  once : ps.Pairwise (fun p q => p.kind = q.kind → p.kind = .other)

/-- the first part of a card -/
inductive Head where
  /-- material 0 -/
  | void (geometry : List Char)
  /-- material and density (with the gap between them) -/
  | material (mat gap density geometry : List Char)
  /-- `LIKE n BUT`, with the gaps before and after `n` and after `BUT` -/
  | like (word gap1 cell gap2 but gap3 : List Char)

def Head.text : Head → List Char
  | .void g => '0' :: g
  | .material m s d g => m ++ s ++ d ++ g
  | .like w g1 n g2 b g3 => w ++ g1 ++ n ++ g2 ++ b ++ g3

/-- a card: blanks, name, gap, head, parameters -/
structure Written where
  blanks : List Char
  name : List Char
  gap : List Char
  head : Head
  params : List Param

def paramsText (ps : List Param) : List Char := ps.flatMap Param.text

def Written.text (c : Written) : List Char := c.blanks ++ c.name ++ c.gap ++ c.head.text ++ paramsText c.params

/-- the geometry begins with a blank or a new line and is not empty -/
def GeometryOk (g : List Char) : Prop :=
  Geometry g ∧ (∃ c r, g = c :: r ∧ (c = ' ' ∨ c = '\n')) ∧ ∃ c ∈ g, c ≠ ' ' ∧ c ≠ '\n'

def Head.Ok (strict : Prop) : Head → Prop
  | .void g => GeometryOk g
  | .material m s d g => Digits m ∧ m.head? ≠ some '0' ∧ Gap s ∧ s ≠ [] ∧ Number strict d ∧ GeometryOk g
  | .like w g1 n g2 b g3 => Same ['l', 'i', 'k', 'e'] w ∧ Gap g1 ∧ g1 ≠ [] ∧ Digits n ∧ Gap g2 ∧ g2 ≠ [] ∧ Same ['b', 'u', 't'] b ∧ Gap g3 ∧ g3 ≠ []

def Head.isLike : Head → Prop
  | .like .. => True
  | _ => False

/-- the rules for a card -/
structure Written.Ok (strict : Prop) (c : Written) : Prop where
  blanks : Blanks c.blanks ∧ c.blanks.length < 5
  name : Digits c.name
  gap : Gap c.gap ∧ c.gap ≠ []
  head : c.head.Ok strict
  params : ParamsOk strict c.params
  mat : ∀ p ∈ c.params, p.kind = .mat → c.head.isLike
  but : c.head.isLike → c.params ≠ []

/-! ## what the card says -/

/-- the numbers of Python: `flt` is `float(text)` (`none`: ValueError), `cosd` is `math.cos(math.radians(x))` -/
structure Arith (V : Type) where
  flt : List Char → Option V
  cosd : V → V

/-- the transformation: the number of a card or a list of values -/
inductive TrVal (V : Type) where
  | number (n : Int)
  | list (l : List V)
  deriving DecidableEq

/-- the values of the entries: those from the fourth to the twelfth are angles in degrees if the key has a star (and more than three are given) -/
def Arith.entries {V : Type} (F : Arith V) (star : Bool) (w : Words) (l : List V) : Prop :=
  ∃ raw, (w.map (·.1)).mapM F.flt = some raw ∧
    l = raw.mapIdx (fun i v => if star = true ∧ 3 ≤ i ∧ i < 12 then F.cosd v else v)

/-- the universe: the number without its sign -/
def Written.universe (c : Written) : Option Nat :=
  c.params.findSome? (fun p => match p.val with | .uni t => some (value (t.filter Char.isDigit)) | _ => none)

/-- the universe that fills the cell -/
def Written.fill (c : Written) : Option Nat :=
  c.params.findSome? (fun p => match p.val with | .fill t _ => some (value t) | _ => none)

/-- the value of `MAT` -/
def Param.mat? (p : Param) : Option Nat :=
  match p.val with
  | .mat t => some (value t)
  | _ => none

/-- the material -/
def Written.material (c : Written) : Option Nat :=
  match c.head with
  | .void _ => some 0
  | .material m _ _ _ => some (value m)
  | .like .. => c.params.findSome? Param.mat?

/-- the cell that this one is like -/
def Written.like (c : Written) : Option Nat :=
  match c.head with
  | .like _ _ n _ _ _ => some (value n)
  | _ => none

/-- the text of the geometry -/
def Written.geometry (c : Written) : Option (List Char) :=
  match c.head with
  | .void g => some g
  | .material _ _ _ g => some g
  | .like .. => none

/-- the parameter `TRCL`, with its star -/
def Written.trclParam (c : Written) : Option (Bool × Tr) :=
  c.params.findSome? (fun p => match p.val with | .trcl t => some (p.star, t) | _ => none)

/-- the transformation after `FILL`, with the star of `FILL` -/
def Written.trParam (c : Written) : Option (Bool × Option (List Char × List Char × Words)) :=
  c.params.findSome? (fun p => match p.val with | .fill _ t => some (p.star, t) | _ => none)

/-- the transformation of the cell -/
def Written.SaysTrcl {V : Type} (F : Arith V) (c : Written) (r : Option (TrVal V)) : Prop :=
  match c.trclParam with
  | none => r = none
  | some (_, .number t) => r = some (.number (value t))
  | some (star, .entries _ w) => ∃ l, F.entries star w l ∧ r = some (.list l)

/-- the transformation of the universe that fills the cell -/
def Written.SaysTr {V : Type} (F : Arith V) (c : Written) (r : Option (TrVal V)) : Prop :=
  match c.trParam with
  | none => r = none
  | some (_, none) => r = none
  | some (star, some (_, _, w)) =>
    if w.length = 1 then ∀ x ∈ w, r = some (.number (value x.1)) else ∃ l, F.entries star w l ∧ r = some (.list l)

end Geouned.CellText
