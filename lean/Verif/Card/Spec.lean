import Mathlib.Data.List.Basic
/-!
# What an MCNP input file says: its cards (specification of C79)

The rules of the MCNP manual, on the lines of a file. A text is a line without the character that ends it.
-/
namespace Geouned.Card

/-- exceptions of Python -/
inductive Err where
  | index | runtime | value | attribute | type
  deriving DecidableEq, Repr

/-- white space as Python sees it (`str.isspace`) -/
def white (c : Char) : Bool :=
  c.toNat ∈ [9, 10, 11, 12, 13, 28, 29, 30, 31, 32, 0x85, 0xa0, 0x1680, 0x2028, 0x2029, 0x202f, 0x205f, 0x3000]
    || (0x2000 ≤ c.toNat && c.toNat ≤ 0x200a)

/-- a text in which the only white space are blanks -/
def Plain (t : List Char) : Prop := ∀ c ∈ t, white c = true → c = ' '

/-- nothing but blanks -/
def Empty (t : List Char) : Prop := ∀ c ∈ t, c = ' '

/-- a comment line: `c` in one of the columns 1 to 5 after blanks, at the end of the line or followed by a blank; or a line
with nothing before a dollar sign (here in one of the columns 1 to 5) -/
def IsComment (t : List Char) : Prop :=
  ∃ k, k ≤ 4 ∧ ∃ rest,
    (t = List.replicate k ' ' ++ '$' :: rest)
    ∨ ((t = List.replicate k ' ' ++ 'c' :: rest ∨ t = List.replicate k ' ' ++ 'C' :: rest) ∧ (rest = [] ∨ rest.head? = some ' '))

/-- the first five columns are blank -/
def Indented (t : List Char) : Prop := ∃ rest, t = ' ' :: ' ' :: ' ' :: ' ' :: ' ' :: rest

/-- what counts of a line: the text before the first `$` or `&` -/
def content (t : List Char) : List Char := t.takeWhile (fun c => c ≠ '$' && c ≠ '&')

/-- the line ends with `&` (followed by blanks or a comment at most): the next line continues it -/
def Ampersand (t : List Char) : Prop := ∃ rest, t = content t ++ '&' :: rest

/-- a card: its first line, and the lines that continue it, each after some comment lines -/
structure CardText where
  first : List Char
  more : List (List (List Char) × List Char)

/-- the lines of a card that are no comments -/
def CardText.body (c : CardText) : List (List Char) := c.first :: c.more.map (·.2)

/-- the lines of a card -/
def CardText.lines (c : CardText) : List (List Char) := c.first :: c.more.flatMap (fun m => m.1 ++ [m.2])

/-- a block: cards, each after some comment lines, and comment lines at the end -/
structure Block where
  cards : List (List (List Char) × CardText)
  tail : List (List Char)

def Block.lines (b : Block) : List (List Char) := b.cards.flatMap (fun m => m.1 ++ m.2.lines) ++ b.tail

/-- an input file: title, cells, surfaces, data; `blank1`, `blank2` are the blank lines between the blocks; `after` is, if given,
the blank line after the data and whatever follows it; `message` is, if given, the message block and the blank line after it -/
structure Deck where
  message : Option (List (List Char) × List Char)
  title : List Char
  cells : Block
  blank1 : List Char
  surfaces : Block
  blank2 : List Char
  data : Block
  after : Option (List Char × List (List Char))

def Deck.lines (d : Deck) : List (List Char) :=
  (match d.message with | none => [] | some m => m.1 ++ [m.2])
    ++ d.title :: (d.cells.lines ++ d.blank1 :: (d.surfaces.lines ++ d.blank2 :: (d.data.lines
    ++ (match d.after with | none => [] | some a => a.1 :: a.2))))

/-- a file: every line ends with a newline character, the last one need not -/
inductive FileOf : List (List Char) → List Char → Prop
  | nil : FileOf [] []
  | last (t : List Char) : t ≠ [] → FileOf [t] t
  | cons (t : List Char) (ts : List (List Char)) (s : List Char) : FileOf ts s → FileOf (t :: ts) (t ++ '\n' :: s)

/-- `b` is `a` with every tab replaced by blanks up to the next column that is a multiple of 8; `n` is the column -/
inductive Expand : Nat → List Char → List Char → Prop
  | nil (n : Nat) : Expand n [] []
  | tab (n k : Nat) (a b : List Char) : 0 < k → k ≤ 8 → 8 ∣ (n + k) → Expand (n + k) a b →
      Expand n ('\t' :: a) (List.replicate k ' ' ++ b)
  | char (n : Nat) (c : Char) (a b : List Char) : c ≠ '\t' → Expand (n + 1) a b → Expand n (c :: a) (c :: b)

/-- the first eight characters after the leading blanks are the given word, in any case -/
def StartsWith (word : List Char) (t : List Char) : Prop :=
  ∃ k rest w, t = List.replicate k ' ' ++ w ++ rest ∧ w.map Char.toLower = word

/-- the rules for one card: no line is blank or looks like a comment; the first line is not indented; a line that continues the card is
indented or follows (apart from comments) a line that ends with `&`; the last line does not end with `&`. Tally comment cards
(`fc`), for which other rules hold, are excluded. -/
structure CardText.Ok (c : CardText) : Prop where
  plain : ∀ t ∈ c.lines, Plain t
  filled : ∀ t ∈ c.body, ¬ Empty t
  nocomment : ∀ t ∈ c.body, ¬ IsComment t
  comments : ∀ m ∈ c.more, ∀ t ∈ m.1, IsComment t
  first : ¬ Indented c.first
  nofc : ¬ StartsWith ['f', 'c'] c.first
  cont : ∀ (i : Nat) (p t : List Char), c.body[i]? = some p → c.body[i + 1]? = some t → Indented t ∨ Ampersand p
  closed : ∀ p, c.body.getLast? = some p → ¬ Ampersand p

structure Block.Ok (b : Block) : Prop where
  cards : ∀ m ∈ b.cards, m.2.Ok
  comments : ∀ m ∈ b.cards, ∀ t ∈ m.1, IsComment t ∧ Plain t
  tail : ∀ t ∈ b.tail, IsComment t ∧ Plain t

structure Deck.Ok (d : Deck) : Prop where
  message : ∀ m, d.message = some m → (∃ f r, m.1 = f :: r ∧ StartsWith "message:".toList f) ∧ (∀ t ∈ m.1, Plain t ∧ ¬ Empty t) ∧ Empty m.2
  title : Plain d.title ∧ ¬ Empty d.title
  titleKind : d.message = none → ¬ StartsWith "message:".toList d.title ∧ ¬ StartsWith "continue".toList d.title
  cells : d.cells.Ok
  surfaces : d.surfaces.Ok
  data : d.data.Ok
  blank1 : Empty d.blank1
  blank2 : Empty d.blank2
  after : ∀ a, d.after = some a → Empty a.1

/-- the three kinds of cards -/
inductive Kind where
  | cell | surface | data
  deriving DecidableEq, Repr

/-- what a card says: the texts of its lines that are not blank -/
def CardText.says (c : CardText) : List (List Char) := (c.body.map content).filter (fun t => t.any (fun c => c ≠ ' '))

/-- what a deck says: its cards in their order -/
def Deck.says (d : Deck) : List (Kind × List (List Char)) :=
  d.cells.cards.map (fun m => (.cell, m.2.says)) ++ d.surfaces.cards.map (fun m => (.surface, m.2.says))
    ++ d.data.cards.map (fun m => (.data, m.2.says))

end Geouned.Card
