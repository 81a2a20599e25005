/-!
# Specification: the words of a text, and its lines

A text is a list of characters. This file mentions no function of the code.
-/
namespace Geouned.Wrap

/-- characters that are a word of their own in a cell definition -/
def special (c : Char) : Bool := c = '(' || c = ')' || c = ':'

/-- the word under construction, if there is one -/
def flush (cur : List Char) : List (List Char) := if cur = [] then [] else [cur]

/-- words of the text, `cur` being the beginning of the first one: white space separates words, `(`, `)` and `:` are words -/
def wordsFrom (cur : List Char) : List Char → List (List Char)
  | [] => flush cur
  | c :: s =>
    if c.isWhitespace then flush cur ++ wordsFrom [] s
    else if special c then flush cur ++ [c] :: wordsFrom [] s
    else wordsFrom (cur ++ [c]) s

/-- the words of a text: what an input reader sees -/
def wordsOf (s : List Char) : List (List Char) := wordsFrom [] s

/-- the lines of a text -/
def linesOf : List Char → List (List Char)
  | [] => [[]]
  | c :: s =>
    if c = '\n' then [] :: linesOf s
    else match linesOf s with
      | [] => [[c]]
      | l :: ls => (c :: l) :: ls

/-- the first line fits after `offset` characters, the other lines fit -/
def Fits (size offset : Nat) (s : List Char) : Prop :=
  match linesOf s with
  | [] => True
  | l :: ls => l.length + offset ≤ size ∧ ∀ m ∈ ls, m.length ≤ size

/-- every line after the first begins with `tab` blanks (a continuation line) -/
def Continues (tab : Nat) (s : List Char) : Prop :=
  ∀ m ∈ (linesOf s).tail, ∃ r, m = List.replicate tab ' ' ++ r

/-- every stretch without `)`, `:` or blank is shorter than `n` characters -/
def Room (n : Nat) (s : List Char) : Prop :=
  ∀ u, u <:+: s → (∀ c ∈ u, c ≠ ')' ∧ c ≠ ':' ∧ c ≠ ' ') → u.length < n

end Geouned.Wrap
