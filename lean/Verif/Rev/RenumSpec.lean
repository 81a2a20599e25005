import Mathlib.Tactic.SplitIfs
/-!
# Specification: a text with other numbers

A text is numbers with something between them. Mentions no function of the code.
-/
namespace Geouned.Renum

/-- a number in decimal notation, without a zero in front -/
def decimal (n : Nat) : List Char := Nat.toDigits 10 n

/-- the text is about to end with a `#`, or with a `#` and white space: the number that follows is the number of a cell -/
def AfterHash (s : List Char) : Prop := ∃ u w, s = u ++ '#' :: w ∧ ∀ c ∈ w, c.isWhitespace = true

/-- what stands between the numbers: no digits, and something between any two numbers -/
def Between (seps : List (List Char)) (last : List Char) : Prop :=
  (∀ s ∈ seps, ∀ c ∈ s, c.isDigit = false) ∧ (∀ s ∈ seps.tail, s ≠ []) ∧ ∀ c ∈ last, c.isDigit = false

/-- the text with these separators and these words between them -/
def textOf (ps : List (List Char × List Char)) (last : List Char) : List Char := ps.flatMap (fun p => p.1 ++ p.2) ++ last

open Classical in
/-- every number replaced, but those of cells -/
noncomputable def renumbered (g : Nat → Nat) (ps : List (List Char × Nat)) : List (List Char × List Char) :=
  ps.map fun p => (p.1, if AfterHash p.1 then decimal p.2 else decimal (g p.2))

end Geouned.Renum
