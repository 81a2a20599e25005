import Verif.Text.Spec
import Verif.Text.WrapSpec
/-!
# Specification: what the characters of a cell definition mean

Words as in `WrapSpec.lean`, numbers in decimal notation, syntax as in `Spec.lean`. This file mentions no function of the code.
-/
namespace Geouned.Text

/-- the number written by decimal digits -/
def natOf (w : List Char) : Option Nat :=
  if w ≠ [] ∧ w.all Char.isDigit then some (Nat.ofDigitChars 10 w 0) else none

/-- the token written by a word -/
def tokOf : List Char → Option Tok
  | ['('] => some .lp
  | [')'] => some .rp
  | [':'] => some .colon
  | '-' :: w => (natOf w).map fun (n : Nat) => .num (-(n : Int))
  | w => (natOf w).map fun (n : Nat) => .num (n : Int)

/-- the tokens of a text, if every word is one -/
def tokensOf : List (List Char) → Option (List Tok)
  | [] => some []
  | w :: ws =>
    match tokOf w, tokensOf ws with
    | some t, some ts => some (t :: ts)
    | _, _ => none

/-- The characters `s` (of one or several lines) are a well-formed cell definition, and it holds (`b = true`) or not at `σ`. -/
def CMeans (σ : Side) (s : List Char) (b : Bool) : Prop :=
  ∃ ts, tokensOf (Wrap.wordsOf s) = some ts ∧ Reads σ .union ts b

end Geouned.Text
