import Verif.Rev.RenumSpec
/-!
# Model: `Cline.replace` and the loops that call it, on characters

`src/geouned/GEOReverse/Modules/remh.py` 23 (`unsignedint`), 414-432 (`replace`); `MCNPinput.py` 283 and 309-321 (end of `substituteLikeCell`), 424-443 (`processSurfaces`); `XMLinput.py` 259-275
(`processSurfaces`). `Rev/Cards.lean` models the same loops on tokens.

The text is kept in two parts, before and after the position `pos`. Simplifications: `\d` is an ASCII digit, `\s` a white space of `Char.isWhitespace`; the first match of `\#?\s*\d+` from `pos` ends
with the first run of digits after `pos` and has a `#` exactly when the text between `pos` and these digits ends with a `#` and white space.
-/
namespace Geouned.Renum

/-- the end of the loop: the text, or `KeyError` for a number that is in no table -/
inductive Outcome where
  | done (text : List Char)
  | keyError
  deriving DecidableEq, Repr

/-- `"#" in m.group()` -/
def hashed (a : List Char) : Bool :=
  match a.reverse.dropWhile Char.isWhitespace with
  | c :: _ => c = '#'
  | [] => false

/-- The loop. `new`: the table, `Surfaces[surf].id` or `surfDict[surf]`; `brk`: the loop of `substituteLikeCell`, which ends when `replace` returns -1, while `processSurfaces` searches from -1, the
beginning of the text. `none`: not ended after this number of rounds. -/
def loop (brk : Bool) (new : Nat → Option Nat) : Nat → List Char → List Char → Option Outcome
  | 0, _, _ => none
  | f + 1, pre, rest =>
    let a := rest.takeWhile fun c => !c.isDigit
    let r := rest.dropWhile fun c => !c.isDigit
    if r = [] then some (.done (pre ++ rest))
    else
      let ds := r.takeWhile Char.isDigit
      let b := r.dropWhile Char.isDigit
      if hashed a then loop brk new f (pre ++ a ++ ds) b
      else
        let surf := Nat.ofDigitChars 10 ds 0
        match new surf with
        | none => some .keyError
        | some k =>
          let s2 := Nat.toDigits 10 k
          if surf = k then loop brk new f (pre ++ a ++ r.take s2.length) (r.drop s2.length)
          else if ds = Nat.toDigits 10 surf then loop brk new f (pre ++ a ++ s2) b
          else if brk then some (.done (pre ++ rest))
          else loop brk new f [] (pre ++ rest)

end Geouned.Renum
