import Verif.RBool.Model
import Verif.Rev.Solid
import Verif.Rev.Hash
/-!
# Model: from the cards of an MCNP file to the solid of a cell (GEOReverse)

The functions on the way are modelled elsewhere: `remove_hash` (`Rev/Hash.lean`), `BoolSequence(text)` (`RBool/Model.lean`), `build_BoundBox`
and `buildShape` (`Rev/Solid.lean`). Here: `Cline.remove_redundant` as GEOReverse calls it, and how they follow each other.

Simplification: texts are lists of tokens, as in `Text/Model.lean`; comments, line ends and repeated blanks
(`remove_comments`, `remove_cr`, `remove_multispace`) have been removed before. A text that still has `#` when it reaches `BoolSequence` is
an error.
-/
namespace Geouned.Back
open Geouned Geouned.Text Geouned.Rev

/-- remh.py 340-399 `Cline.remove_redundant()` with the default `remopt="nochg"`: a text without `)` is left alone (348-350); the loop
352-374 is that of GEOUNED (`Text.removeRedundant`); a text that has no `:` then gets parentheses around it (382-386). -/
def cleanText (ts : List Tok) : List Tok :=
  if .rp ∉ ts then ts
  else
    let t := removeRedundant ts
    if .colon ∈ t then t
    else t.takeWhile (· = .blank) ++ .lp :: (strip t ++ .rp :: (t.reverse.takeWhile (· = .blank)))

/-- a text without `#` -/
def noHash : List HTok → Option (List Tok)
  | [] => some []
  | .lp :: l => (noHash l).map (.lp :: ·)
  | .rp :: l => (noHash l).map (.rp :: ·)
  | .colon :: l => (noHash l).map (.colon :: ·)
  | .blank :: l => (noHash l).map (.blank :: ·)
  | .num n :: l => (noHash l).map (.num n :: ·)
  | _ :: _ => none

/-- Objects.py 187-193 `__setDefinition__` and buildCAD.py 74-75: the definition of a cell whose card has this text. `f`: recursion depth allowed -/
def defOfText (f : Nat) (ts : List Tok) : M Seq := RBool.setDef f (cleanText ts)

/-- MCNPinput.py 396 and the above: the definition of cell `n` of the cards read -/
def defOfCard (f : Nat) (cards : Nat → Option Card) (n : Nat) : M Seq :=
  match removeHash cards f n with
  | .error e => .error e
  | .ok hs =>
    match noHash hs with
    | none => .error .typeError
    | some ts => defOfText f ts

variable {α S Bx Sh : Type}

/-- buildCAD.py 72-103: the shape of the cell, with the definition it was built from -/
def buildFrom (K : Solid.Kernel α S Bx Sh) (f : Nat) (d : M Seq) (surfaces : List Nat) (ext : Bx) : M (Seq × Option S × List S) :=
  match d with
  | .error e => .error e
  | .ok d =>
    match Solid.buildCell K f d surfaces ext with
    | .error e => .error e
    | .ok r => .ok (d, r)

end Geouned.Back
