import Verif.McnpFile.Spec
import Verif.Text.RoomSpec
/-!
# What is asked of the model for C102 (specification)
-/
namespace Geouned.McnpFile

open Geouned.Card (Plain Empty StartsWith white)

/-- formatted numbers are words with digits; `{:11.4e}`, `{:11.7f}` and `{:13.7e}` may have blanks in front -/
structure Formats (f : Fmt) : Prop where
  e4 : ∀ x, NumText (f.e4 x)
  f7 : ∀ x, NumText (f.f7 x)
  e : ∀ x, Token (f.e x)
  e7 : ∀ x, NumText (f.e7 x) ∧ (f.e7 x).length ≤ 40
  weight : ∀ x, Token (f.weight x)

/-- several lines, in which the only white space are blanks -/
def PlainLines (t : List Char) : Prop := ∀ c ∈ t, white c = true → c = ' ' ∨ c = '\n'

/-- a cell that can be written: numbers of at most 8 digits, a density if there is a material (its text not longer than 17 characters), a definition that is made of
surfaces only (no boolean constants), without empty parts, at most 30 levels deep -/
structure GoodCell (f : Fmt) (c : Cell) : Prop where
  comments : PlainLines c.comments
  matInfo : ∀ m, c.matInfo = some m → PlainLines m
  real : c.real → c.label.natAbs < 10 ^ 8 ∧ c.material.natAbs < 10 ^ 8
    ∧ (c.material ≠ 0 → ∃ d, c.density = some d ∧ (f.e4 d).length ≤ 17 ∧ (f.f7 d).length ≤ 17)
    ∧ ∃ op l es, c.definition = .lst op l es ∧ (Seq.lst op l es).WF ∧ (Seq.lst op l es).NoBool ∧ Text.Full (.lst op l es)
      ∧ Text.Below (10 ^ 8) (.lst op l es) ∧ (Seq.lst op l es).depth ≤ 30

/-- a surface card that fits in its lines: a number of at most 8 digits, a name of at most 4 characters, formatted numbers of at most 21 characters; 9 (or fewer) numbers for `P`,
10 for `GQ`, 6 for a torus; what is in one line has at most 60 characters -/
structure GoodSurf (s : Surf) : Prop where
  index : s.index.natAbs < 10 ^ 8
  card : ∀ name v, s.card = some (name, v) → Token name ∧ name.length ≤ 4 ∧ (∀ t ∈ v, NumText t ∧ t.length ≤ 21) ∧
    ((name = "P".toList ∧ v.length = 9) ∨ (name = "GQ".toList ∧ v.length = 10) ∨ (name ∈ ["TX".toList, "TY".toList, "TZ".toList] ∧ v.length = 6)
      ∨ (name ≠ "GQ".toList ∧ name ∉ ["TX".toList, "TY".toList, "TZ".toList] ∧ v.length ≠ 9 ∧ (v.map (fun t => t.length + 1)).sum ≤ 61))

/-- a model that can be written -/
structure Good (f : Fmt) (i : Input) : Prop where
  formats : Formats f
  title : Plain i.title ∧ ¬ Empty i.title ∧ ¬ StartsWith "message:".toList i.title ∧ ¬ StartsWith "continue".toList i.title
  step : Plain i.step
  version : Plain i.version
  freecad : Plain i.freecad
  date : Plain i.date
  cells : ∀ c ∈ i.cells, GoodCell f c
  surfaces : ∀ s ∈ i.surfaces, GoodSurf s

end Geouned.McnpFile
