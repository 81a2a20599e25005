import Verif.PhitsFile.Spec
import Verif.McnpFile.Good
/-!
# What is asked of the model for C109 and C110 (specification)
-/
namespace Geouned.PhitsFile

open Geouned.McnpFile (Surf Token NumText GoodSurf)

/-- formatted numbers are words with digits, maybe with blanks in front -/
structure Formats (f : Fmt) : Prop where
  e4 : ∀ x, NumText (f.e4 x)
  f7 : ∀ x, NumText (f.f7 x)
  e : ∀ x, Token (f.e x)
  str : ∀ x, '\n' ∉ f.str x

/-- a density whose text has at most 17 characters -/
def ShortDensity (f : Fmt) (d : ℚ) : Prop := (f.e4 d).length ≤ 17 ∧ (f.f7 d).length ≤ 17

/-- a definition that can be written: surfaces only (no boolean constants), no empty parts, numbers of at most 8 digits, at most 30 levels -/
def GoodDef (s : Seq) : Prop :=
  ∃ op l es, s = .lst op l es ∧ (Seq.lst op l es).WF ∧ (Seq.lst op l es).NoBool ∧ Text.Full (.lst op l es) ∧ Text.Below (10 ^ 8) (.lst op l es)
    ∧ (Seq.lst op l es).depth ≤ 30

/-- a cell that can be written. `Graveyard` and `Graveyard_in` are void cells without material; a solid has a material, if void cells are unified. -/
structure GoodCell (f : Fmt) (i : Input) (uni : Bool) (c : Cell) : Prop where
  label : c.label.natAbs < 10 ^ 8
  material : c.material.natAbs < 10 ^ 8
  comment : c.real ∨ c.material = 0
  grave : c.inner ∨ c.outer → c.void = true ∧ c.material = 0
  dense : c.real → c.material ≠ 0 → ∃ d, c.density = some d ∧ ShortDensity f d
  solid : uni = true → c.real → c.void = false → c.material ≠ 0
  definition : Shown uni c → if uni = true ∧ c.inner then ∃ op l n es, c.definition = .lst op l (.int n :: es) ∧ n ≠ 0 ∧ n.natAbs < 10 ^ 8 else GoodDef c.definition
  info : i.dummyMat = true → ∀ m, c.matInfo = some m → '\n' ∉ m

/-- the cells are numbered as GEOUNED does it (core.py 557-594): solids from `startCell` on, then the void cells, at the end the inner and the outer void -/
def Numbered (i : Input) : Prop :=
  ∃ so vo gr, i.cells.filter (fun c => c.real) = so ++ vo ++ gr ∧ (∀ c ∈ so, c.void = false) ∧ (∀ c ∈ vo, c.void = true ∧ ¬ c.inner ∧ ¬ c.outer)
    ∧ ((gr = [] ∧ vo = []) ∨ ∃ a b, gr = [a, b] ∧ a.void = true ∧ a.inner ∧ b.void = true ∧ b.outer)
    ∧ ∀ (n : Nat) (c : Cell), (so ++ vo ++ gr)[n]? = some c → c.label = i.startCell + n

/-- a model that can be written -/
structure Good (f : Fmt) (i : Input) (uni : Bool) : Prop where
  formats : Formats f
  title : '\n' ∉ i.title
  step : '\n' ∉ i.step
  version : '\n' ∉ i.version
  freecad : '\n' ∉ i.freecad
  date : '\n' ∉ i.date
  voidMat : ∀ m d, i.voidMat = some (m, d) → m ≠ 0 ∧ m.natAbs < 10 ^ 8 ∧ ShortDensity f d ∧ ∃ c ∈ i.cells, c.material = m
  cells : ∀ c ∈ i.cells, GoodCell f i uni c
  surfaces : ∀ s ∈ i.surfaces, GoodSurf s
  numbered : uni = true → Numbered i

end Geouned.PhitsFile
