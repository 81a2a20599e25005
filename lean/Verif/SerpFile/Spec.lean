import Verif.SerpFile.Model
import Verif.McnpFile.Good
/-!
# What the Serpent file of a model must say (specification of C108)

The rules of Serpent for an input file: what stands between `%` and the end of the line is a comment; the rest is a sequence of words separated by white space, in which each card begins with its
name and goes up to the next name of a card. (`(`, `)` and `:` of the cell cards are words by themselves.) Of the model only the records `Cell`, `Surf`, `Input` are used.
-/
namespace Geouned.SerpFile

open Geouned.McnpFile (Cell Token NumText IsNum RegionWords)

/-- the text without comments; the argument says whether we are inside a comment -/
def uncomment : Bool → List Char → List Char
  | _, [] => []
  | true, c :: s => if c = '\n' then c :: uncomment false s else uncomment true s
  | false, c :: s => if c = '%' then uncomment true s else c :: uncomment false s

/-- the words of a file -/
def fileWords (t : List Char) : List (List Char) := Wrap.wordsOf (uncomment false t)

/-- the names of cards -/
def cardNames : List (List Char) :=
  ["branch", "casematrix", "cell", "coef", "datamesh", "dep", "det", "div", "dtrans", "ene", "ftrans", "fun", "hisv", "ifc", "include", "lat", "mat", "mesh", "mflow", "mix", "nest", "particle",
    "pbed", "phb", "pin", "plot", "rep", "sample", "sens", "set", "solid", "src", "strans", "surf", "therm", "thermstoch", "tme", "trans", "transa", "transb", "transv", "umsh", "usym", "utrans",
    "wwgen", "wwin"].map String.toList

/-- the words of a file are these cards -/
def CardsOf (ws : List (List Char)) (cards : List (List (List Char))) : Prop :=
  ws = cards.flatten ∧ ∀ c ∈ cards, ∃ name rest, c = name :: rest ∧ name ∈ cardNames ∧ ∀ w ∈ rest, w ∉ cardNames

/-- the word for what fills the cell: the number of the material, `outside` for the graveyard, `void` for other cells without material -/
def MatWord (c : Cell) (w : List Char) : Prop :=
  if c.material ≠ 0 then IsNum w c.material else if c.matInfo = some "Graveyard".toList then w = "outside".toList else w = "void".toList

/-- a cell card: number, universe (0 if none is given), material, region -/
def CellSays (i : Input) (c : Cell) (card : List (List Char)) : Prop :=
  ∃ label uni mat reg, card = "cell".toList :: label :: uni :: mat :: reg ∧ IsNum label c.label ∧ IsNum uni (i.uni.getD 0) ∧ MatWord c mat ∧ RegionWords c reg

/-- a surface card: number, name, numbers -/
def SurfSays (s : Surf) (card : List (List Char)) : Prop :=
  ∃ n name v, s.card = some (name, v) ∧ IsNum n s.index ∧ card = "surf".toList :: n :: name :: v.flatMap Wrap.wordsOf

/-- the cards are those of the model: cells, surfaces, number of histories, boundary condition -/
def Says (i : Input) (cards : List (List (List Char))) : Prop :=
  ∃ cs ss, cards = cs ++ ss ++ [["set".toList, "nps".toList, "1e6".toList], ["set".toList, "bc".toList, "1".toList]]
    ∧ List.Forall₂ (CellSays i) (i.cells.filter (fun c => c.real)) cs ∧ List.Forall₂ SurfSays (i.surfaces.filter (fun s => s.card ≠ none)) ss

/-- one line -/
def Line (t : List Char) : Prop := '\n' ∉ t

/-- a model that can be written: numbers of at most 8 digits, definitions made of surfaces only, without empty parts, at most 30 levels deep; the kinds of surfaces are those of the writer, with
words with digits as numbers, nine for a plane by three points and six for a torus -/
structure Good (i : Input) : Prop where
  step : Line i.step
  version : Line i.version
  freecad : Line i.freecad
  date : Line i.date
  uni : ∀ u, i.uni = some u → u.natAbs < 10 ^ 8
  cells : ∀ c ∈ i.cells, c.real → c.label.natAbs < 10 ^ 8 ∧ c.material.natAbs < 10 ^ 8 ∧ ∃ op l es, c.definition = .lst op l es ∧ (Seq.lst op l es).WF ∧ (Seq.lst op l es).NoBool ∧ Text.Full (.lst op l es)
      ∧ Text.Below (10 ^ 8) (.lst op l es) ∧ (Seq.lst op l es).depth ≤ 30
  surfaces : ∀ s ∈ i.surfaces, ∀ name v, s.card = some (name, v) → (∀ t ∈ v, NumText t) ∧
    name ∈ ["px", "py", "pz", "plane", "cylx", "cyly", "cylz", "sph", "torx", "tory", "torz", "ckx", "cky", "ckz", "quadratic"].map String.toList

/-- a comment that is written: one with a character other than white space -/
def Commented (c : Cell) : Prop := (∃ m, c.matInfo = some m ∧ ∃ x ∈ m, x ≠ '\n') ∨ ∃ x ∈ c.comments, x.isWhitespace = false

/-- the kinds of surfaces whose card has the number of the surface -/
def Numbered (s : Surf) : Prop := ∀ name v, s.card = some (name, v) → name ∉ ["ckx", "cky", "ckz", "quadratic"].map String.toList

/-- the models of this kind are written well -/
def WrittenWell (P : Input → Prop) : Prop :=
  ∀ i, Good i → P i → ∀ r, 30 ≤ r → ∃ K, ∀ k, K ≤ k → ∃ t cards, writeInput r k i = .ok t ∧ CardsOf (fileWords t) cards ∧ Says i cards

end Geouned.SerpFile
