import Verif.McnpFile.Model
import Verif.Card.Spec
import Verif.Bool.Spec
/-!
# What the MCNP file of a model must say (specification of C102)

The rules of MCNP for a file are those of `Verif/Card/Spec.lean` (`Deck`): a title, cell cards, surface cards and data cards, with comment lines between them.
Of the model only the records `Cell`, `Surf`, `Input`, `Fmt` are used: what the user has given.
-/
namespace Geouned.McnpFile

open Geouned.Card (Plain Empty Deck CardText)

/-- the words of a card -/
def words (texts : List (List Char)) : List (List Char) := texts.flatMap Wrap.wordsOf

/-- a word of letters, digits, `.`, `+`, `-`, `/` -/
def Token (w : List Char) : Prop := w ≠ [] ∧ ∀ c ∈ w, c.isAlphanum = true ∨ c ∈ ['.', '+', '-', '/']

/-- a formatted number: a word with a digit, after some blanks -/
def NumText (t : List Char) : Prop := ∃ n w, t = List.replicate n ' ' ++ w ∧ Token w ∧ ∃ c ∈ w, c.isDigit = true

/-- the word is the number `n` -/
def IsNum (w : List Char) (n : Int) : Prop := Text.tokOf w = some (.num n)

/-- the cell is no comment -/
def Cell.real (c : Cell) : Prop := c.id ≠ none

instance (c : Cell) : Decidable c.real := inferInstanceAs (Decidable (c.id ≠ none))

/-- the words of the density: none for material 0 -/
def DensityWords (f : Fmt) (c : Cell) (ws : List (List Char)) : Prop :=
  if c.material = 0 then ws = []
  else ∃ d, c.density = some d ∧ ((|d| < 1 / 100 ∧ ws = Wrap.wordsOf (f.e4 d)) ∨ (1 / 100 ≤ |d| ∧ ws = Wrap.wordsOf (f.f7 d)))

/-- the words of the volume: none if volumes are not asked for -/
def VolumeWords (f : Fmt) (i : Input) (c : Cell) (ws : List (List Char)) : Prop :=
  if i.volCARD = false then ws = []
  else if c.void = true then ws = ["Vol=1.0".toList]
  else ws = ["Vol=".toList ++ f.e (c.volume / 1000)]

/-- importance 0 in the graveyard, 1 elsewhere, for both particles -/
def ImportanceWords (c : Cell) (ws : List (List Char)) : Prop :=
  if c.matInfo = some "Graveyard".toList then ws = ["imp".toList, ":".toList, "n=0".toList, "imp".toList, ":".toList, "p=0".toList]
  else ws = ["imp".toList, ":".toList, "n=1.0".toList, "imp".toList, ":".toList, "p=1.0".toList]

/-- the universe, if there is one -/
def UniverseWords (i : Input) (ws : List (List Char)) : Prop :=
  match i.uni with
  | none => ws = []
  | some u => ∃ w, IsNum w u ∧ ws = ["U=".toList ++ w]

/-- the universe that fills the cell, and its transformation -/
def FillWords (c : Cell) (ws : List (List Char)) : Prop :=
  match c.fill, c.transform with
  | none, _ => ws = []
  | some n, none => ∃ w, IsNum w n ∧ ws = ["fill=".toList ++ w]
  | some n, some t => ∃ w v, IsNum w n ∧ IsNum v t ∧ ws = ["fill=".toList ++ w, "(".toList, v, ")".toList]

/-- the words are a definition of the region of the cell -/
def RegionWords (c : Cell) (ws : List (List Char)) : Prop :=
  ∀ σ b, (∃ ts, Text.tokensOf ws = some ts ∧ Text.Reads σ .union ts b) ↔ b = c.definition.sem σ

/-- a cell card: number, material, density, region, volume, importances, universe, fill -/
def CellSays (f : Fmt) (i : Input) (c : Cell) (texts : List (List Char)) : Prop :=
  ∃ label mat den reg vol imp uni fill, words texts = label :: mat :: (den ++ (reg ++ (vol ++ (imp ++ (uni ++ fill)))))
    ∧ IsNum label c.label ∧ IsNum mat c.material ∧ DensityWords f c den ∧ RegionWords c reg ∧ VolumeWords f i c vol ∧ ImportanceWords c imp
    ∧ UniverseWords i uni ∧ FillWords c fill

/-- a surface card: number, name, numbers -/
def SurfSays (s : Surf) (texts : List (List Char)) : Prop :=
  ∃ n name v, s.card = some (name, v) ∧ IsNum n s.index ∧ words texts = n :: name :: v.flatMap Wrap.wordsOf

/-- the card of a dummy material -/
def MatSays (m : Int) (texts : List (List Char)) : Prop :=
  ∃ w, IsNum w m ∧ words texts = ['M' :: w, "1001".toList, "1".toList]

/-- the source: on the sphere or in the box, with tallies of all solid cells or not -/
def SourceSays (f : Fmt) (i : Input) (cards : List (List (List Char))) : Prop :=
  match i.sphere with
  | none => cards = []
  | some (n, r) =>
    let solids := i.cells.filter (fun c => c.real ∧ c.solid = true)
    if i.volSDEF = true then
      ∃ w labels, IsNum w n ∧ List.Forall₂ IsNum labels (solids.map (·.label)) ∧
        cards.map words = [["PRDMP".toList, "2J".toList, "-1".toList],
          ["SDEF".toList, "PAR=P".toList, "NRM=-1".toList, "SUR=".toList ++ w, "WGT=".toList ++ f.weight r, "DIR=d1".toList],
          ["SI1".toList, "0".toList, "1".toList], ["SP1".toList, "-21".toList, "1".toList],
          "F4".toList :: ":".toList :: "P".toList :: labels]
          ++ (if i.volCARD = true then [] else ["SD4".toList :: solids.flatMap (fun c => Wrap.wordsOf (f.e7 (c.volume / 1000)))])
    else
      cards.map words = [["PRDMP".toList, "2J".toList, "-1".toList],
        ["SDEF".toList, "PAR=P".toList, "X=D1".toList, "Y=D2".toList, "Z=D3".toList],
        "SI1".toList :: (Wrap.wordsOf (f.e7 (i.box.1 / 10)) ++ Wrap.wordsOf (f.e7 (i.box.2.1 / 10))),
        "SI2".toList :: (Wrap.wordsOf (f.e7 (i.box.2.2.1 / 10)) ++ Wrap.wordsOf (f.e7 (i.box.2.2.2.1 / 10))),
        "SI3".toList :: (Wrap.wordsOf (f.e7 (i.box.2.2.2.2.1 / 10)) ++ Wrap.wordsOf (f.e7 (i.box.2.2.2.2.2 / 10))),
        ["SP1".toList, "0".toList, "1".toList], ["SP2".toList, "0".toList, "1".toList], ["SP3".toList, "0".toList, "1".toList]]

/-- the data cards: materials (each one that occurs, once, in increasing order), mode, void, number of histories, source -/
def DataSays (f : Fmt) (i : Input) (cards : List (List (List Char))) : Prop :=
  ∃ mats src ms, cards.map words = mats.map words ++ [["MODE".toList, "P".toList], ["VOID".toList], ["NPS".toList, "1e6".toList]] ++ src.map words
    ∧ List.Forall₂ MatSays ms mats ∧ ms.Pairwise (· < ·)
    ∧ (if i.dummyMat = true then ∀ m, m ∈ ms ↔ m ≠ 0 ∧ ∃ c ∈ i.cells, c.real ∧ c.material = m else ms = [])
    ∧ SourceSays f i src

/-- the deck says what the model is -/
structure Says (f : Fmt) (i : Input) (d : Deck) : Prop where
  nomessage : d.message = none
  title : d.title = i.title
  cells : List.Forall₂ (CellSays f i) (i.cells.filter (fun c => c.real)) (d.cells.cards.map (fun m => m.2.says))
  surfaces : List.Forall₂ SurfSays (i.surfaces.filter (fun s => s.card ≠ none)) (d.surfaces.cards.map (fun m => m.2.says))
  data : DataSays f i (d.data.cards.map (fun m => m.2.says))

end Geouned.McnpFile
