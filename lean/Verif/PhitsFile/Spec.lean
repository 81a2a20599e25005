import Verif.PhitsFile.Model
import Verif.McnpFile.Spec
import Verif.Text.RoomSpec
/-!
# What the PHITS file of a model must say (specification of C109 and C110)

Of the model only the records `Cell`, `Surf`, `Input`, `Fmt` are used: what the user has given. A reader of PHITS files is defined here: `$` begins a comment, lines that are
blank are skipped, a line that begins with `[` begins a section; in the sections of cells and surfaces a line that begins with five blanks continues the card.
-/
namespace Geouned.PhitsFile

open Geouned.McnpFile (Surf IsNum Token NumText)

/-! ## The reader -/

/-- a line without its comment -/
def content (t : List Char) : List Char := t.takeWhile (· ≠ '$')

/-- not only blanks -/
def inked (t : List Char) : Bool := t.any (· ≠ ' ')

/-- the lines in front of the first section, and the sections: title and lines -/
def split : List (List Char) → List (List Char) × List (List Char × List (List Char))
  | [] => ([], [])
  | t :: ts =>
    if inked (content t) = false then split ts
    else if (content t).head? = some '[' then ([], (content t, (split ts).1) :: (split ts).2)
    else (content t :: (split ts).1, (split ts).2)

/-- a line that continues a card -/
def five (t : List Char) : Bool := t.take 5 = List.replicate 5 ' '

/-- the words of the lines that continue something before, and the words of each card -/
def cards : List (List Char) → List (List Char) × List (List (List Char))
  | [] => ([], [])
  | t :: ts =>
    if five t then (Wrap.wordsOf t ++ (cards ts).1, (cards ts).2)
    else ([], (Wrap.wordsOf t ++ (cards ts).1) :: (cards ts).2)

/-- the words of each line of a table -/
def rows (ts : List (List Char)) : List (List (List Char)) := ts.map Wrap.wordsOf

/-! ## What the cards must say -/

/-- some digits -/
def Digits (x : List Char) : Prop := x ≠ [] ∧ ∀ c ∈ x, c.isDigit = true

/-- the text has a label `word` number `_` number `_` -/
def HasLabel (word s : List Char) : Prop := ∃ a x y b, Digits x ∧ Digits y ∧ s = a ++ word ++ x ++ '_' :: y ++ '_' :: b

/-- automatic void cells are to be unified: the STEP file has no label of an enclosure or envelope -/
def Unify (text : List Char) : Prop := ¬ HasLabel "enclosure".toList text ∧ ¬ HasLabel "envelope".toList text

/-- the cell is no comment -/
def Cell.real (c : Cell) : Prop := c.id ≠ none

instance (c : Cell) : Decidable c.real := inferInstanceAs (Decidable (c.id ≠ none))

/-- the void between the model and the sphere; outside of the sphere -/
def Cell.inner (c : Cell) : Prop := c.matInfo = some "Graveyard_in".toList
def Cell.outer (c : Cell) : Prop := c.matInfo = some "Graveyard".toList

instance (c : Cell) : Decidable c.inner := inferInstanceAs (Decidable (_ = _))
instance (c : Cell) : Decidable c.outer := inferInstanceAs (Decidable (_ = _))

/-- the cell has a card: if void cells are unified, of the void cells only the inner and the outer one -/
def Shown (uni : Bool) (c : Cell) : Prop := c.real ∧ (uni = true → c.void = false ∨ c.inner ∨ c.outer)

instance (uni : Bool) (c : Cell) : Decidable (Shown uni c) := inferInstanceAs (Decidable (_ ∧ _))

/-- the words of a density -/
def Density (f : Fmt) (d : ℚ) (ws : List (List Char)) : Prop :=
  (|d| < 1 / 100 ∧ ws = Wrap.wordsOf (f.e4 d)) ∨ (1 / 100 ≤ |d| ∧ ws = Wrap.wordsOf (f.f7 d))

/-- material and density: -1 outside; the void material, if there is one, in the inner void; a constant for the density if there is no file with materials -/
def MaterialWords (f : Fmt) (i : Input) (c : Cell) (mat : List Char) (den : List (List Char)) : Prop :=
  if c.outer then IsNum mat (-1) ∧ den = []
  else if c.inner then
    match i.voidMat with
    | none => IsNum mat 0 ∧ den = []
    | some (m, d) => IsNum mat m ∧ Density f d den
  else if c.material = 0 then IsNum mat 0 ∧ den = []
  else IsNum mat c.material ∧
    (if i.matFile = [] ∧ c.enclosure ≠ some 0 then ∃ w, IsNum w c.material ∧ den = ['c' :: w] else ∃ d, c.density = some d ∧ Density f d den)

/-- the solid cells -/
def solids (i : Input) : List Cell := i.cells.filter (fun c => c.real ∧ c.void = false)

/-- the region of the inner void, if void cells are unified: inside the sphere (the first surface of the cell), and not in any of the solid cells -/
def InnerWords (i : Input) (c : Cell) (ws : List (List Char)) : Prop :=
  ∃ op l n es w hs, c.definition = .lst op l (.int n :: es) ∧ ws = w :: hs ∧ IsNum w n
    ∧ List.Forall₂ (fun h (s : Cell) => ∃ v, h = '#' :: v ∧ IsNum v s.label) hs (solids i)

/-- the universe, if there is one -/
def UniverseWords (i : Input) (ws : List (List Char)) : Prop :=
  match i.uni with
  | none => ws = []
  | some u => ∃ w, IsNum w u ∧ ws = ["U=".toList ++ w]

/-- a cell card: number, material, density, region, universe -/
def CellSays (f : Fmt) (i : Input) (uni : Bool) (c : Cell) (ws : List (List Char)) : Prop :=
  ∃ label mat den reg u, ws = label :: mat :: (den ++ (reg ++ u)) ∧ IsNum label c.label ∧ MaterialWords f i c mat den
    ∧ (if uni = true ∧ c.inner then InnerWords i c reg else McnpFile.RegionWords c.toCell reg) ∧ UniverseWords i u

/-- a surface card: number, name, numbers -/
def SurfSays (s : Surf) (ws : List (List Char)) : Prop :=
  ∃ n name v, s.card = some (name, v) ∧ IsNum n s.index ∧ ws = n :: name :: v.flatMap Wrap.wordsOf

/-- the card of a dummy material -/
def MatSays (m : Int) (ws : List (List Char)) : Prop :=
  ∃ w, IsNum w m ∧ ws = ['M' :: w, "H".toList, "2".toList, "O".toList, "1".toList]

/-- the materials of the cells that have a card -/
def Used (i : Input) (uni : Bool) (m : Int) : Prop :=
  ∃ c ∈ i.cells, Shown uni c ∧ ((m ≠ 0 ∧ c.material = m) ∨ (c.inner ∧ ∃ d, i.voidMat = some (m, d)))

/-- a line of the table of volumes -/
def VolumeSays (f : Fmt) (c : Cell) (ws : List (List Char)) : Prop :=
  ∃ w, IsNum w c.label ∧ ws = w :: (if c.void = true then ["1.0".toList] else Wrap.wordsOf (f.e (c.volume / 1000)))

/-- the sections say what the model is -/
def Says (f : Fmt) (i : Input) (uni : Bool) (ls : List (List Char)) : Prop :=
  ∃ cs ss ms vs, split ls = ([], [("[CELL]".toList, cs), ("[SURFACE]".toList, ss)]
      ++ (if i.dummyMat = true then [("[MATERIAL]".toList, ms)] else []) ++ (if i.volCARD = true then [("[VOLUME] off".toList, vs)] else []))
    ∧ (∃ ws, cards cs = ([], ws) ∧ List.Forall₂ (CellSays f i uni) (i.cells.filter (fun c => Shown uni c)) ws)
    ∧ (∃ ws, cards ss = ([], ws) ∧ List.Forall₂ SurfSays (i.surfaces.filter (fun s => s.card ≠ none)) ws)
    ∧ (i.dummyMat = true → ∃ ns, List.Forall₂ MatSays ns (rows ms) ∧ ns.Nodup ∧ ∀ m, m ∈ ns ↔ Used i uni m)
    ∧ (i.volCARD = true → ∃ ws, rows vs = ["reg".toList, "vol".toList] :: ws ∧ List.Forall₂ (VolumeSays f) (i.cells.filter (fun c => Shown uni c)) ws)

end Geouned.PhitsFile
