import Verif.McnpFile.Model
/-!
# Model of the Serpent input file that GEOUNED writes

`src/geouned/GEOUNED/write/serpent_format.py` (`SerpentInput`), and the texts of `serpent_surface` (`write/functions.py` 715-860). The result is the list of characters of the file.

Simplifications: the numbers of surfaces are given as formatted texts; the surfaces are the list `self.Surfaces`, already sorted and with the kind of card chosen (`Verif/Geom/Card.lean`); the cells
are those after `simplify_planes` (C33); `str.strip` is modelled for ASCII white space. The date, the versions and the name of the STEP file are given texts.
-/
namespace Geouned.SerpFile

open Geouned.McnpFile (T padRight tab11 joinB Cell)

/-- a surface: its number, and the name and the (formatted) numbers of its card; `none` if there is no card for it. For `ckx`, `cky`, `ckz` the numbers are the five that fill the format: the number of
the surface, the apex and the squared tangent (write/functions.py 784-825). -/
structure Surf where
  index : Int
  card : Option (List Char × List (List Char))

/-- serpent_format.py 19-59: what the writer is given -/
structure Input where
  title : List Char
  uni : Option Int
  cells : List Cell
  surfaces : List Surf
  step : List Char
  version : List Char
  freecad : List Char
  date : List Char

/-- serpent_format.py 102-128 `write_header` -/
def header (i : Input) : List Char :=
  let cells := i.cells.filter (fun c => c.id.isSome)
  i.title ++ T "\n%   ______ _______  _____      _     _ __   _ _______ ______  \n%  |  ____ |______ |     | ___ |     | | \\  | |______ |     \\ \n%  |_____| |______ |_____|     |_____| |  \\_| |______ |_____/\n% Version : "
    ++ i.version ++ T "\n% FreeCAD Version : " ++ i.freecad ++ T " \n"
    ++ T "%\n% *************************************************************\n% Original Step file : " ++ i.step
    ++ T "\n%\n% Creation Date : " ++ i.date
    ++ T "\n% Solid Cells   : " ++ Text.strInt (cells.filter (fun c => !c.void)).length
    ++ T "\n% Total Cells   : " ++ Text.strInt cells.length
    ++ T "\n% Surfaces      : " ++ Text.strInt i.surfaces.length
    ++ T "\n% Materials     : " ++ Text.strInt ((cells.map (·.material)).filter (· ≠ 0)).dedup.length
    ++ T "\n%\n% **************************************************************\n"

/-- serpent_format.py 290-299 `comment_line`; `split("\n")` never gives an empty list -/
def commentLine (s : List Char) : List Char :=
  T "% \n" ++ ((Wrap.linesOf (Wrap.strip s)).filter (fun c => c ≠ [])).flatMap (fun c => T "% " ++ c ++ ['\n']) ++ T "% \n"

/-- serpent_format.py 278-281, 284-287: the lines of a comment -/
def percentLines (s : List Char) : List Char := ((Wrap.linesOf s).filter (fun x => x ≠ [])).flatMap (fun x => tab11 ++ '%' :: x ++ ['\n'])

/-- serpent_format.py 275-288 `comment_format` -/
def commentFormat (c : Cell) : List Char :=
  (match c.matInfo with
    | none => []
    | some m => if m = [] then [] else percentLines m)
  ++ (if Wrap.strip c.comments = [] then [] else percentLines (Wrap.strip c.comments))

/-- serpent_format.py 152-175: the beginning of a cell card -/
def cellHeader (i : Input) (c : Cell) : List Char :=
  match i.uni with
  | some u =>
    if c.material = 0 then T "cell " ++ padRight 5 (Text.strInt c.label) ++ ' ' :: Text.strInt u ++ [' ']
    else T "cell " ++ padRight 5 (Text.strInt c.label) ++ ' ' :: Text.strInt u ++ ' ' :: padRight 5 (Text.strInt c.material) ++ [' ']
  | none =>
    if c.material = 0 ∧ c.matInfo ≠ some (T "Graveyard") then T "cell " ++ padRight 5 (Text.strInt c.label) ++ T " 0 void "
    else if c.material = 0 ∧ c.matInfo = some (T "Graveyard") then T "cell " ++ padRight 5 (Text.strInt c.label) ++ T " 0 outside "
    else T "cell " ++ padRight 5 (Text.strInt c.label) ++ T "  0  " ++ padRight 5 (Text.strInt c.material) ++ [' ']

/-- serpent_format.py 142-183 `write_cells`: with a universe the card is written in 163-167 and again in 177-181. `r`: recursion depth allowed, `k`: rounds of `wrap_line` allowed -/
def writeCell (i : Input) (r k : Nat) (c : Cell) : M (List Char) :=
  match c.id with
  | none => .ok (commentLine c.comments)
  | some _ =>
    match Text.cellDef 80 11 (cellHeader i c).length r k c.definition with
    | .error e => .error e
    | .ok d =>
      let card := cellHeader i c ++ d ++ commentFormat c
      match i.uni with
      | some _ => .ok (card ++ card)
      | none => .ok card

/-- serpent_format.py 135-139 `write_cell_block` -/
def writeCells (i : Input) (r k : Nat) : List Cell → M (List Char)
  | [] => .ok []
  | c :: cs =>
    match writeCell i r k c with
    | .error e => .error e
    | .ok a =>
      match writeCells i r k cs with
      | .error e => .error e
      | .ok b => .ok (a ++ b)

/-- write/functions.py 715-860: the text of a card. 719-727 plane by three points, 759-771 general cylinder (without the number of the surface), 784-825 cones (the same), 844-858 tori. -/
def surfText (n : Int) (name : List Char) (v : List (List Char)) : List Char :=
  let h := T "surf " ++ Text.strInt n ++ ' ' :: name ++ [' ']
  if name = T "plane" ∧ v.length = 9 then
    h ++ joinB (v.take 3) ++ T "\n      " ++ joinB ((v.drop 3).take 3) ++ T "\n      " ++ joinB (v.drop 6)
  else if name = T "quadratic" then
    T "surf quadratic  " ++ joinB (v.take 3) ++ T "\n          " ++ joinB ((v.drop 3).take 3) ++ T "\n          " ++ joinB ((v.drop 6).take 3)
      ++ T "\n          " ++ joinB (v.drop 9) ++ T " "
  else if name = T "ckx" ∨ name = T "cky" ∨ name = T "ckz" then
    T "surf " ++ name ++ ' ' :: joinB v
  else if name = T "torx" ∨ name = T "tory" ∨ name = T "torz" then
    h ++ joinB (v.take 3) ++ T "\n      " ++ joinB (v.drop 3)
  else h ++ joinB v

/-- serpent_format.py 185-200 `write_surfaces` -/
def writeSurface (s : Surf) : List Char :=
  match s.card with
  | none => []
  | some (name, v) => surfText s.index name v ++ ['\n']

/-- serpent_format.py 79-100 `write_input`, 130-133 `write_surface_block`, 205-246 `write_source_block` (materials are never written: `self.dummyMat and False`) -/
def writeInput (r k : Nat) (i : Input) : M (List Char) :=
  match writeCells i r k i.cells with
  | .error e => .error e
  | .ok cells =>
    .ok (header i ++ T "% --- CELL DEFINITIONS \n" ++ cells ++ T " \n" ++ T "% --- SURFACE DEFINITIONS \n" ++ i.surfaces.flatMap writeSurface ++ T " \n"
      ++ T "\nset nps 1e6\nset bc 1")

end Geouned.SerpFile
