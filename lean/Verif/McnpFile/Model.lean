import Verif.Text.Char
import Mathlib.Data.Rat.Defs
import Mathlib.Algebra.Order.Ring.Rat
import Mathlib.Data.List.Sort
/-!
# Model of the MCNP input file that GEOUNED writes

`src/geouned/GEOUNED/write/mcnp_format.py` (`McnpInput`), and the texts of `mcnp_surface` (`write/functions.py` 241-488). The result is the list of characters of
the file.

Simplifications: the formatting of numbers that are not integers is a parameter (`Fmt`; for the numbers of surfaces the formatted texts are given); the surfaces
are the list `self.Surfaces`, already sorted and with the kind of card chosen (`Verif/Geom/Card.lean`), the cells are those after `simplify_planes` (C33);
`str.strip` is modelled for ASCII white space. The date, the versions and the name of the STEP file are given texts.
-/
namespace Geouned.McnpFile

/-- text of a literal -/
abbrev T (s : String) : List Char := s.toList

/-- Python's formatting of floats: `{:11.4e}`, `{:11.7f}`, `{:e}`, `{:13.7e}`; `weight r` is `{:13.7e}` of `math.pi * r * r * 1e-2` -/
structure Fmt where
  e4 : ℚ → List Char
  f7 : ℚ → List Char
  e : ℚ → List Char
  e7 : ℚ → List Char
  weight : ℚ → List Char

/-- utils/functions.py 43-95 `GeounedSolid`: the attributes that are written. `id` is `__id__` (`None`: a comment between cells); `solid` is
`CellType == "solid"`. -/
structure Cell where
  id : Option Int
  label : Int
  material : Int
  density : Option ℚ
  definition : Seq
  volume : ℚ
  void : Bool
  solid : Bool
  comments : List Char
  matInfo : Option (List Char)
  fill : Option Int
  transform : Option Int

/-- a surface: its number, and the name and the (formatted) numbers of its card; `none` if there is no card for it -/
structure Surf where
  index : Int
  card : Option (List Char × List (List Char))

/-- mcnp_format.py 21-61: what the writer is given -/
structure Input where
  title : List Char
  volSDEF : Bool
  volCARD : Bool
  uni : Option Int
  dummyMat : Bool
  cells : List Cell
  surfaces : List Surf
  step : List Char
  version : List Char
  freecad : List Char
  date : List Char
  /-- `data[0]` of `set_sdef`: number and radius of the sphere -/
  sphere : Option (Int × ℚ)
  /-- `data[1]` of `set_sdef` -/
  box : ℚ × ℚ × ℚ × ℚ × ℚ × ℚ

/-- `{:<nd}` -/
def padRight (n : Nat) (t : List Char) : List Char := t ++ List.replicate (n - t.length) ' '

/-- `{'':11s}` -/
def tab11 : List Char := List.replicate 11 ' '

/-! ## The header -/

/-- 108-134 `write_header` -/
def header (i : Input) : List Char :=
  let cells := i.cells.filter (fun c => c.id.isSome)
  i.title ++ T "\nC   ______ _______  _____      _     _ __   _ _______ ______  \nC  |  ____ |______ |     | ___ |     | | \\  | |______ |     \\ \nC  |_____| |______ |_____|     |_____| |  \\_| |______ |_____/\nC Version : "
    ++ i.version ++ T "\nC FreeCAD Version : " ++ i.freecad ++ T " \n"
    ++ T "C\nC *************************************************************\nC Original Step file : " ++ i.step
    ++ T "\nC\nC Creation Date : " ++ i.date
    ++ T "\nC Solid Cells   : " ++ Text.strInt (cells.filter (fun c => !c.void)).length
    ++ T "\nC Total Cells   : " ++ Text.strInt cells.length
    ++ T "\nC Surfaces      : " ++ Text.strInt i.surfaces.length
    ++ T "\nC Materials     : " ++ Text.strInt ((cells.map (·.material)).filter (· ≠ 0)).dedup.length
    ++ T "\nC\nC **************************************************************\n"

/-! ## The cells -/

/-- 289-298 `comment_line`; `split("\n")` never gives an empty list -/
def commentLine (s : List Char) : List Char :=
  T "C \n" ++ ((Wrap.linesOf (Wrap.strip s)).filter (fun c => c ≠ [])).flatMap (fun c => T "C " ++ c ++ ['\n']) ++ T "C \n"

/-- 276-280, 283-286: the lines of a comment -/
def dollarLines (s : List Char) : List Char := ((Wrap.linesOf s).filter (fun x => x ≠ [])).flatMap (fun x => tab11 ++ '$' :: x ++ ['\n'])

/-- 273-287 `comment_format` -/
def commentFormat (c : Cell) : List Char :=
  (match c.matInfo with
    | none => []
    | some m => if m = [] then [] else dollarLines m)
  ++ (if Wrap.strip c.comments = [] then [] else dollarLines (Wrap.strip c.comments))

/-- 247-252: the line with the volume -/
def volumeFormat (f : Fmt) (i : Input) (c : Cell) : List Char :=
  if i.volCARD then
    if c.void then tab11 ++ T "Vol=1.0\n" else tab11 ++ T "Vol=" ++ f.e (c.volume * (1 / 1000)) ++ ['\n']
  else []

/-- 255-259: importance for one particle -/
def importance (c : Cell) (p : Char) : List Char :=
  if c.matInfo = some (T "Graveyard") then T "imp:" ++ p :: T "=0     " else T "imp:" ++ p :: T "=1.0   "

/-- 264-267: fill and transformation -/
def fillFormat (c : Cell) : List Char :=
  match c.fill, c.transform with
  | none, _ => []
  | some n, none => T "fill=" ++ Text.strInt n ++ T "  "
  | some n, some t => T "fill=" ++ Text.strInt n ++ T "  " ++ '(' :: Text.strInt t ++ T ")  "

/-- 261-267: universe, fill and transformation -/
def universeFormat (i : Input) (c : Cell) : List Char :=
  (match i.uni with | none => [] | some u => T "U=" ++ Text.strInt u ++ T "  ") ++ fillFormat c

/-- 245-271 `option_format` -/
def optionFormat (f : Fmt) (i : Input) (c : Cell) : List Char :=
  volumeFormat f i c ++ tab11 ++ importance c 'n' ++ importance c 'p' ++ universeFormat i c ++ ['\n']

/-- 158-165: the beginning of a cell card; `abs(None)` raises TypeError -/
def cellHeader (f : Fmt) (c : Cell) : M (List Char) :=
  if c.material = 0 then .ok (padRight 5 (Text.strInt c.label) ++ ' ' :: padRight 5 (T "0") ++ T "  ")
  else
    match c.density with
    | none => .error .typeError
    | some d =>
      .ok (padRight 5 (Text.strInt c.label) ++ ' ' :: padRight 5 (Text.strInt c.material) ++ ' ' ::
        (if |d| < 1 / 100 then f.e4 d else f.f7 d) ++ [' '])

/-- 147-174 `write_cells`; `r`: recursion depth allowed, `k`: rounds of `wrap_line` allowed -/
def writeCell (f : Fmt) (i : Input) (r k : Nat) (c : Cell) : M (List Char) :=
  match c.id with
  | none => .ok (commentLine c.comments)
  | some _ =>
    match cellHeader f c with
    | .error e => .error e
    | .ok h =>
      match Text.cellDef 80 11 h.length r k c.definition with
      | .error e => .error e
      | .ok d => .ok (h ++ d ++ '\n' :: optionFormat f i c ++ commentFormat c)

/-- 136-140 `write_cell_block` -/
def writeCells (f : Fmt) (i : Input) (r k : Nat) : List Cell → M (List Char)
  | [] => .ok []
  | c :: cs =>
    match writeCell f i r k c with
    | .error e => .error e
    | .ok a =>
      match writeCells f i r k cs with
      | .error e => .error e
      | .ok b => .ok (a ++ b)

/-! ## The surfaces -/

/-- texts with one blank between them -/
def joinB : List (List Char) → List Char
  | [] => []
  | [a] => a
  | a :: b :: l => a ++ ' ' :: joinB (b :: l)

/-- write/functions.py 241-487: the text of a card, before `trim`. Planes by three points (250-252) and general quadrics (309-312, 405-408) have three numbers in a line, tori
(447-485) as well, the other cards are one line. -/
def surfText (n : Int) (name : List Char) (v : List (List Char)) : List Char :=
  let h := padRight 6 (Text.strInt n) ++ ' ' :: name
  if name = T "P" then
    if v.length = 9 then h ++ T "   " ++ joinB (v.take 3) ++ T " \n           " ++ joinB ((v.drop 3).take 3) ++ T "\n           " ++ joinB (v.drop 6)
    else h ++ T "   " ++ joinB v
  else if name = T "GQ" then
    h ++ T "  " ++ joinB (v.take 3) ++ T "\n          " ++ joinB ((v.drop 3).take 3) ++ T "\n          " ++ joinB ((v.drop 6).take 3)
      ++ T "\n          " ++ joinB (v.drop 9) ++ T " "
  else if name = T "TX" ∨ name = T "TY" ∨ name = T "TZ" then
    h ++ T "  " ++ joinB (v.take 3) ++ T "\n           " ++ joinB (v.drop 3)
  else h ++ T "  " ++ joinB v

/-- mcnp_format.py 176-192 `write_surfaces` -/
def writeSurface (s : Surf) : M (List Char) :=
  match s.card with
  | none => .ok []
  | some (name, v) =>
    match Wrap.trim 80 (surfText s.index name v) with
    | .error e => .error e
    | .ok t => if t = [] then .ok [] else .ok (t ++ ['\n'])

/-- 142-145 `write_surface_block` -/
def writeSurfaces : List Surf → M (List Char)
  | [] => .ok []
  | s :: ss =>
    match writeSurface s with
    | .error e => .error e
    | .ok a =>
      match writeSurfaces ss with
      | .error e => .error e
      | .ok b => .ok (a ++ b)

/-! ## Materials and source -/

/-- `list(set(...)).sort()` of the materials that `write_cells` has met (161) -/
def materials (cs : List Cell) : List Int :=
  (((cs.filter (fun c => c.id.isSome)).map (·.material)).filter (· ≠ 0)).dedup.insertionSort (· ≤ ·)

/-- 194-207 `write_mat_block` -/
def matBlock (i : Input) : List Char :=
  let mode := T "MODE P\nVOID \nNPS 1e6\n"
  if i.dummyMat then (materials i.cells).flatMap (fun m => 'M' :: padRight 6 (Text.strInt m) ++ T " 1001 1\n") ++ T "C \n" ++ mode
  else mode

/-- 65-73: `SDEF_sphere` -/
def sdefSphere (f : Fmt) (n : Int) (r : ℚ) : List (List Char) :=
  [T "SDEF PAR=P NRM=-1 SUR=" ++ Text.strInt n ++ T " WGT=" ++ f.weight r ++ T " DIR=d1\n", T "SI1 0 1\n", T "SP1 -21 1\n"]

/-- 75-84: `SDEF_box` -/
def sdefBox (f : Fmt) : ℚ × ℚ × ℚ × ℚ × ℚ × ℚ → List (List Char)
  | (x1, x2, y1, y2, z1, z2) =>
    [T "SDEF PAR=P X=D1 Y=D2 Z=D3 \n",
     T "SI1 " ++ f.e7 (x1 * (1 / 10)) ++ ' ' :: f.e7 (x2 * (1 / 10)) ++ T " \n",
     T "SI2 " ++ f.e7 (y1 * (1 / 10)) ++ ' ' :: f.e7 (y2 * (1 / 10)) ++ T " \n",
     T "SI3 " ++ f.e7 (z1 * (1 / 10)) ++ ' ' :: f.e7 (z2 * (1 / 10)) ++ T " \n",
     T "SP1 0  1 \n", T "SP2 0  1 \n", T "SP3 0  1 \n"]

/-- 371-380 `get_solid_cell_volume`: the cells -/
def tallied (cs : List Cell) : List Cell := cs.filter (fun c => c.solid && c.id.isSome)

/-- 209-240 `write_source_block` -/
def sourceBlock (f : Fmt) (i : Input) : List Char :=
  match i.sphere with
  | none => []
  | some (n, r) =>
    T "PRDMP 2J -1\n" ++
    (if i.volSDEF then
      (sdefBox f i.box).flatMap (fun l => T "C " ++ l) ++ (sdefSphere f n r).flatten
        ++ ((Wrap.CardLine.new (T "F4:P ") 80 6).extend ((tallied i.cells).map (fun c => Text.strInt c.label))).str ++ ['\n']
        ++ (if i.volCARD then T "C Cell volume normalization is set in cell cards VOL\n"
            else ((Wrap.CardLine.new (T "SD4  ") 80 6).extend ((tallied i.cells).map (fun c => f.e7 (c.volume * (1 / 1000))))).str)
    else (sdefSphere f n r).flatMap (fun l => T "C " ++ l) ++ (sdefBox f i.box).flatten)

/-- 86-106 `write_input`: the characters of the file -/
def writeInput (f : Fmt) (r k : Nat) (i : Input) : M (List Char) :=
  match writeCells f i r k i.cells with
  | .error e => .error e
  | .ok cells =>
    match writeSurfaces i.surfaces with
    | .error e => .error e
    | .ok surfs =>
      .ok (header i ++ cells
        ++ T " \nC ##########################################################\nC                  SURFACE DEFINITION\nC ##########################################################\n"
        ++ surfs ++ T " \n" ++ matBlock i ++ sourceBlock f i)

end Geouned.McnpFile
