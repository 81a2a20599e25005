import Verif.McnpFile.Model
/-!
# Model of the PHITS input file that GEOUNED writes

`src/geouned/GEOUNED/write/phits_format.py` (`PhitsInput`). The result is the list of characters of the file, and the cells as the writer leaves them: it changes
`MatInfo`, `Comments` and `Definition` of the cells it is given (`GEOUNED.meta_list`).

Simplifications: as in `Verif/McnpFile/Model.lean` (formatting of floats is a parameter; the surfaces come sorted, with the kind of card chosen; the cells are those after
`simplify_planes`). The texts of `phits_surface` (write/functions.py 863-1110) are those of `mcnp_surface`. The STEP file is the text that `open(self.step_filename)` gives
(`none`: there is no such file).
-/
namespace Geouned.PhitsFile

open Geouned.McnpFile (T padRight tab11 Surf)

/-- Python's formatting of floats; `str` is `"{}".format(x)` -/
structure Fmt extends McnpFile.Fmt where
  str : ℚ → List Char

/-- utils/functions.py 43-95 `GeounedSolid`: also `EnclosureID` is used -/
structure Cell extends McnpFile.Cell where
  enclosure : Option Int

/-- phits_format.py 35-79: what the writer is given; `voidMat` is `none` for `[]` -/
structure Input where
  title : List Char
  volCARD : Bool
  uni : Option Int
  dummyMat : Bool
  matFile : List Char
  voidMat : Option (Int × ℚ)
  startCell : Int
  cells : List Cell
  surfaces : List Surf
  step : List Char
  stepText : Option (List Char)
  version : List Char
  freecad : List Char
  date : List Char

/-- 502-515: the cells that are counted (`__cells__`) -/
def counted (i : Input) : List Cell := i.cells.filter (fun c => c.id.isSome)

/-- 517-518 `__solidCells__` -/
def solidCount (i : Input) : Int := ((counted i).filter (fun c => !c.void)).length

/-- 285, 404: `startVoidIndex` -/
def startVoid (i : Input) : Int := solidCount i + i.startCell

/-- 286, 405: `eliminated_endVoidIndex` -/
def endVoid (i : Input) : Int := (counted i).length + i.startCell - 3

/-! ## The header -/

/-- 144-173 `write_phits_header` (`surfs` is `len(self.Surfaces)`) -/
def header (i : Input) : List Char :=
  T "$ " ++ i.title ++ T "\n$   ______ _______  _____      _     _ __   _ _______ ______  \n$  |  ____ |______ |     | ___ |     | | \\  | |______ |     \\ \n$  |_____| |______ |_____|     |_____| |  \\_| |______ |_____/\n$ Version : "
    ++ i.version ++ T "\n$ FreeCAD Version : " ++ i.freecad ++ T " \n$ PHITSFormat Version :  0.0.2.3     06/03/2024\n"
    ++ T "$\n$ *************************************************************\n$ Original Step file : " ++ i.step
    ++ T "\n$\n$ Creation Date : " ++ i.date
    ++ T "\n$ Solid Cells   : " ++ Text.strInt (solidCount i)
    ++ T "\n$ Total Cells   : " ++ Text.strInt (counted i).length
    ++ T "\n$ Surfaces      : " ++ Text.strInt i.surfaces.length
    ++ T "\n$ Materials     : " ++ Text.strInt (((counted i).map (·.material)).filter (· ≠ 0)).dedup.length
    ++ T "\n$\n$ **************************************************************\n\n\n"

/-! ## Labels of the STEP file -/

/-- `[0-9]+_`: some digits, then `_`; what follows -/
def digitsThen : List Char → Option (List Char)
  | [] => none
  | c :: s =>
    if c.isDigit then
      match s with
      | '_' :: r => some r
      | _ => digitsThen s
    else none

/-- does `word[0-9]+_[0-9]+_` match at the beginning? -/
def labelAt (word s : List Char) : Bool :=
  if word.isPrefixOf s then
    match digitsThen (s.drop word.length) with
    | none => false
    | some r => (digitsThen r).isSome
  else false

/-- `re.search("word(?P<a>[0-9]+)_(?P<b>[0-9]+)_", s)` -/
def hasLabel (word s : List Char) : Bool := s.tails.any (labelAt word)

/-- 190-199 `step_filename_label_chk`; `none`: `open` raises FileNotFoundError -/
def unified (i : Input) : Option Bool :=
  match i.stepText with
  | none => none
  | some s => some (!hasLabel (T "enclosure") s && !hasLabel (T "envelope") s)

/-! ## The cells -/

/-- 491-500 `comment_line` -/
def commentLine (s : List Char) : List Char :=
  T "$ \n" ++ ((Wrap.linesOf (Wrap.strip s)).filter (fun c => c ≠ [])).flatMap (fun c => T "$ " ++ c ++ ['\n']) ++ T "$ \n"

/-- 461-473 `option_format` -/
def optionFormat (f : Fmt) (i : Input) (c : Cell) : List Char :=
  (if i.volCARD then
    if c.void then '$' :: tab11 ++ T "Vol=1.0 cm3\n" else '$' :: tab11 ++ T "Vol=" ++ f.e (c.volume * (1 / 1000)) ++ T " cm3\n"
   else [])
  ++ (match i.uni with | none => [] | some u => tab11 ++ T "U=" ++ Text.strInt u ++ ['\n'])

/-- 475-489 `comment_format`: as in mcnp_format.py 273-287 -/
def commentFormat (c : Cell) : List Char := McnpFile.commentFormat c.toCell

/-- `"{:<5d} {:<5d}  ".format(index, m)` -/
def plainHead (label m : Int) : List Char := padRight 5 (Text.strInt label) ++ ' ' :: padRight 5 (Text.strInt m) ++ T "  "

/-- 226-229, 240-243, 302-305, 342-345: number, material, density -/
def denseHead (f : Fmt) (label m : Int) (d : ℚ) : List Char :=
  padRight 5 (Text.strInt label) ++ ' ' :: padRight 5 (Text.strInt m) ++ ' ' :: (if |d| < 1 / 100 then f.e4 d else f.f7 d) ++ [' ']

/-- 238, 340: the density is a constant `c1`, ... that the user has to set -/
def constHead (label m : Int) : List Char :=
  padRight 5 (Text.strInt label) ++ ' ' :: padRight 5 (Text.strInt m) ++ ' ' :: 'c' :: padRight 5 (Text.strInt m) ++ [' ']

/-- 236-243, 338-345: header of a cell with a material; `abs(None)` raises TypeError -/
def matHead (f : Fmt) (i : Input) (c : Cell) : M (List Char) :=
  if i.matFile = [] ∧ c.enclosure ≠ some 0 then .ok (constHead c.label c.material)
  else
    match c.density with
    | none => .error .typeError
    | some d => .ok (denseHead f c.label c.material d)

/-- 224-231, 300-308: header of the inner void -/
def voidHead (f : Fmt) (i : Input) (c : Cell) : List Char :=
  match i.voidMat with
  | none => plainHead c.label 0
  | some (m, d) => denseHead f c.label m d

/-- what is added to `self.Materials` there -/
def voidAdds (i : Input) : List Int :=
  match i.voidMat with
  | none => []
  | some (m, _) => [m]

/-- what a cell gives: its text, the cell as it is afterwards, the materials that are added to `self.Materials` -/
structure Out where
  text : List Char
  cell : Cell
  mats : List Int

/-- 245-252, 347-354: the card; `r`: recursion depth allowed, `k`: rounds of `wrap_line` allowed -/
def putCell (f : Fmt) (i : Input) (r k : Nat) (h : List Char) (c : Cell) (mats : List Int) : M Out :=
  match Text.cellDef 80 11 h.length r k c.definition with
  | .error e => .error e
  | .ok d => .ok ⟨h ++ d ++ '\n' :: optionFormat f i c ++ commentFormat c, c, mats⟩

/-- 206-253 `write_phits_cells` -/
def writeCell (f : Fmt) (i : Input) (r k : Nat) (c : Cell) : M Out :=
  match c.id with
  | none => .ok ⟨commentLine c.comments, c, []⟩
  | some _ =>
    if c.material = 0 then
      if c.matInfo = some (T "Graveyard") then putCell f i r k (plainHead c.label (-1)) { c with matInfo := some (T "Outer void") } []
      else if c.matInfo = some (T "Graveyard_in") then putCell f i r k (voidHead f i c) { c with matInfo := some (T "Inner void") } (voidAdds i)
      else putCell f i r k (plainHead c.label 0) c []
    else
      match matHead f i c with
      | .error e => .error e
      | .ok h => putCell f i r k h c [c.material]

/-- 280-282: the definition of the inner void; slicing a bool raises TypeError -/
def innerDef : Seq → M Seq
  | .int _ => .error .attributeError
  | .boo _ _ _ => .error .typeError
  | .lst _ l es => .ok (.lst .and l (es.take 1))

/-- 284-292 `inclSolidCells` -/
def hashes (i : Input) : List Char :=
  if i.startCell = startVoid i - 1 then ' ' :: '#' :: Text.strInt i.startCell
  else (List.range (startVoid i - i.startCell).toNat).flatMap (fun (n : Nat) => ' ' :: '#' :: Text.strInt (i.startCell + n))

/-- 294-299 -/
def mergedComment (i : Input) : List Char :=
  if startVoid i = endVoid i then T "VOID CELL " ++ Text.strInt (startVoid i) ++ T " merged, so the auto-genarated void definition is eliminated\n"
  else T "VOID CELLs " ++ Text.strInt (startVoid i) ++ '-' :: Text.strInt (endVoid i) ++ T " merged, so the auto-genarated void definitions are eliminated\n"

/-- 454-459 `inner_void_def` -/
def innerText (i : Input) (r k off : Nat) (d : Seq) : M (List Char) :=
  match Text.cellDef 80 11 off r k d with
  | .error e => .error e
  | .ok t => Wrap.wrapLine 80 11 off k (t ++ hashes i)

/-- 276-316: the inner void, from which all solid cells are taken -/
def innerVoid (f : Fmt) (i : Input) (r k : Nat) (c : Cell) : M Out :=
  match innerDef c.definition with
  | .error e => .error e
  | .ok d =>
    let c' : Cell := { c with matInfo := some (T "Inner void"), definition := d, comments := mergedComment i }
    match innerText i r k (voidHead f i c).length d with
    | .error e => .error e
    | .ok t => .ok ⟨voidHead f i c ++ t ++ '\n' :: optionFormat f i c' ++ commentFormat c' ++ ['\n'], c', voidAdds i⟩

/-- 255-355 `write_phits_cells_uni_void_def` -/
def writeCellUni (f : Fmt) (i : Input) (r k : Nat) (c : Cell) : M Out :=
  match c.id with
  | none => .ok ⟨commentLine c.comments, c, []⟩
  | some _ =>
    if c.void then
      if c.matInfo = some (T "Graveyard_in") then innerVoid f i r k c
      else if c.matInfo = some (T "Graveyard") then putCell f i r k (plainHead c.label (-1)) { c with matInfo := some (T "Outer void") } []
      else .ok ⟨[], c, []⟩
    else
      match matHead f i c with
      | .error e => .error e
      | .ok h => putCell f i r k h c [c.material]

/-- 180-188: one cell after the other -/
def writeCells (f : Fmt) (i : Input) (r k : Nat) (uni : Bool) : List Cell → M (List Out)
  | [] => .ok []
  | c :: cs =>
    match (if uni then writeCellUni f i r k c else writeCell f i r k c) with
    | .error e => .error e
    | .ok a =>
      match writeCells f i r k uni cs with
      | .error e => .error e
      | .ok b => .ok (a :: b)

/-! ## Materials -/

/-- `"{}".format(cell.MatInfo)` -/
def infoText (c : Cell) : List Char :=
  match c.matInfo with
  | none => T "None"
  | some m => m

/-- 387-396: the lines for one material; `-1 * None` raises TypeError -/
def matCard (f : Fmt) (i : Input) (c : Cell) : M (List Char) :=
  let card := T " M" ++ padRight 6 (Text.strInt c.material) ++ T " H 2 O 1\n"
  if i.matFile = [] ∧ c.enclosure ≠ some 0 then
    .ok (T "$ Change dummyMat M" ++ Text.strInt c.material ++ T ", " ++ infoText c ++ T " c" ++ Text.strInt c.material ++ T " g/cm3 is assigned\n" ++ card)
  else
    match c.density with
    | none => .error .typeError
    | some d => .ok (T "$ Change dummyMat M" ++ Text.strInt c.material ++ T " to " ++ infoText c ++ T ", Density = " ++ f.str (-1 * d) ++ T "g/cm3\n" ++ card)

/-- 383-396: `mats` is `self.Materials`, `seen` is `MATID` -/
def matCards (f : Fmt) (i : Input) (mats : List Int) (seen : List Int) : List Cell → M (List Char)
  | [] => .ok []
  | c :: cs =>
    if c.material ∈ mats ∧ c.material ∉ seen then
      match matCard f i c with
      | .error e => .error e
      | .ok a =>
        match matCards f i mats (seen ++ [c.material]) cs with
        | .error e => .error e
        | .ok b => .ok (a ++ b)
    else matCards f i mats seen cs

/-- 375-398 `write_phits_source_block` -/
def matBlock (f : Fmt) (i : Input) (mats : List Int) (cs : List Cell) : M (List Char) :=
  match matCards f i mats [] cs with
  | .error e => .error e
  | .ok t => .ok (t ++ ['\n'])

/-! ## Volumes -/

/-- `{'':6s}` -/
def tab6 : List Char := List.replicate 6 ' '

/-- `f"{'':6s}{cell.label}{'':6s}1.0\n"` -/
def volOne (c : Cell) : List Char := tab6 ++ Text.strInt c.label ++ tab6 ++ T "1.0\n"

/-- `f"{'':6s}{cell.label}{'':6s}{cell.Volume * 0.001:6e}\n"` (a text of `{:e}` is never shorter than 6) -/
def volText (f : Fmt) (c : Cell) : List Char := tab6 ++ Text.strInt c.label ++ tab6 ++ f.e (c.volume * (1 / 1000)) ++ ['\n']

/-- 413-425: a line of the table, if void cells are unified -/
def volUni (f : Fmt) (i : Input) (c : Cell) : List Char :=
  if c.void ∧ startVoid i = endVoid i then
    if c.label = startVoid i then [] else volOne c
  else if c.void then
    if startVoid i ≤ c.label ∧ c.label < endVoid i + 1 then [] else volOne c
  else volText f c

/-- 427-433: a line of the table -/
def volRow (f : Fmt) (c : Cell) : List Char := if c.void then volOne c else volText f c

/-- 400-434 `write_phits_volume_block` -/
def volBlock (f : Fmt) (i : Input) (uni : Bool) (cs : List Cell) : List Char :=
  T "     reg     vol\n" ++ (cs.filter (fun c => c.id.isSome)).flatMap (fun c => if uni then volUni f i c else volRow f c)

/-! ## The file -/

/-- 87-93 -/
def cellTitle : List Char :=
  T "$\n$ ##########################################################\n$                  CELL DEFINITION\n$ ##########################################################\n$\n[CELL]\n"

/-- 99-105 -/
def surfTitle : List Char :=
  T "$\n$ ##########################################################\n$                  SURFACE DEFINITION\n$ ##########################################################\n$\n[SURFACE]\n"

/-- 111-119 -/
def matTitle : List Char :=
  T "$\n$ ##########################################################\n$                  MATERIAL DEFINITION\n$ ##########################################################\n$ All material labels present in this model are listed below\n$ Need to change the dummy material definition(H2O1) to appropriate one(s) \n$\n[MATERIAL]\n"

/-- 126-135 -/
def volTitle : List Char :=
  T "$\n$ ##########################################################\n$                  VOLUME DEFINITION\n$ ##########################################################\n$ The CAD calculated volume(s) is/are quoted for solid cell(s).\n$ Note that the auto-generated void volumes are not calculated,\n$ set all at 1.0cm3 tentatively.\n$\n[VOLUME] off\n"

/-- 121-124 -/
def matPart (f : Fmt) (i : Input) (outs : List Out) : M (List Char) :=
  if i.dummyMat then
    match matBlock f i (outs.flatMap (·.mats)) (outs.map (·.cell)) with
    | .error e => .error e
    | .ok t => .ok (matTitle ++ t ++ T " \n")
  else .ok []

/-- 137-140 -/
def volPart (f : Fmt) (i : Input) (uni : Bool) (outs : List Out) : List Char :=
  if i.volCARD then volTitle ++ volBlock f i uni (outs.map (·.cell)) ++ T " \n" else []

/-- what can go wrong -/
inductive Fail where
  | fileNotFound
  | py (e : Err)
  deriving DecidableEq, Repr

/-- 81-142 `write_phits`: the characters of the file, and the cells as they are afterwards. If something fails, the file is incomplete. -/
def writePhits (f : Fmt) (r k : Nat) (i : Input) : Except Fail (List Char × List Cell) :=
  match unified i with
  | none => .error .fileNotFound
  | some uni =>
    match writeCells f i r k uni i.cells with
    | .error e => .error (.py e)
    | .ok outs =>
      match McnpFile.writeSurfaces i.surfaces with
      | .error e => .error (.py e)
      | .ok surfs =>
        match matPart f i outs with
        | .error e => .error (.py e)
        | .ok mats =>
          .ok (header i ++ cellTitle ++ outs.flatMap (·.text) ++ T " \n" ++ surfTitle ++ surfs ++ T " \n" ++ mats ++ volPart f i uni outs, outs.map (·.cell))

end Geouned.PhitsFile
