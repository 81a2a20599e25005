import Verif.OmcFile.XmlSpec
import Verif.CellText.Model
/-!
# Model of the cards that GEOReverse reads in an OpenMC XML file

`src/geouned/GEOReverse/Modules/XMLParser.py` (all), `src/geouned/GEOReverse/Modules/XMLinput.py` 15-23 (`XmlInput.__init__`).

Simplifications: `xml.etree.ElementTree.parse` is the reader `readXml` of `XmlSpec.lean` (elements without content in a root element; no comments, single quotation marks or
character numbers). `float` is an argument `F.flt`. A card that is neither a cell nor a surface is `None` in Python.
-/
namespace Geouned.OmcFile.Read

open CellText (Arith pyInt pySplit floats)

/-- exceptions: KeyError (no such attribute), ValueError (`int`, `float`), ParseError -/
inductive Err where
  | key | value | parse
  deriving DecidableEq, Repr

/-- XMLParser.py 4-30 `CellCard`; `geom` is `geom.str` -/
structure CellCard where
  name : Int
  mat : Option Int
  u : Int
  fill : Option Int
  geom : List Char
  deriving DecidableEq

/-- XMLParser.py 33-42 `SurfCard` -/
structure SurfCard (V : Type) where
  name : Int
  stype : List Char
  scoefs : List V
  deriving DecidableEq

inductive Card (V : Type) where
  | cell (c : CellCard)
  | surface (s : SurfCard V)
  | none
  deriving DecidableEq

/-- `data[key]`, `key in data.keys()` -/
def attr (data : List (List Char × List Char)) (key : List Char) : Option (List Char) := (data.find? (fun a => a.1 = key)).map Prod.snd

def toInt (t : List Char) : Except Err Int :=
  match pyInt t with
  | .ok n => .ok n
  | .error _ => .error .value

/-- `int(data[key])` if the key is there -/
def optInt (data : List (List Char × List Char)) (key : List Char) : Except Err (Option Int) :=
  match attr data key with
  | some t => (toInt t).map some
  | none => .ok none

/-- 15-18: the material -/
def readMat (data : List (List Char × List Char)) : Except Err (Option Int) :=
  match attr data "material".toList with
  | some t => if t = "void".toList then .ok (some 0) else (toInt t).map some
  | none => .ok none

/-- 11-30 `processData` of a cell -/
def readCell (data : List (List Char × List Char)) : Except Err CellCard :=
  match attr data "id".toList with
  | none => .error .key
  | some t => do
    let name ← toInt t
    let mat ← readMat data
    let u ← optInt data "universe".toList
    let fill ← optInt data "fill".toList
    match attr data "region".toList with
    | none => .error .key
    | some g => .ok ⟨name, mat, (match u with | none => 0 | some n => if n = 1 then 0 else n), fill, g.map (fun c => if c = '|' then ':' else c)⟩

/-- 39-42 `processData` of a surface -/
def readSurf {V : Type} (F : Arith V) (data : List (List Char × List Char)) : Except Err (SurfCard V) :=
  match attr data "id".toList with
  | none => .error .key
  | some t => do
    let name ← toInt t
    match attr data "type".toList with
    | none => .error .key
    | some ty =>
      match attr data "coeffs".toList with
      | none => .error .key
      | some co =>
        match floats F (pySplit co) with
        | .ok l => .ok ⟨name, ty, l⟩
        | .error _ => .error .value

/-- 50-56 `process_card`: no value for another element -/
def processCard {V : Type} (F : Arith V) (e : Elem) : Except Err (Card V) :=
  if e.tag = "cell".toList then (readCell e.attrs).map .cell
  else if e.tag = "surface".toList then (readSurf F e.attrs).map .surface
  else .ok .none

/-- 45-47 `get_cards` -/
def getCards {V : Type} (F : Arith V) : List Elem → Except Err (List (Card V))
  | [] => .ok []
  | e :: es => do
    let c ← processCard F e
    let cs ← getCards F es
    .ok (c :: cs)

/-- XMLinput.py 15-23: the file -/
def readFile {V : Type} (F : Arith V) (s : List Char) : Except Err (List (Card V)) :=
  match readXml s with
  | none => .error .parse
  | some (_, es) => getCards F es

end Geouned.OmcFile.Read
