import Verif.Text.Char
import Mathlib.Data.List.Sort
/-!
# Model of the OpenMC files that GEOUNED writes

`src/geouned/GEOUNED/write/openmc_format.py` (`OpenmcInput`): `write_xml` (31-92) and `write_py` (94-209); the texts of the regions are those of
`write_sequence_omc_xml` and `write_sequence_omc_py` (`write/functions.py` 196-238). The result is the list of characters of the file.

Simplifications: the kind and the (formatted) coefficients of a surface, as `open_mc_surface` gives them (`Verif/Geom/Card.lean`), are given texts; the surfaces are the list `self.Surfaces`, already
sorted; the cells are those after `simplify_planes` (C33).
-/
namespace Geouned.OmcFile

/-- text of a literal -/
abbrev T (s : String) : List Char := s.toList

/-- utils/functions.py 43-95 `GeounedSolid`: the attributes that are written. `id` is `__id__` (`None`: a comment between cells). -/
structure Cell where
  id : Option Int
  label : Int
  material : Int
  definition : Seq
  comments : List Char
  matInfo : Option (List Char)

/-- a surface: its number, and the two texts of `open_mc_surface` -/
structure Surf where
  index : Int
  ty : List Char
  coeffs : List Char

/-- the characters at which `str.splitlines` breaks -/
def isBreak (c : Char) : Bool := c.toNat ∈ [10, 11, 12, 13, 28, 29, 30, 133, 8232, 8233]

/-- `str.splitlines()`; `cur` is the line read so far -/
def splitLines (cur : List Char) : List Char → List (List Char)
  | [] => if cur = [] then [] else [cur]
  | '\r' :: '\n' :: s => cur :: splitLines [] s
  | c :: s => if isBreak c then cur :: splitLines [] s else splitLines (cur ++ [c]) s

/-- openmc_format.py 63, 190: `". ".join(cell.Comments.splitlines())` -/
def cellName (c : Cell) : List Char := Text.join (T ". ") (splitLines [] c.comments)

/-- write/functions.py 196-214 `write_sequence_omc_xml`, on characters -/
def xmlChars : Text.Style Char := ⟨Text.strInt, fun | .and => [' '] | .or => [' ', '|', ' '], '(', ')'⟩

/-- write/functions.py 217-238 `write_sequence_omc_py`, on characters: 219 `strSurf` -/
def pyChars : Text.Style Char :=
  ⟨fun n => if n < 0 then '-' :: 'S' :: Nat.toDigits 10 n.natAbs else '+' :: 'S' :: Nat.toDigits 10 n.natAbs,
    fun | .and => [' ', '&', ' '] | .or => [' ', '|', ' '], '(', ')'⟩

/-! ## XML -/

/-- openmc_format.py 67-70 -/
def xmlMaterial (c : Cell) : List Char := if c.material = 0 then T "void" else Text.strInt c.material

/-- openmc_format.py 60-79 `write_xml_cells`; `r`: recursion depth allowed -/
def xmlCell (r : Nat) (c : Cell) : M (List Char) :=
  match c.id with
  | none => .ok []
  | some _ =>
    match Text.writeSeq xmlChars r c.definition with
    | .error e => .error e
    | .ok region =>
      .ok (T "  <cell id=\"" ++ Text.strInt c.label ++ T "\" material=\"" ++ xmlMaterial c ++ T "\" name=\"" ++ cellName c ++ T "\" region=\"" ++ region
        ++ T "\" universe=\"1\"/>\n")

/-- openmc_format.py 49-51, 174-176: the cells that are written -/
def shown (cs : List Cell) : List Cell := cs.filter (fun c => c.matInfo ≠ some (T "Graveyard"))

/-- openmc_format.py 48-53 `write_xml_cell_block` -/
def xmlCells (r : Nat) : List Cell → M (List Char)
  | [] => .ok []
  | c :: cs =>
    match xmlCell r c with
    | .error e => .error e
    | .ok a =>
      match xmlCells r cs with
      | .error e => .error e
      | .ok b => .ok (a ++ b)

/-- openmc_format.py 81-92 `write_xml_surfaces` -/
def xmlSurface (boundary : Bool) (s : Surf) : List Char :=
  T "  <surface id=\"" ++ Text.strInt s.index ++ T "\" type=\"" ++ s.ty ++ T "\" coeffs=\"" ++ s.coeffs
    ++ (if boundary then T "\" boundary=\"vacuum\" />\n" else T "\" />\n")

/-- openmc_format.py 55-58 `write_xml_surface_block`; `self.Surfaces[-1]` raises IndexError if there are no surfaces -/
def xmlSurfaces (ss : List Surf) : M (List Char) :=
  match ss.getLast? with
  | none => .error .indexError
  | some s => .ok (ss.dropLast.flatMap (xmlSurface false) ++ xmlSurface true s)

/-- openmc_format.py 31-46 `write_xml` -/
def writeXml (r : Nat) (cs : List Cell) (ss : List Surf) : M (List Char) :=
  match xmlCells r (shown cs) with
  | .error e => .error e
  | .ok cells =>
    match xmlSurfaces ss with
    | .error e => .error e
    | .ok surfs => .ok (T "<?xml version='1.0' encoding='UTF-8'?>\n<geometry>\n" ++ cells ++ T " \n" ++ surfs ++ T "</geometry>\n")

/-! ## Python -/

/-- openmc_format.py 98-100, 134: `sorted(self.Materials)` -/
def materials (cs : List Cell) : List Int := ((cs.map (·.material)).filter (· ≠ 0)).dedup.insertionSort (· ≤ ·)

/-- openmc_format.py 133-143 `write_py_materials` -/
def pyMaterials (ms : List Int) : List Char :=
  ms.flatMap (fun m => 'M' :: Text.strInt m ++ T " = openmc.Material(name='M" ++ Text.strInt m ++ T "')\n")
    ++ T "materials = openmc.Materials([" ++ Text.join (T ", ") (ms.map (fun m => 'M' :: Text.strInt m)) ++ T "])\nmaterials.export_to_xml()\n"

/-- openmc_format.py 151-169 `write_py_surfaces` -/
def pySurface (boundary : Bool) (s : Surf) : List Char :=
  'S' :: Text.strInt s.index ++ T " = openmc." ++ s.ty ++ '(' :: s.coeffs ++ (if boundary then T ", boundary_type=\"vacuum\")\n" else T ")\n")

/-- openmc_format.py 145-149 `write_py_surface_block` -/
def pySurfaces (ss : List Surf) : M (List Char) :=
  match ss.getLast? with
  | none => .error .indexError
  | some s => .ok (ss.dropLast.flatMap (pySurface false) ++ pySurface true s)

/-- openmc_format.py 187-209 `write_py_cells` -/
def pyCell (r : Nat) (c : Cell) : M (List Char) :=
  match c.id with
  | none => .ok []
  | some _ =>
    match Text.writeSeq pyChars r c.definition with
    | .error e => .error e
    | .ok region =>
      .ok ('C' :: Text.strInt c.label ++ T " = openmc.Cell(name=\"" ++ cellName c ++ T "\""
        ++ (if c.material = 0 then [] else T ", fill=M" ++ Text.strInt c.material) ++ T ", region=" ++ region ++ T ")\n")

/-- openmc_format.py 171-177: the loop of `write_py_cell_block` -/
def pyCells (r : Nat) : List Cell → M (List Char)
  | [] => .ok []
  | c :: cs =>
    match pyCell r c with
    | .error e => .error e
    | .ok a =>
      match pyCells r cs with
      | .error e => .error e
      | .ok b => .ok (a ++ b)

/-- openmc_format.py 178-185: `cellNames` and the geometry -/
def pyGeometry (cs : List Cell) : List Char :=
  T "\ngeometry = openmc.Geometry([" ++ Text.join (T ", ") ((cs.filter (fun c => c.id.isSome)).map (fun c => 'C' :: Text.strInt c.label)) ++ T "])\ngeometry.export_to_xml()\n"

/-- openmc_format.py 119-131 `write_py_header` -/
def pyHeader : List Char :=
  T "# openMC geometry script generated by GEOUNED\nimport openmc\n\n###############################################################################\n# Define problem geometry\n###############################################################################\n\n"

/-- openmc_format.py 94-117 `write_py` -/
def writePy (r : Nat) (cs : List Cell) (ss : List Surf) : M (List Char) :=
  match pySurfaces ss with
  | .error e => .error e
  | .ok surfs =>
    match pyCells r (shown cs) with
    | .error e => .error e
    | .ok cells =>
      .ok (pyHeader ++ (if materials cs = [] then [] else T "# Materials setup\n" ++ pyMaterials (materials cs)) ++ T "\n# Surface setup\n" ++ surfs
        ++ T "\n# Cell definition \n" ++ cells ++ pyGeometry (shown cs))

end Geouned.OmcFile
