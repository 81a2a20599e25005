/-!
# Model of the names of the files that `CsgToCad.export_cad` writes

`src/geouned/GEOReverse/core.py` 206-240, and what it uses of `pathlib` (`PurePosixPath.name`, `suffix` of Python up to 3.13). Characters of a name are those of the Python string.
-/
namespace Geouned.RCore

/-- `pathlib`: the parts of a path between the slashes -/
def parts : List Char → List (List Char)
  | [] => [[]]
  | c :: s =>
    if c = '/' then [] :: parts s
    else
      match parts s with
      | [] => [[c]]
      | p :: ps => (c :: p) :: ps

/-- `Path(s).name`: the last part that is neither empty nor `.` (pathlib drops these), `""` if there is none -/
def pathName (s : List Char) : List Char := ((parts s).filter fun p => decide (p ≠ [] ∧ p ≠ ['.'])).getLastD []

/-- `s.rfind(".")` as the part of `s` from the last dot on, with the number of characters before it -/
def lastDot : List Char → Option (Nat × List Char)
  | [] => none
  | c :: s =>
    match lastDot s with
    | some (i, e) => some (i + 1, e)
    | none => if c = '.' then some (0, c :: s) else none

/-- `Path(s).suffix`: from the last dot of the name on, if it is neither the first nor the last character of the name -/
def suffix (s : List Char) : List Char :=
  match lastDot (pathName s) with
  | some (i, e) => if 0 < i ∧ i < (pathName s).length - 1 then e else []
  | none => []

/-- what `export_cad` writes: the label of the tree, the STEP file and the FreeCAD file -/
structure Written where
  label : List Char
  step : List Char
  fcstd : List Char
deriving DecidableEq, Repr

/-- core.py 206-240 `export_cad`; `input` is `self.input_filename`. Simplification: the making of the directory (217) and the contents of the files are left out. -/
def exportCad (input output : List Char) : Written :=
  let output := if output = [] then pathName input else output
  let fullname := pathName output
  let suf := suffix output
  let barename := if suf ≠ [] then fullname.take (fullname.length - suf.length) else fullname
  let output := if suf ≠ [] then output.take (output.length - suf.length) else output
  let suf := if suf = ".stp".toList ∨ suf = ".step".toList then suf else ".stp".toList
  ⟨barename, output ++ suf, output ++ ".FCStd".toList⟩

end Geouned.RCore
