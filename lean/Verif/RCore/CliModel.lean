import Verif.RCore.CliSpec
/-!
# Model of the tool `geouned_csgtocad`

`src/geouned/GEOReverse/scripts/geouned_csgtocad.py` 26-51 and the signatures of the methods it calls (`GEOReverse/core.py` 33, 56, 76, 206) with the check of the format (43-50). Whether the called
method returns is a parameter. Left out: the existence of the file (28-29); an argument of a wrong type is refused at once (in the code a string given for a list is refused when a cell is compared with
it); a list that is given keeps its numbers that are not negative, as no cell has a negative number.
-/
namespace Geouned.RCli
open Geouned.Rev

inductive CliErr where
  | keyError
  | typeError
  | valueError
  | raised
  deriving DecidableEq, Repr

/-- the call `f(**section)`: a `TypeError` for anything but a dictionary whose keys are all parameters of `f` -/
def kwargs (params : List String) : Sect → Except CliErr (String → Option Val)
  | .junk => .error .typeError
  | .dict kw => if kw.all (fun p => params.contains p.1) then .ok (fun k => kw.lookup k) else .error .typeError

/-- core.py 33-50: both arguments are needed; any format but the two is a `ValueError` -/
def readStep (s : Sect) : Except CliErr Act :=
  match kwargs ["input_filename", "csg_format"] s with
  | .error e => .error e
  | .ok a =>
    match a "input_filename", a "csg_format" with
    | some (.str i), some (.str f) => if f = "mcnp" ∨ f = "openmc_xml" then .ok (.read i f) else .error .valueError
    | some _, some _ => .error .valueError
    | _, _ => .error .typeError

/-- the parameter `type`: "all" if it is not given; what is no string is in no list of strings, and taken as "all" (64-68) -/
def typeArg : Option Val → String
  | none => "all"
  | some (.str s) => s
  | some _ => "all"

/-- the parameter `cells` or `materials`: a list or `None` -/
def listArg : Option Val → Except CliErr (Option (List Int))
  | none => .ok none
  | some .null => .ok none
  | some (.list l) => .ok (some l)
  | some _ => .error .typeError

/-- core.py 56 `cell_filter` -/
def cellStep (s : Sect) : Except CliErr Act :=
  match kwargs ["type", "cells"] s with
  | .error e => .error e
  | .ok a =>
    match listArg (a "cells") with
    | .error e => .error e
    | .ok l => .ok (.filter (.cells (typeArg (a "type")) (l.map (·.filterMap Int.toNat?))))

/-- core.py 76 `material_filter` -/
def matStep (s : Sect) : Except CliErr Act :=
  match kwargs ["type", "materials"] s with
  | .error e => .error e
  | .ok a =>
    match listArg (a "materials") with
    | .error e => .error e
    | .ok l => .ok (.filter (.mats (typeArg (a "type")) l))

/-- core.py 206 `export_cad` -/
def writeStep (s : Sect) : Except CliErr Act :=
  match kwargs ["output_filename"] s with
  | .error e => .error e
  | .ok a =>
    match a "output_filename" with
    | none => .ok (.write "")
    | some (.str n) => .ok (.write n)
    | some _ => .error .typeError

/-- 34 `geo = CadToCsg`: `config["read_csg"]`, a `KeyError` without it -/
def readPart (f : File) : Except CliErr Act :=
  match f.lookup "read_csg" with
  | none => .error .keyError
  | some s => readStep s

/-- 36-37 -/
def cellPart (f : File) : List (Except CliErr Act) :=
  match f.lookup "cell_filter" with
  | none => []
  | some s => [cellStep s]

/-- 38-39 -/
def matPart (f : File) : List (Except CliErr Act) :=
  match f.lookup "mat_filter" with
  | none => []
  | some s => [matStep s]

/-- 43-47 -/
def writePart (f : File) : Except CliErr Act :=
  match f.lookup "export_cad" with
  | none => .ok (.write "")
  | some s => writeStep s

/-- 34-47: the statements of `main` -/
def steps (f : File) : List (Except CliErr Act) := [readPart f] ++ cellPart f ++ matPart f ++ [.ok .build] ++ [writePart f]

/-- the statements one after the other; `api done a`: the method `a` returns when called after `done` -/
def exec (api : List Act → Act → Bool) : List (Except CliErr Act) → List Act → List Act × Option CliErr
  | [], done => (done, none)
  | .error e :: _, done => (done, some e)
  | .ok a :: l, done => if api done a then exec api l (done ++ [a]) else (done, some .raised)

/-- 26-47 `main` -/
def main (api : List Act → Act → Bool) (f : File) : List Act × Option CliErr := exec api (steps f) []

end Geouned.RCli
