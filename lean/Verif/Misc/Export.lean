/-!
# Which files an export writes

Model of `write_geometry` (`src/geouned/GEOUNED/write/write_files.py` 9-150): the files opened for writing, in order, and how the
call ends. `fails` tells which of the writers raises while it writes its file (after having opened it); `sphere` tells whether the
registry holds a sphere (`Surfaces["Sph"][-1]`, 56, 99 and 127, evaluated only when `voidGen` is set). The contents are not
part of this model (see the cards, definitions and labels elsewhere).
-/
namespace Geouned.Export

inductive Err where
  | valueError
  | indexError
  | writer (file : String)
  deriving DecidableEq, Repr

/-- the file system effects and the way the call ends -/
structure Res where
  files : List String
  exc : Option Err
  deriving DecidableEq, Repr

/-- 29 -/
def supported : List String := ["mcnp", "openmc_xml", "openmc_py", "serpent", "phits"]

structure Args where
  name : String
  formats : List String
  comments : Bool
  summary : Bool
  voidGen : Bool
  sphere : Bool

/-- open a file and write it -/
def put (fails : String → Bool) (f : String) (r : Res) : Res :=
  match r.exc with
  | some _ => r
  | none => ⟨r.files ++ [f], if fails f then some (.writer f) else none⟩

/-- `Surfaces["Sph"][-1]` if `voidGen` -/
def outSphere (a : Args) (r : Res) : Res :=
  match r.exc with
  | some _ => r
  | none => if a.voidGen && !a.sphere then ⟨r.files, some .indexError⟩ else r

/-- run a step if the condition holds -/
def step (c : Bool) (f : Res → Res) (r : Res) : Res := if c then f r else r

/-- 38-150, after the check of the formats -/
def writeAll (fails : String → Bool) (a : Args) : Res :=
  let r := step a.comments (put fails (a.name ++ "_comments.txt")) ⟨[], none⟩
  let r := step a.summary (put fails (a.name ++ "_summary.txt")) r
  let r := step (a.formats.contains "mcnp") (fun r => put fails (a.name ++ ".mcnp") (outSphere a r)) r
  let r := step (a.formats.contains "openmc_xml") (put fails (a.name ++ ".xml")) r
  let r := step (a.formats.contains "openmc_py") (put fails (a.name ++ ".py")) r
  let r := step (a.formats.contains "serpent") (fun r => put fails (a.name ++ ".serp") (outSphere a r)) r
  step (a.formats.contains "phits") (fun r => put fails (a.name ++ ".inp") (outSphere a r)) r

/-- 9-150 `write_geometry`; 30-33 is the check -/
def writeGeometry (fails : String → Bool) (a : Args) : Res :=
  if a.formats.all supported.contains then writeAll fails a else ⟨[], some .valueError⟩

end Geouned.Export
