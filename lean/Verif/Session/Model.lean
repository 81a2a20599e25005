import Verif.PhitsFile.Model
import Verif.OmcFile.Model
import Verif.SerpFile.Model
/-!
# Model of `CadToCsg.export_csg`

`src/geouned/GEOUNED/core.py` 119-210, `write/write_files.py` (`write_geometry`) and `write/additional_files.py`. The writers are those of `McnpFile/`, `OmcFile/`, `SerpFile/` and `PhitsFile/`.

Simplifications: files are named relative to `settings.outPath`; that a file cannot be opened is not modelled. The arguments are Python values of the kinds of `Val`. The tables of surfaces of the
four writers are given (see the models of the writers); that the writers turn planes (`simplify_planes`) is the subject of C33. If an export fails the model stops: what is done to the
cells before the exception is not followed.
-/
namespace Geouned.Session

open Geouned.McnpFile (T)

/-- a Python value -/
inductive Val where
  | none
  | bool (b : Bool)
  | int (n : Int)
  | str (s : List Char)
  | strs (l : List (List Char))
  | other

/-- a value of `UCARD`. `True` and `False`, which pass `isinstance(UCARD, int)` and are written as these words, are not modelled. -/
inductive UVal where
  | none
  | int (n : Int)
  | other

/-- core.py 119-137: the arguments of `export_csg` -/
structure Args where
  title : Val
  geometryName : Val
  outFormat : Val
  volSDEF : Val
  volCARD : Val
  ucard : UVal
  dummyMat : Val
  cellCommentFile : Val
  cellSummaryFile : Val

/-- what the project (`self`) has when `export_csg` is called, besides the cells: the tables of surfaces, the settings, the last sphere of `Surfaces["Sph"]` (`none`: there is none) -/
structure Project where
  mcnpSurfs : List McnpFile.Surf
  xmlSurfs : List OmcFile.Surf
  pySurfs : List OmcFile.Surf
  serpSurfs : List SerpFile.Surf
  voidGen : Bool
  sphere : Option (Int × ℚ)
  box : ℚ × ℚ × ℚ × ℚ × ℚ × ℚ
  matFile : List Char
  voidMat : Option (Int × ℚ)
  startCell : Int
  step : List Char
  stepText : Option (List Char)
  version : List Char
  freecad : List Char
  date : List Char

/-- a file: its characters, or only a part of what should be there (the writer stopped) -/
inductive File where
  | text (s : List Char)
  | broken
  deriving DecidableEq

/-- the files by name -/
abbrev Disk := List Char → Option File

/-- the files and the cells (`self.meta_list`) -/
structure World where
  disk : Disk
  cells : List PhitsFile.Cell

/-- exceptions -/
inductive Fail where
  | type
  | value
  | fileNotFound
  | py (e : Err)
  deriving DecidableEq

/-- how a call ends; if it raises an exception: what is then on the disk -/
inductive Outcome where
  | ok (w : World)
  | fail (e : Fail) (d : Disk)

/-- one statement after the other -/
def Outcome.next (o : Outcome) (f : World → Outcome) : Outcome :=
  match o with
  | .ok w => f w
  | .fail e d => .fail e d

/-- the file `name` gets the content `x` -/
def put (d : Disk) (name : List Char) (x : File) : Disk := fun n => if n = name then some x else d n

/-! ## Additional files -/

/-- `{:>8d}` -/
def padLeft (n : Nat) (t : List Char) : List Char := List.replicate (n - t.length) ' ' ++ t

/-- additional_files.py 4-12 `comments_write` -/
def commentsText (cs : List PhitsFile.Cell) : List Char := cs.flatMap (fun c => c.comments ++ ['\n'])

/-- additional_files.py 25-57: a line of the summary; `abs(None)` raises TypeError -/
def summaryLine (f : PhitsFile.Fmt) (c : PhitsFile.Cell) : M (List Char) :=
  if c.void then .ok []
  else
    match c.id with
    | none => .ok []
    | some n =>
      if c.material = 0 then
        .ok (' ' :: padLeft 8 (Text.strInt n) ++ T "   " ++ padLeft 8 (T "0") ++ T "   " ++ List.replicate 11 ' ' ++ T "   " ++ f.e4 (c.volume * (1 / 1000)) ++ T "   " ++ c.comments ++ ['\n'])
      else
        match c.density with
        | none => .error .typeError
        | some d =>
          .ok (' ' :: padLeft 8 (Text.strInt n) ++ T "   " ++ padLeft 8 (Text.strInt c.material) ++ T "   " ++ (if |d| < 1 / 100 then f.e4 d else f.f7 d) ++ T "   "
            ++ f.e4 (c.volume * (1 / 1000)) ++ T "   " ++ c.comments ++ ['\n'])

/-- additional_files.py 24-57: the lines of the summary -/
def summaryLines (f : PhitsFile.Fmt) : List PhitsFile.Cell → M (List Char)
  | [] => .ok []
  | c :: cs =>
    match summaryLine f c with
    | .error e => .error e
    | .ok a =>
      match summaryLines f cs with
      | .error e => .error e
      | .ok b => .ok (a ++ b)

/-- additional_files.py 15-57 `summary_write` -/
def summaryText (f : PhitsFile.Fmt) (cs : List PhitsFile.Cell) : M (List Char) :=
  match summaryLines f cs with
  | .error e => .error e
  | .ok t => .ok (T "  Cell Id     Mat Id      Density       Volume     Comments\n" ++ t)

/-! ## The writers -/

/-- the arguments after the checks of core.py 165-183 -/
structure Good where
  title : List Char
  name : List Char
  volSDEF : Bool
  volCARD : Bool
  uni : Option Int
  dummyMat : Bool

/-- write_files.py 57-72: what the MCNP writer is given -/
def mcnpInput (p : Project) (g : Good) (cs : List PhitsFile.Cell) : McnpFile.Input :=
  { title := g.title, volSDEF := g.volSDEF, volCARD := g.volCARD, uni := g.uni, dummyMat := g.dummyMat, cells := cs.map (·.toCell), surfaces := p.mcnpSurfs, step := p.step,
    version := p.version, freecad := p.freecad, date := p.date, sphere := if p.voidGen then p.sphere else .none, box := p.box }

/-- openmc_format.py 18-29: what the OpenMC writer uses of a cell -/
def omcCell (c : PhitsFile.Cell) : OmcFile.Cell := ⟨c.id, c.label, c.material, c.definition, c.comments, c.matInfo⟩

/-- write_files.py 101-113: what the Serpent writer is given -/
def serpInput (p : Project) (g : Good) (cs : List PhitsFile.Cell) : SerpFile.Input :=
  { title := g.title, uni := g.uni, cells := cs.map (·.toCell), surfaces := p.serpSurfs, step := p.step, version := p.version, freecad := p.freecad, date := p.date }

/-- write_files.py 135-150: what the PHITS writer is given -/
def phitsInput (p : Project) (g : Good) (cs : List PhitsFile.Cell) : PhitsFile.Input :=
  { title := g.title, volCARD := g.volCARD, uni := g.uni, dummyMat := g.dummyMat, matFile := p.matFile, voidMat := p.voidMat, startCell := p.startCell, cells := cs, surfaces := p.mcnpSurfs,
    step := p.step, stepText := p.stepText, version := p.version, freecad := p.freecad, date := p.date }

/-- a file is opened, then written; if the writer fails a part of it stays -/
def write (name : List Char) (x : M (List Char)) (w : World) : Outcome :=
  match x with
  | .error e => .fail (.py e) (put w.disk name .broken)
  | .ok s => .ok { w with disk := put w.disk name (.text s) }

/-- write_files.py 54-57, 96-99, 127-133: `Surfaces["Sph"][-1]` raises IndexError if there is no sphere -/
def withSphere (p : Project) (w : World) (x : Outcome) : Outcome := if p.voidGen && p.sphere.isNone then .fail (.py .indexError) w.disk else x

/-- write_files.py 117-152 -/
def writePhits (f : PhitsFile.Fmt) (r k : Nat) (p : Project) (g : Good) (w : World) : Outcome :=
  match PhitsFile.writePhits f r k (phitsInput p g w.cells) with
  | .error .fileNotFound => .fail .fileNotFound (put w.disk (g.name ++ T ".inp") .broken)
  | .error (.py e) => .fail (.py e) (put w.disk (g.name ++ T ".inp") .broken)
  | .ok (s, cs) => .ok ⟨put w.disk (g.name ++ T ".inp") (.text s), cs⟩

/-- write_files.py 28 -/
def supported : List (List Char) := [T "mcnp", T "openmc_xml", T "openmc_py", T "serpent", T "phits"]

/-- write_files.py 9-152 `write_geometry` -/
def writeGeometry (f : PhitsFile.Fmt) (r k : Nat) (p : Project) (g : Good) (comments summary : Bool) (formats : List (List Char)) (w : World) : Outcome :=
  if formats.any (fun o => o ∉ supported) then .fail .value w.disk
  else
    let o := Outcome.ok w
    let o := o.next (fun w => if comments then write (g.name ++ T "_comments.txt") (.ok (commentsText w.cells)) w else .ok w)
    let o := o.next (fun w => if summary then write (g.name ++ T "_summary.txt") (summaryText f w.cells) w else .ok w)
    let o := o.next (fun w =>
      if T "mcnp" ∈ formats then withSphere p w (write (g.name ++ T ".mcnp") (McnpFile.writeInput f.toFmt r k (mcnpInput p g w.cells)) w) else .ok w)
    let o := o.next (fun w => if T "openmc_xml" ∈ formats then write (g.name ++ T ".xml") (OmcFile.writeXml r (w.cells.map omcCell) p.xmlSurfs) w else .ok w)
    let o := o.next (fun w => if T "openmc_py" ∈ formats then write (g.name ++ T ".py") (OmcFile.writePy r (w.cells.map omcCell) p.pySurfs) w else .ok w)
    let o := o.next (fun w => if T "serpent" ∈ formats then withSphere p w (write (g.name ++ T ".serp") (SerpFile.writeInput r k (serpInput p g w.cells)) w) else .ok w)
    o.next (fun w => if T "phits" ∈ formats then withSphere p w (writePhits f r k p g w) else .ok w)

/-! ## The arguments -/

/-- core.py 165-169 -/
def checkU : UVal → Except Fail (Option Int)
  | .none => .ok .none
  | .int n => if n < 0 then .error .value else .ok (some n)
  | .other => .error .type

/-- core.py 171-179 -/
def checkBool : Val → Except Fail Bool
  | .bool b => .ok b
  | _ => .error .type

/-- core.py 181-183 -/
def checkStr : Val → Except Fail (List Char)
  | .str s => .ok s
  | _ => .error .type

/-- write_files.py 29: `for out_format in outFormat`; a text is a sequence of characters; `None`, numbers cannot be iterated -/
def formatsOf : Val → Except Fail (List (List Char))
  | .strs l => .ok l
  | .str s => .ok (s.map (fun c => [c]))
  | _ => .error .type

/-- the checks of core.py 165-183 in order; then `write_geometry` begins with the formats -/
def check (a : Args) : Except Fail (Good × Bool × Bool × List (List Char)) := do
  let u ← checkU a.ucard
  let vs ← checkBool a.volSDEF
  let vc ← checkBool a.volCARD
  let dm ← checkBool a.dummyMat
  let cc ← checkBool a.cellCommentFile
  let su ← checkBool a.cellSummaryFile
  let t ← checkStr a.title
  let n ← checkStr a.geometryName
  let o ← formatsOf a.outFormat
  return (⟨t, n, vs, vc, u, dm⟩, cc, su, o)

/-- core.py 119-210 `export_csg` -/
def exportCsg (f : PhitsFile.Fmt) (r k : Nat) (p : Project) (a : Args) (w : World) : Outcome :=
  match check a with
  | .error e => .fail e w.disk
  | .ok (g, cc, su, o) => writeGeometry f r k p g cc su o w

/-- several exports one after the other -/
def exports (f : PhitsFile.Fmt) (r k : Nat) (p : Project) : List Args → World → Outcome
  | [], w => .ok w
  | a :: as, w => (exportCsg f r k p a w).next (exports f r k p as)

end Geouned.Session
