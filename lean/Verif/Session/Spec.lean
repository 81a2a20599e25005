import Verif.Session.Model
/-!
# What an export writes (specification of C111 and C112)
-/
namespace Geouned.Session

open Geouned.McnpFile (T)

/-- the kinds of files -/
inductive Kind where
  | comments | summary | mcnp | xml | py | serpent | phits
  deriving DecidableEq

/-- the order in which they are written -/
def Kind.order : List Kind := [.comments, .summary, .mcnp, .xml, .py, .serpent, .phits]

/-- the end of the name of the file -/
def Kind.suffix : Kind → List Char
  | .comments => T "_comments.txt"
  | .summary => T "_summary.txt"
  | .mcnp => T ".mcnp"
  | .xml => T ".xml"
  | .py => T ".py"
  | .serpent => T ".serp"
  | .phits => T ".inp"

/-- the word in `outFormat` -/
def Kind.format : Kind → Option (List Char)
  | .comments => none
  | .summary => none
  | .mcnp => some (T "mcnp")
  | .xml => some (T "openmc_xml")
  | .py => some (T "openmc_py")
  | .serpent => some (T "serpent")
  | .phits => some (T "phits")

/-- the values of arguments that have the right types; `formats` are the words of `outFormat` (the empty text is an empty sequence) -/
structure Means (a : Args) (g : Good) (comments summary : Bool) (formats : List (List Char)) : Prop where
  title : a.title = .str g.title
  name : a.geometryName = .str g.name
  outFormat : a.outFormat = .strs formats ∨ (a.outFormat = .str [] ∧ formats = [])
  volSDEF : a.volSDEF = .bool g.volSDEF
  volCARD : a.volCARD = .bool g.volCARD
  ucard : (a.ucard = .none ∧ g.uni = none) ∨ ∃ n, 0 ≤ n ∧ a.ucard = .int n ∧ g.uni = some n
  dummyMat : a.dummyMat = .bool g.dummyMat
  cellCommentFile : a.cellCommentFile = .bool comments
  cellSummaryFile : a.cellSummaryFile = .bool summary

/-- every format is one of the five -/
def Known (formats : List (List Char)) : Prop := ∀ o ∈ formats, ∃ x : Kind, x.format = some o

/-- is this kind of file asked for? -/
def Wanted (comments summary : Bool) (formats : List (List Char)) : Kind → Prop
  | .comments => comments = true
  | .summary => summary = true
  | x => ∃ o, x.format = some o ∧ o ∈ formats

/-- a sphere is asked for, and there is none -/
def NoSphere (p : Project) : Prop := p.voidGen = true ∧ p.sphere = none

/-- the file of this kind, for these cells: its text or the exception -/
def content (f : PhitsFile.Fmt) (r k : Nat) (p : Project) (g : Good) (cs : List PhitsFile.Cell) : Kind → Except Fail (List Char)
  | .comments => .ok (commentsText cs)
  | .summary => (summaryText f cs).mapError .py
  | .mcnp => (McnpFile.writeInput f.toFmt r k (mcnpInput p g cs)).mapError .py
  | .xml => (OmcFile.writeXml r (cs.map omcCell) p.xmlSurfs).mapError .py
  | .py => (OmcFile.writePy r (cs.map omcCell) p.pySurfs).mapError .py
  | .serpent => (SerpFile.writeInput r k (serpInput p g cs)).mapError .py
  | .phits =>
    match PhitsFile.writePhits f r k (phitsInput p g cs) with
    | .ok (s, _) => .ok s
    | .error .fileNotFound => .error .fileNotFound
    | .error (.py e) => .error (.py e)

/-- these kinds use the sphere -/
def Kind.usesSphere : Kind → Prop
  | .mcnp | .serpent | .phits => True
  | _ => False

/-- writing a file of kind `x` ends with the text `s` -/
def Gives (f : PhitsFile.Fmt) (r k : Nat) (p : Project) (g : Good) (cs : List PhitsFile.Cell) (x : Kind) (s : List Char) : Prop :=
  ¬ (x.usesSphere ∧ NoSphere p) ∧ content f r k p g cs x = .ok s

/-- writing a file of kind `x` raises `e` -/
def Raises (f : PhitsFile.Fmt) (r k : Nat) (p : Project) (g : Good) (cs : List PhitsFile.Cell) (x : Kind) (e : Fail) : Prop :=
  (x.usesSphere ∧ NoSphere p ∧ e = .py .indexError) ∨ (¬ (x.usesSphere ∧ NoSphere p) ∧ content f r k p g cs x = .error e)

end Geouned.Session
