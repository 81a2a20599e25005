import Verif.McnpFile.Good
import Verif.CellText.Model
import Verif.SurfText.Spec
/-!
# What GEOReverse must read from a file that GEOUNED has written (specification of C103)
-/
namespace Geouned.McnpFile

variable {V : Type}

/-- the lines of a card, as `"\n".join` puts them together -/
def joinLines (texts : List (List Char)) : List Char := List.intercalate ['\n'] texts

/-- what GEOReverse has read, with the number under which it is stored, is the cell: number, material, region, universe, the universe that fills it and its transformation -/
structure CellRead (i : Input) (c : Cell) (n : Int) (r : CellText.CellCard V) : Prop where
  key : n = c.label
  name : (r.name : Int) = c.label
  material : ∃ m : Nat, r.mat = some m ∧ (m : Int) = c.material
  nolike : r.likeCell = none
  region : RegionWords c (Wrap.wordsOf r.geom)
  uni : r.u = i.uni
  fill : r.fill = c.fill
  transform : r.tr = (match c.fill with | none => none | some _ => c.transform.map CellText.TrVal.number)
  notrcl : r.trcl = none

/-- what is asked of the model in addition to `Good`: numbers that are not negative, formatted numbers that are numbers (with a sign in the exponent) -/
structure Signs (f : Fmt) (i : Input) : Prop where
  e4 : ∀ x, ∃ n w, f.e4 x = List.replicate n ' ' ++ w ∧ CellText.Number True w
  f7 : ∀ x, ∃ n w, f.f7 x = List.replicate n ' ' ++ w ∧ CellText.Number True w
  e : ∀ x, CellText.Number False (f.e x)
  uni : ∀ u, i.uni = some u → 0 ≤ u
  cells : ∀ c ∈ i.cells, c.real → 0 ≤ c.label ∧ 0 ≤ c.material ∧ (∀ n, c.fill = some n → 0 ≤ n) ∧ (∀ n, c.transform = some n → 0 ≤ n)

/-! ## surfaces (C104) -/

/-- what is asked of a surface card in addition to `GoodSurf`: a positive number, a name of letters and `/`, numbers -/
def SurfNumbers (s : Surf) : Prop :=
  0 < s.index ∧ ∀ name v, s.card = some (name, v) → (∃ x r, name = x :: r ∧ x.isAlpha = true) ∧ (∀ x ∈ name, x.isAlpha = true ∨ x = '/') ∧
    ∀ t ∈ v, ∃ n w, t = List.replicate n ' ' ++ w ∧ CellText.Number False w

/-- what GEOReverse has read is the surface: number, no transformation, name (in small letters) and the numbers as `float` (`F.flt`) reads them -/
def SurfRead (F : CellText.Arith V) (s : Surf) (r : SurfText.SurfVal V) : Prop :=
  r.name = s.index ∧ r.tr = none ∧ ∃ name v ws, s.card = some (name, v) ∧ r.mn = name.map Char.toLower ∧
    List.Forall₂ (fun t w => w ≠ [] ∧ ' ' ∉ w ∧ ∃ n, t = List.replicate n ' ' ++ w) v ws ∧ List.Forall₂ (fun w x => F.flt w = some x) ws r.coefs

end Geouned.McnpFile
