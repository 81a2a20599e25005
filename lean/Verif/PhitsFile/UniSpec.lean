import Verif.PhitsFile.Good
/-!
# Which points a cell of a PHITS file contains (specification of C110)

A reader of cell cards: number, material, density (none for material 0 and -1), the region, the universe. In the region `#n` stands for all points that are not in the cell
with number `n`.
-/
namespace Geouned.PhitsFile

open Geouned.McnpFile (IsNum)

/-- the words of the region on a card -/
def regionOf : List (List Char) → List (List Char)
  | _ :: mat :: rest =>
    (if Text.tokOf mat = some (.num 0) ∨ Text.tokOf mat = some (.num (-1)) then rest else rest.drop 1).filter (fun w => w.head? ≠ some 'U')
  | _ => []

/-- the number on a card -/
def number : List (List Char) → Option Int
  | w :: _ =>
    match Text.tokOf w with
    | some (.num n) => some n
    | _ => none
  | [] => none

/-- the point with sides `σ` is in the cell of the card, in a file with these cards (`#` inside `#` is followed at most `n` times) -/
def Inside (file : List (List (List Char))) (σ : Side) : Nat → List (List Char) → Prop
  | 0, _ => False
  | n + 1, ws =>
    (∃ ts, Text.tokensOf ((regionOf ws).filter (fun w => w.head? ≠ some '#')) = some ts ∧ Text.Reads σ .union ts true)
      ∧ ∀ v, '#' :: v ∈ regionOf ws → ∀ c ∈ file, ∀ m, IsNum v m → number c = some m → ¬ Inside file σ n c

/-- the points of the cell: the inner void is what is inside of the sphere (first surface of its definition) and in no solid -/
def Region (i : Input) (c : Cell) (σ : Side) : Prop :=
  if c.inner then ∃ op l n es, c.definition = .lst op l (.int n :: es) ∧ lit σ n = true ∧ ∀ s ∈ solids i, s.definition.sem σ = false
  else c.definition.sem σ = true

/-- materials have positive numbers; 0 is void -/
structure Positive (i : Input) : Prop where
  cells : ∀ c ∈ i.cells, 0 ≤ c.material
  voidMat : ∀ m d, i.voidMat = some (m, d) → 0 < m

end Geouned.PhitsFile
