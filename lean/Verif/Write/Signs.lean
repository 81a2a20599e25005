import Verif.Bool.Model
import Verif.Geom.Card
/-!
# Orientation of planes at export

Model of the constructors of the writers: `get_surface_table`, `simplify_planes`, `change_surf_sign`
(`src/geouned/GEOUNED/write/mcnp_format.py` 300-371, the same code in `serpent_format.py` 300-371, `phits_format.py` 500-571 and,
without the three-point part, `openmc_format.py` 216-272) and of `change_surf_sign` (`write/functions.py` 85-97).
The planes and the cells are objects shared by all writers: a writer changes them and the next writer finds them changed.
Expressions are values: an expression of which the same sub-object sits in two places is not represented here (that is done in `Verif/Alias`).
Other attributes collected by `get_surface_table` (counts, materials) and the log are left out.
-/
namespace Geouned.Signs
open Geouned.Geom

/-- the key of the plane in `Surfaces` -/
inductive Kind where
  | px | py | pz | p
  deriving DecidableEq, Repr

structure Pl where
  kind : Kind
  /-- `Index` -/
  index : Nat
  /-- `Surf` -/
  surf : PlaneP

structure Cell where
  /-- `__id__ is not None`: comment objects in the list have none -/
  real : Bool
  defn : Seq

/-- what the writers share -/
structure St where
  planes : List Pl
  cells : List Cell

inductive Fmt where
  | mcnp | openmc | serpent | phits
  deriving DecidableEq, Repr

mutual
/-- write/functions.py 85-97 `change_surf_sign(surf, Seq)`. `abs` of a sequence and `enumerate` of a bool raise `TypeError`. -/
def changeSign (v : Nat) : Seq → M Seq
  | .int n => .ok (.int n)
  | .boo _ _ _ => .error .typeError
  | .lst op l es =>
    if l = 0 then do
      let es' ← changeFlat v es
      .ok (.lst op l es')
    else do
      let es' ← changeList v es
      .ok (.lst op l es')
/-- 86-89, the elements of a sequence of level 0 -/
def changeFlat (v : Nat) : List Seq → M (List Seq)
  | [] => .ok []
  | .int n :: es => do
    let r ← changeFlat v es
    .ok (.int (if v = n.natAbs then -n else n) :: r)
  | .boo _ _ _ :: _ => .error .typeError
  | .lst _ _ _ :: _ => .error .typeError
/-- 91-96 -/
def changeList (v : Nat) : List Seq → M (List Seq)
  | [] => .ok []
  | .int n :: es => do
    let r ← changeList v es
    .ok (.int (if v = n.natAbs then -n else n) :: r)
  | .boo _ _ _ :: _ => .error .typeError
  | .lst op l sub :: es => do
    let s ← changeSign v (.lst op l sub)
    let r ← changeList v es
    .ok (s :: r)
end

/-- mcnp_format.py 300-321 `get_surface_table`: is cell number `i` in `surfaceTable[index]`? -/
def inTable (cells : List Cell) (index i : Nat) : Bool :=
  match cells[i]? with
  | none => false
  | some c => c.real && decide (index ∈ c.defn.surfaces)

/-- 359-369, the loop over the cells (their order in the Python set does not matter: each is treated once, on its own) -/
def changeCells (table : Nat → Nat → Bool) (v : Nat) : Nat → List Cell → M (List Cell)
  | _, [] => .ok []
  | i, c :: cs =>
    if table v i && decide (v ∈ c.defn.surfaces) then do
      let d ← changeSign v c.defn
      let r ← changeCells table v (i + 1) cs
      .ok ({ c with defn := d } :: r)
    else do
      let r ← changeCells table v (i + 1) cs
      .ok (c :: r)

open Classical in
/-- 325-338, one of the three loops: the planes of kind `k`, turned towards `e` if the coordinate `coord` of the axis is negative.
The planes stay where they are in the list. -/
noncomputable def alignLoop (table : Nat → Nat → Bool) (k : Kind) (coord : Vec → ℝ) (e : Vec) :
    List Pl → List Cell → M (List Pl × List Cell)
  | [], cells => .ok ([], cells)
  | p :: ps, cells =>
    if p.kind = k ∧ coord p.surf.axis < 0 then do
      let cells' ← changeCells table p.index 0 cells
      let r ← alignLoop table k coord e ps cells'
      .ok ({ p with surf := { p.surf with axis := e } } :: r.1, r.2)
    else do
      let r ← alignLoop table k coord e ps cells
      .ok (p :: r.1, r.2)

/-- 341-344: is the sense of the three points opposite to the stored axis? `points_to_coeffs` raises for points on a line; default tolerance of
`is_opposite` (basic_functions_part1.py 13). -/
noncomputable def pointsOpposite (s : PlaneP) : Option Prop :=
  match s.points with
  | none => some False
  | some (p1, p2, p3) =>
    match pointsToCoeffs p1 p2 p3 with
    | none => none
    | some (axis, _) => some (isOpposite axis s.axis (1 / 1000000))

open Classical in
/-- 340-345 -/
noncomputable def pointLoop (table : Nat → Nat → Bool) : List Pl → List Cell → M (List Cell)
  | [], cells => .ok cells
  | p :: ps, cells =>
    if p.kind = .p then
      match pointsOpposite p.surf with
      | none => .error .zeroDivision
      | some q =>
        if q then do
          let cells' ← changeCells table p.index 0 cells
          pointLoop table ps cells'
        else pointLoop table ps cells
    else pointLoop table ps cells

/-- the constructor of a writer: `get_surface_table` then `simplify_planes` (323-347); openmc_format.py 234-250 has no three-point part -/
noncomputable def construct (fmt : Fmt) (prnt3P : Bool) (s : St) : M St := do
  let table := inTable s.cells
  let r1 ← alignLoop table .px Vec.x vX s.planes s.cells
  let r2 ← alignLoop table .py Vec.y vY r1.1 r1.2
  let r3 ← alignLoop table .pz Vec.z vZ r2.1 r2.2
  if prnt3P && decide (fmt ≠ .openmc) then do
    let cells ← pointLoop table r3.1 r3.2
    .ok ⟨r3.1, cells⟩
  else .ok ⟨r3.1, r3.2⟩

/-- write/write_files.py 49-150 `write_geometry`, called any number of times: the writers run one after the other; the list holds, for each file, what
its writer sees when it writes -/
noncomputable def exports (prnt3P : Bool) : List Fmt → St → M (List (Fmt × St))
  | [], _ => .ok []
  | f :: fs, s => do
    let s' ← construct f prnt3P s
    let r ← exports prnt3P fs s'
    .ok ((f, s') :: r)

end Geouned.Signs
