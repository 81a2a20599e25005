import Verif.Bool.Spec
/-!
# Specification: constraint tables

A constraint table records, for pairs of surfaces, which combinations of sides occur in a box.
A point of the box is an assignment `σ : Side`; the box is any set of assignments.
-/
namespace Geouned

/-- What a cell of a `ConstraintTable` holds (boolean_solids.py 18-31):
* `diag d`        : a `CTelement` built from an `int` (position of the box with respect to one surface);
* `pair a b c d`  : a `CTelement` built from a 4-tuple of 0/1;
* `raw d`         : not a `CTelement` but a bare `int` (what `get_transpose` returns for a diagonal element, 34-35). -/
inductive CTVal where
  | diag (d : Int)
  | pair (a b c d : Bool)
  | raw (d : Int)
  deriving DecidableEq, Repr

/-- Which combinations (side of the first surface, side of the second one) an entry allows.
The tuple is `(s1 ∧ s2, s1 ∧ -s2, -s1 ∧ -s2, -s1 ∧ s2)` (308); a diagonal entry is 1 / -1 / 0 when the box is
on the positive side / on the negative side / on both sides of the surface (385-413). -/
def CTVal.Allows : CTVal → Bool → Bool → Prop
  | .diag d, x, y => x = y ∧ (d = 0 ∨ (d = 1 ∧ x = true) ∨ (d = -1 ∧ x = false))
  | .pair a b c d, x, y => (if x then (if y then a else b) else (if y then d else c)) = true
  | .raw _, _, _ => True

/-- A `ConstraintTable`: dictionary of dictionaries. `keys` is the insertion order of the rows. -/
structure CTable where
  keys : List Nat
  get : Nat → Nat → Option CTVal
  diagonal : Bool

/-- The table only excludes combinations of sides that do not occur at the point. -/
def CTable.Sound (t : CTable) (σ : Side) : Prop :=
  ∀ k1 k2 e, t.get k1 k2 = some e → e.Allows (σ k1) (σ k2)

/-- the entry says that the two surfaces have always opposite sides, or always the same side -/
def CTVal.Equivalence (e : CTVal) : Prop :=
  e = .pair false true false true ∨ e = .pair true false true false

/-- no entry of the table says that two surfaces are opposite or equal in the box -/
def CTable.NoEquivalence (t : CTable) : Prop :=
  ∀ k1 k2 e, t.get k1 k2 = some e → ¬ e.Equivalence

/-- the diagonal entries are those `split_solid_fast` makes: `int`s, -1, 0 or 1 -/
def CTable.DiagOK (t : CTable) : Prop :=
  ∀ k ∈ t.keys, ∃ d : Int, t.get k k = some (.diag d) ∧ (d = -1 ∨ d = 0 ∨ d = 1)

/-- off-diagonal entries are 4-tuples -/
def CTable.PairsOK (t : CTable) : Prop :=
  ∀ k1 k2 e, k1 ≠ k2 → t.get k1 k2 = some e → ∃ a b c d, e = .pair a b c d

end Geouned
