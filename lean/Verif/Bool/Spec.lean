/-!
# Specification: what a cell expression means

A cell definition of GEOUNED is a `BoolSequence` (`src/geouned/GEOUNED/utils/boolean_function.py`):
a tree whose inner nodes carry an operator `AND`/`OR` and whose leaves are signed surface numbers.
This file holds only the data type and its *meaning*; it mentions no function of the code.
-/
namespace Geouned

/-- Operator of a sequence (`self.operator`, the strings `"AND"` and `"OR"`). -/
inductive Op where
  | and
  | or
  deriving DecidableEq, Repr, Inhabited

/-- A Python object that may sit in an expression (boolean_function.py 15-25, 40-82):
* `int n`        : a Python `int`, the signed number of a surface;
* `boo op l b`   : a `BoolSequence` whose `elements` is the Python `bool` `b`;
* `lst op l es`  : a `BoolSequence` whose `elements` is the list `es`.
`op` is `self.operator`, `l` is the stored `self.level` (which may be stale).
Simplification: `operator is None` (an unset operator) is not represented. -/
inductive Seq where
  | int (n : Int)
  | boo (op : Op) (lev : Int) (b : Bool)
  | lst (op : Op) (lev : Int) (es : List Seq)
  deriving Repr, Inhabited

/-- An assignment: for each surface (unsigned number) whether the point is on its positive side.
Every point of space that lies on no surface gives one. -/
abbrev Side := Nat → Bool

/-- `n` means "positive side of surface n", `-n` means "negative side of surface n". -/
def lit (σ : Side) (n : Int) : Bool := if n < 0 then !(σ n.natAbs) else σ n.natAbs

mutual
/-- The meaning of an expression at a point: is the point in the region? -/
def Seq.sem (σ : Side) : Seq → Bool
  | .int n => lit σ n
  | .boo _ _ b => b
  | .lst .and _ es => Seq.semAll σ es
  | .lst .or _ es => Seq.semAny σ es
/-- all elements hold -/
def Seq.semAll (σ : Side) : List Seq → Bool
  | [] => true
  | e :: es => e.sem σ && Seq.semAll σ es
/-- some element holds -/
def Seq.semAny (σ : Side) : List Seq → Bool
  | [] => false
  | e :: es => e.sem σ || Seq.semAny σ es
end

mutual
/-- Well-formed expression: surface numbers are not 0, the stored level of a list is not negative, and a
sequence whose stored level is 0 holds surface numbers only (this is what "level 0" means in the code;
stored levels may be too large). -/
def Seq.WF : Seq → Prop
  | .int n => n ≠ 0
  | .boo _ _ _ => True
  | .lst _ l es => (0 ≤ l ∧ (l = 0 → ∀ e ∈ es, ∃ n, e = .int n)) ∧ Seq.WFL es
def Seq.WFL : List Seq → Prop
  | [] => True
  | e :: es => e.WF ∧ Seq.WFL es
end

mutual
/-- `Occurs v e`: surface `v` occurs (with either sign) in the expression. -/
def Seq.Occurs (v : Nat) : Seq → Prop
  | .int n => n.natAbs = v
  | .boo _ _ _ => False
  | .lst _ _ es => Seq.OccursL v es
def Seq.OccursL (v : Nat) : List Seq → Prop
  | [] => False
  | e :: es => e.Occurs v ∨ Seq.OccursL v es
end

mutual
/-- nesting depth: 0 for a surface number or a bare boolean, 1 for a flat list, ... -/
def Seq.depth : Seq → Nat
  | .int _ => 0
  | .boo _ _ _ => 0
  | .lst _ _ es => Seq.depthL es + 1
def Seq.depthL : List Seq → Nat
  | [] => 0
  | e :: es => max e.depth (Seq.depthL es)
end

mutual
/-- no sub-expression has been reduced to a bare boolean: the expression is built of surfaces only -/
def Seq.NoBool : Seq → Prop
  | .int _ => True
  | .boo _ _ _ => False
  | .lst _ _ es => Seq.NoBoolL es
def Seq.NoBoolL : List Seq → Prop
  | [] => True
  | e :: es => e.NoBool ∧ Seq.NoBoolL es
end

/-- result of `evaluate`: a bool or an expression -/
inductive Ev where
  | bool (b : Bool)
  | seq (s : Seq)

/-- meaning of a result -/
def Ev.sem (σ : Side) : Ev → Bool
  | .bool b => b
  | .seq s => s.sem σ

def Ev.WF : Ev → Prop
  | .bool _ => True
  | .seq s => s.WF

/-- argument of `append`: an int, a bool, or a sequence -/
inductive Item where
  | int (n : Int)
  | bool (b : Bool)
  | seq (s : Seq)

/-- meaning of an item -/
def Item.sem (σ : Side) : Item → Bool
  | .int n => lit σ n
  | .bool b => b
  | .seq s => s.sem σ

/-- well-formed item -/
def Item.WF : Item → Prop
  | .int n => n ≠ 0
  | .bool _ => True
  | .seq s => s.WF

/-- `σ` with surface `v` forced to side `b`. -/
def Side.set (σ : Side) (v : Nat) (b : Bool) : Side := fun w => if w = v then b else σ w

/-- A Python dictionary `{surface: True | False | None}`, as association list. -/
abbrev Vals := List (Nat × Option Bool)

/-- The point agrees with the known side values (`None` = unknown). -/
def Agrees (σ : Side) (vs : Vals) : Prop := ∀ k b, (k, some b) ∈ vs → σ k = b

/-- What can go wrong at run time: the Python exception classes that occur, `recursion`
(`RecursionError`, fuel exhausted). `lossy` is not an exception of the code: see `Model.lean`. -/
inductive Err where
  | recursion
  | typeError
  | attributeError
  | indexError
  | keyError
  | lossy
  | zeroDivision
  deriving DecidableEq, Repr

abbrev M := Except Err

/-- the point is consistent with the constraint sets of the two sides of surface `v` -/
def Consistent (σ : Side) (v : Nat) (ts fs : Option Vals) : Prop :=
  (σ v = true → ∃ vs, ts = some vs ∧ Agrees σ vs) ∧ (σ v = false → ∃ vs, fs = some vs ∧ Agrees σ vs)

/-- the constraint table as seen from here: for a surface, the pair `(true_set, false_set)` of
`get_constraint_set` -/
abbrev CTab := Nat → M (Option Vals × Option Vals)

/-- the constraint table only states facts about the point (`none`: no table) -/
def CTSound (ct : Option CTab) (σ : Side) : Prop :=
  ∀ t, ct = some t → ∀ v a b, t v = .ok (a, b) → Consistent σ v a b

mutual
/-- meaning of the expression when each occurrence of the signed number `t` (not of `-t`) has value `x` -/
def Seq.semIns (σ : Side) (t : Int) (x : Bool) : Seq → Bool
  | .int n => if n = t then x else lit σ n
  | .boo _ _ b => b
  | .lst .and _ es => Seq.semInsAll σ t x es
  | .lst .or _ es => Seq.semInsAny σ t x es
def Seq.semInsAll (σ : Side) (t : Int) (x : Bool) : List Seq → Bool
  | [] => true
  | e :: es => Seq.semIns σ t x e && Seq.semInsAll σ t x es
def Seq.semInsAny (σ : Side) (t : Int) (x : Bool) : List Seq → Bool
  | [] => false
  | e :: es => Seq.semIns σ t x e || Seq.semInsAny σ t x es
end

end Geouned
