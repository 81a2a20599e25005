import Verif.Bool.Spec
/-!
# Specification: cell definitions as objects in memory

A `BoolSequence` is a Python object; the members of its list are ints or references to other `BoolSequence` objects. The same object may sit in
several places. `Tree` is the expression obtained by following the references: this is what a reader (or a writer of the cell) sees.
-/
namespace Geouned.Alias

/-- a member of `elements` -/
inductive El where
  | int (n : Int)
  | ref (a : Nat)
  deriving DecidableEq, Repr

/-- `elements`: a Python bool or list -/
inductive Els where
  | boo (b : Bool)
  | lst (es : List El)
  deriving DecidableEq, Repr

/-- a `BoolSequence` object (boolean_function.py 15-25) -/
structure Obj where
  op : Op
  lev : Int
  els : Els
  deriving DecidableEq, Repr

/-- objects by address -/
abbrev Heap := Nat → Obj

/-- an expression together with the addresses of the objects it is made of -/
inductive Tree where
  | int (n : Int)
  | boo (a : Nat) (op : Op) (b : Bool)
  | lst (a : Nat) (op : Op) (ts : List Tree)
  deriving Repr

/-- how the expression appears in a list -/
def Tree.el : Tree → El
  | .int n => .int n
  | .boo a _ _ => .ref a
  | .lst a _ _ => .ref a

mutual
/-- the memory holds the expression -/
def Tree.Holds (h : Heap) : Tree → Prop
  | .int _ => True
  | .boo a op b => (h a).op = op ∧ (h a).els = .boo b
  | .lst a op ts => ((h a).op = op ∧ (h a).els = .lst (ts.map Tree.el)) ∧ Tree.HoldsL h ts
def Tree.HoldsL (h : Heap) : List Tree → Prop
  | [] => True
  | t :: ts => t.Holds h ∧ Tree.HoldsL h ts
end

/-- following the references from address `a` gives the expression `t` -/
def Unfolds (h : Heap) (a : Nat) (t : Tree) : Prop := t.el = .ref a ∧ t.Holds h

mutual
/-- meaning at a point -/
def Tree.sem (σ : Side) : Tree → Bool
  | .int n => lit σ n
  | .boo _ _ b => b
  | .lst _ .and ts => Tree.semAll σ ts
  | .lst _ .or ts => Tree.semAny σ ts
def Tree.semAll (σ : Side) : List Tree → Bool
  | [] => true
  | t :: ts => t.sem σ && Tree.semAll σ ts
def Tree.semAny (σ : Side) : List Tree → Bool
  | [] => false
  | t :: ts => t.sem σ || Tree.semAny σ ts
end

mutual
/-- the addresses met on the way, one for each place -/
def Tree.addrs : Tree → List Nat
  | .int _ => []
  | .boo a _ _ => [a]
  | .lst a _ ts => a :: Tree.addrsL ts
def Tree.addrsL : List Tree → List Nat
  | [] => []
  | t :: ts => t.addrs ++ Tree.addrsL ts
end

mutual
/-- number of places of the signed number `n` -/
def Tree.places (n : Int) : Tree → Nat
  | .int m => if m = n then 1 else 0
  | .boo _ _ _ => 0
  | .lst _ _ ts => Tree.placesL n ts
def Tree.placesL (n : Int) : List Tree → Nat
  | [] => 0
  | t :: ts => t.places n + Tree.placesL n ts
end

mutual
/-- nesting depth -/
def Tree.depth : Tree → Nat
  | .int _ => 0
  | .boo _ _ _ => 1
  | .lst _ _ ts => Tree.depthL ts + 1
def Tree.depthL : List Tree → Nat
  | [] => 0
  | t :: ts => max t.depth (Tree.depthL ts)
end

mutual
/-- built of surfaces only, surface numbers are not 0 -/
def Tree.Plain : Tree → Prop
  | .int n => n ≠ 0
  | .boo _ _ _ => False
  | .lst _ _ ts => Tree.PlainL ts
def Tree.PlainL : List Tree → Prop
  | [] => True
  | t :: ts => t.Plain ∧ Tree.PlainL ts
end

mutual
/-- meaning when each place of the signed number `n` has value `x` -/
def Tree.semIns (σ : Side) (n : Int) (x : Bool) : Tree → Bool
  | .int m => if m = n then x else lit σ m
  | .boo _ _ b => b
  | .lst _ .and ts => Tree.semInsAll σ n x ts
  | .lst _ .or ts => Tree.semInsAny σ n x ts
def Tree.semInsAll (σ : Side) (n : Int) (x : Bool) : List Tree → Bool
  | [] => true
  | t :: ts => t.semIns σ n x && Tree.semInsAll σ n x ts
def Tree.semInsAny (σ : Side) (n : Int) (x : Bool) : List Tree → Bool
  | [] => false
  | t :: ts => t.semIns σ n x || Tree.semInsAny σ n x ts
end

/-- the two sides of surface `v` exchanged -/
def swapSides (v : Nat) (σ : Side) : Side := σ.set v (!σ v)

end Geouned.Alias
