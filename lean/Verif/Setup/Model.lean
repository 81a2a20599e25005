import Mathlib.Logic.Function.Basic
import Mathlib.Data.Rat.Defs
/-!
# Model of the classes of settings

`src/geouned/GEOUNED/utils/data_classes.py`: `Options`, `Tolerances`, `NumericFormat`, `Settings`. Each parameter is a property with a setter that checks the value; `__init__` runs all
setters in the order of the parameters. An object also takes any other attribute without a check, as every Python object does. Lists are references into a heap; the default lists of
`Settings.__init__` (lines 655-656) are made once, when the class is made: references 0 and 1.
-/
namespace Geouned.Setup

/-- a Python float -/
inductive Flt
  | fin (q : ℚ) | inf (neg : Bool) | nan
deriving DecidableEq

/-- a Python value: `real` is a number of `numbers.Real` that is no bool, int or float (a `Fraction`, numpy's integers); `list` is a reference; `other` is any other object -/
inductive Val
  | none | bool (b : Bool) | int (n : Int) | float (x : Flt) | real (q : ℚ) | str (s : String) | list (r : Nat) | other (k : Nat)
deriving DecidableEq

/-- the classes -/
inductive Cls
  | options | tolerances | numeric | settings
deriving DecidableEq

/-- exceptions -/
inductive Exc
  | type | value
deriving DecidableEq

/-- the forms of the setters -/
inductive Kind
  | bool | int | float | real | str | optStr | voidMat | strings
deriving DecidableEq

/-- `isinstance(value, bool)` -/
def isBool : Val → Bool
  | .bool _ => true
  | _ => false

/-- `isinstance(value, int)`: `bool` is a subclass of `int` -/
def isInt : Val → Bool
  | .bool _ | .int _ => true
  | _ => false

/-- `isinstance(value, float)` -/
def isFloat : Val → Bool
  | .float _ => true
  | _ => false

/-- `isinstance(value, Real)` -/
def isReal : Val → Bool
  | .bool _ | .int _ | .float _ | .real _ => true
  | _ => false

/-- `isinstance(value, str)` -/
def isStr : Val → Bool
  | .str _ => true
  | _ => false

/-- `value < 0` for a number; a comparison with NaN is false -/
def ltZero : Val → Bool
  | .int n => decide (n < 0)
  | .float (.fin q) => decide (q < 0)
  | .float (.inf neg) => neg
  | .real q => decide (q < 0)
  | _ => false

/-- data_classes.py 791-805: the checks of `voidMat`, the elements of the list given -/
def checkVoidMat (vs : List Val) : Option Exc :=
  if vs.length = 3 then
    match vs with
    | [a, b, c] =>
      if !isInt a then some .type
      else if !isInt b && !isFloat b then some .type
      else if !isStr c then some .type
      else none
    | _ => none
  else if vs.length > 0 then some .type
  else none

/-- data_classes.py 815-817: the loop of `voidExclude` -/
def checkStrings : List Val → Option Exc
  | [] => none
  | v :: vs => if !isStr v then some .type else checkStrings vs

/-- the checks of a setter (data_classes.py 81-190, 252-396, 456-590, 681-841); `lists` is the heap -/
def check (lists : Nat → List Val) (k : Kind) (v : Val) : Option Exc :=
  match k with
  | .bool => if !isBool v then some .type else none
  | .int => if !isInt v then some .type else none
  | .float => if !isFloat v then some .type else none
  | .real => if !isReal v then some .type else if ltZero v then some .value else none
  | .str => if !isStr v then some .type else none
  | .optStr => if v = .none then none else if !isStr v then some .type else none
  | .voidMat =>
    match v with
    | .list r => checkVoidMat (lists r)
    | _ => some .type
  | .strings =>
    match v with
    | .list r => checkStrings (lists r)
    | _ => some .type

/-- a number like `1.0e-4` -/
def flt (q : ℚ) : Val := .float (.fin q)

/-- the parameters of a class in the order of `__init__`, the form of the setter, the default value (data_classes.py 50-63, 213-230, 419-435, 643-660) -/
def params : Cls → List (String × Kind × Val)
  | .options =>
    [("forceCylinder", .bool, .bool false), ("newSplitPlane", .bool, .bool true), ("delLastNumber", .bool, .bool false), ("enlargeBox", .real, flt 2), ("nPlaneReverse", .int, .int 0),
     ("splitTolerance", .real, flt 0), ("scaleUp", .bool, .bool true), ("quadricPY", .bool, .bool false), ("Facets", .bool, .bool false), ("prnt3PPlane", .bool, .bool false),
     ("forceNoOverlap", .bool, .bool false)]
  | .tolerances =>
    [("relativeTol", .bool, .bool false), ("relativePrecision", .float, flt (1 / 10 ^ 6)), ("value", .float, flt (1 / 10 ^ 6)), ("distance", .float, flt (1 / 10 ^ 4)),
     ("angle", .float, flt (1 / 10 ^ 4)), ("pln_distance", .float, flt (1 / 10 ^ 4)), ("pln_angle", .float, flt (1 / 10 ^ 4)), ("cyl_distance", .float, flt (1 / 10 ^ 4)),
     ("cyl_angle", .float, flt (1 / 10 ^ 4)), ("sph_distance", .float, flt (1 / 10 ^ 4)), ("kne_distance", .float, flt (1 / 10 ^ 4)), ("kne_angle", .float, flt (1 / 10 ^ 4)),
     ("tor_distance", .float, flt (1 / 10 ^ 4)), ("tor_angle", .float, flt (1 / 10 ^ 4)), ("min_area", .float, flt (1 / 10 ^ 2))]
  | .numeric =>
    [("P_abc", .str, .str "14.7e"), ("P_d", .str, .str "14.7e"), ("P_xyz", .str, .str "14.7e"), ("S_r", .str, .str "14.7e"), ("S_xyz", .str, .str "14.7e"), ("C_r", .str, .str "12f"),
     ("C_xyz", .str, .str "12f"), ("K_xyz", .str, .str "13.6e"), ("K_tan2", .str, .str "13.6e"), ("T_r", .str, .str "14.7e"), ("T_xyz", .str, .str "14.7e"),
     ("GQ_1to6", .str, .str "18.15f"), ("GQ_7to9", .str, .str "18.15f"), ("GQ_10", .str, .str "18.15f")]
  | .settings =>
    [("outPath", .str, .str "."), ("matFile", .str, .str ""), ("voidGen", .bool, .bool true), ("debug", .bool, .bool false), ("compSolids", .bool, .bool false), ("simplify", .str, .str "no"),
     ("exportSolids", .optStr, .none), ("minVoidSize", .float, flt 200), ("maxSurf", .int, .int 50), ("maxBracket", .int, .int 30), ("voidMat", .voidMat, .list 0),
     ("voidExclude", .strings, .list 1), ("startCell", .int, .int 1), ("startSurf", .int, .int 1), ("sort_enclosure", .bool, .bool false)]

/-- an object: its class, and the values of its attributes; the value behind a property `x` (in Python the attribute `_x`) is `attr x` -/
structure Obj where
  cls : Cls
  attr : String → Option Val

/-- the program: lists (the first free reference), objects -/
structure State where
  lists : Nat → List Val
  next : Nat
  objs : List Obj

/-- `object.name = v`: the setter if the class has one with this name, otherwise a plain attribute -/
def setAttr (lists : Nat → List Val) (o : Obj) (name : String) (v : Val) : Except Exc Obj :=
  match (params o.cls).find? (fun p => p.1 = name) with
  | some (_, k, _) =>
    match check lists k v with
    | some e => .error e
    | none => .ok { o with attr := Function.update o.attr name (some v) }
  | none => .ok { o with attr := Function.update o.attr name (some v) }

/-- `__init__`: for every parameter the argument given or the default value, through the setter -/
def initLoop (lists : Nat → List Val) (args : List (String × Val)) : Obj → List (String × Kind × Val) → Except Exc Obj
  | o, [] => .ok o
  | o, (name, _, d) :: ps =>
    match setAttr lists o name ((args.lookup name).getD d) with
    | .error e => .error e
    | .ok o' => initLoop lists args o' ps

/-- `Cls(name=value, ...)`: a name that is no parameter raises TypeError -/
def construct (lists : Nat → List Val) (c : Cls) (args : List (String × Val)) : Except Exc Obj :=
  if args.all (fun a => (params c).any (fun p => p.1 = a.1)) then initLoop lists args ⟨c, fun _ => none⟩ (params c) else .error .type

/-- what a user does: make a list; add an element to a list (the lists of settings objects are the lists given to them); make an object; assign an attribute of object `i` -/
inductive Op
  | list (vs : List Val)
  | append (r : Nat) (v : Val)
  | make (c : Cls) (args : List (String × Val))
  | set (i : Nat) (name : String) (v : Val)

/-- one step; an exception leaves everything as it is -/
def step (st : State) : Op → State × Option Exc
  | .list vs => ({ st with lists := Function.update st.lists st.next vs, next := st.next + 1 }, none)
  | .append r v => ({ st with lists := Function.update st.lists r (st.lists r ++ [v]) }, none)
  | .make c args =>
    match construct st.lists c args with
    | .error e => (st, some e)
    | .ok o => ({ st with objs := st.objs ++ [o] }, none)
  | .set i name v =>
    match st.objs[i]? with
    | none => (st, none)
    | some o =>
      match setAttr st.lists o name v with
      | .error e => (st, some e)
      | .ok o' => ({ st with objs := st.objs.set i o' }, none)

/-- the program after these operations -/
def run (st : State) : List Op → State
  | [] => st
  | o :: os => run (step st o).1 os

/-- after import: the two default lists, empty -/
def start : State := ⟨fun _ => [], 2, []⟩

end Geouned.Setup
