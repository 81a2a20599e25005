import Mathlib.Algebra.Order.Ring.Rat
import Mathlib.Data.List.Basic
/-!
# Model of `BoxSettings` and of the settings of `CsgToCad`

`src/geouned/GEOReverse/Modules/Utils/boundBox.py` 11-105 (`BoxSettings`), 108-129 (`myBox.__init__`) and `src/geouned/GEOReverse/core.py` 24-31. Objects are references: the default value of the
parameter `settings` is made once, when the class is made (reference 0). Simplifications: numbers are exact, without infinities and NaN; the argument `box_dimensions` is a list or tuple of
values that is not changed after the call.
-/
namespace Geouned.RCore

/-- a Python value: `other` is no number, no sequence and not None (a string, say) -/
inductive V
  | none | bool (b : Bool) | num (q : ℚ) | seq (l : List V) | other

/-- exceptions -/
inductive Exc
  | type | index
deriving DecidableEq, Repr

/-- `FreeCAD.BoundBox` -/
structure Box where
  (xmin ymin zmin xmax ymax zmax : ℚ)
deriving DecidableEq, Repr

/-- `isinstance(v, (float, int))`, with the value as a number: `True` is 1 -/
def V.number : V → Option ℚ
  | .num q => some q
  | .bool b => some (if b then 1 else 0)
  | _ => Option.none

/-- boundBox.py 46-49, 56-59: the setters of `universe_radius` and `insolid_tolerance` -/
def checkNumber (v : V) : Except Exc ℚ :=
  match v.number with
  | some q => .ok q
  | Option.none => .error .type

/-- boundBox.py 72-74: the loop over the elements -/
def checkElems : List V → Except Exc (List ℚ)
  | [] => .ok []
  | v :: vs =>
    match v.number with
    | Option.none => .error .type
    | some q =>
      match checkElems vs with
      | .ok qs => .ok (q :: qs)
      | .error e => .error e

/-- boundBox.py 76-81: one round of the loop over the axes -/
def checkAxis (qs : List ℚ) (i : Nat) : Except Exc Unit :=
  match qs[i]?, qs[i + 3]? with
  | some a, some b => if a ≥ b then .error .type else .ok ()
  | _, _ => .error .index

/-- boundBox.py 65-83: the setter of `box_dimensions` -/
def checkDims : V → Except Exc (Option (List ℚ))
  | .none => .ok Option.none
  | .seq vs =>
    match checkElems vs with
    | .error e => .error e
    | .ok qs =>
      match checkAxis qs 0 with
      | .error e => .error e
      | .ok _ =>
        match checkAxis qs 1 with
        | .error e => .error e
        | .ok _ =>
          match checkAxis qs 2 with
          | .error e => .error e
          | .ok _ => .ok (some qs)
  | _ => .error .type

/-- a `BoxSettings` object; `box` is `universe_box.Box` (`none`: None) -/
structure Sett where
  radius : ℚ
  tol : ℚ
  dims : Option (List ℚ)
  box : Option Box
deriving DecidableEq

/-- boundBox.py 115-125 `myBox.__init__` of a bound box -/
def boxOf (b : Box) : Option Box :=
  if b.xmax - b.xmin ≤ 1 / 10 ^ 12 then Option.none
  else if b.ymax - b.ymin ≤ 1 / 10 ^ 12 then Option.none
  else if b.zmax - b.zmin ≤ 1 / 10 ^ 12 then Option.none
  else some b

/-- boundBox.py 89-105 `set_universe_box`. `FreeCAD.BoundBox` takes six numbers (`TypeError` otherwise). Simplification: the box of a negative radius is made with minimum above maximum. -/
def setUniverseBox (r t : ℚ) (d : Option (List ℚ)) : Except Exc Sett :=
  match d with
  | Option.none => .ok ⟨r, t, Option.none, boxOf ⟨-r, -r, -r, r, r, r⟩⟩
  | some qs =>
    match qs with
    | [a, b, c, d, e, f] => .ok ⟨max |a| (max |b| (max |c| (max |d| (max |e| |f|)))), t, some qs, boxOf ⟨a, b, c, d, e, f⟩⟩
    | _ => .error .type

/-- boundBox.py 29-39 `BoxSettings.__init__` -/
def newSettings (r t d : V) : Except Exc Sett :=
  match checkNumber r with
  | .error e => .error e
  | .ok r =>
    match checkNumber t with
    | .error e => .error e
    | .ok t =>
      match checkDims d with
      | .error e => .error e
      | .ok d => setUniverseBox r t d

/-- the `BoxSettings` objects and the `CsgToCad` objects (their `settings`, and the box that they copied: core.py 31) -/
structure State where
  setts : List Sett
  convs : List (Nat × Option Box)

/-- after `import geouned`: the default settings exist (core.py 24) -/
def start : State := ⟨[⟨1000000, 1, Option.none, boxOf ⟨-1000000, -1000000, -1000000, 1000000, 1000000, 1000000⟩⟩], []⟩

/-- what a user does -/
inductive Op
  | settings (radius tol dims : V)
  | setRadius (i : Nat) (v : V)
  | setTol (i : Nat) (v : V)
  | setDims (i : Nat) (v : V)
  | converter (settings : Option Nat)

/-- one statement of the user; the exception that it raises. An operation on an object that does not exist does nothing. -/
def step (s : State) : Op → State × Option Exc
  | .settings r t d =>
    match newSettings r t d with
    | .ok x => (⟨s.setts ++ [x], s.convs⟩, Option.none)
    | .error e => (s, some e)
  | .setRadius i v =>
    match checkNumber v with
    | .ok q => (⟨s.setts.modify i fun x => { x with radius := q }, s.convs⟩, Option.none)
    | .error e => (s, some e)
  | .setTol i v =>
    match checkNumber v with
    | .ok q => (⟨s.setts.modify i fun x => { x with tol := q }, s.convs⟩, Option.none)
    | .error e => (s, some e)
  | .setDims i v =>
    match checkDims v with
    | .ok d => (⟨s.setts.modify i fun x => { x with dims := d }, s.convs⟩, Option.none)
    | .error e => (s, some e)
  | .converter i =>
    let i := i.getD 0
    match s.setts[i]? with
    | some x => (⟨s.setts, s.convs ++ [(i, x.box)]⟩, Option.none)
    | Option.none => (s, Option.none)

/-- a session; an exception ends a statement, not the session -/
def runOps : List Op → State → State
  | [], s => s
  | o :: os, s => runOps os (step s o).1

end Geouned.RCore
