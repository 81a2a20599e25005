import Mathlib.Logic.Function.Basic
/-!
# Model of the configuration of conversions

`src/geouned/GEOUNED/core.py` 50-60 (`CadToCsg.__init__`), 78-119 (setters), 217-271 (`from_json`).

Configuration objects (`Options`, `Tolerances`, `NumericFormat`, `Settings`) are mutable objects: a heap gives their contents (`C`, abstract), an instance of `CadToCsg` holds one reference
for each of the four sections. The default objects of `__init__` are made once, when the module is imported: objects 0 to 3.
-/
namespace Geouned.Conf

/-- the four sections -/
inductive Sec
  | options | tolerances | numeric | settings
deriving DecidableEq

/-- core.py 52-55: the object that is the default value of the argument -/
def dfltRef : Sec → Nat
  | .options => 0 | .tolerances => 1 | .numeric => 2 | .settings => 3

/-- the heap of configuration objects, the first free reference, the instances made so far -/
structure State (C : Type) where
  heap : Nat → C
  next : Nat
  insts : List (Sec → Nat)

/-- what is given for a section: nothing, a new object with these contents, or an object that exists -/
inductive Arg (C : Type)
  | dflt | fresh (c : C) | object (r : Nat)

/-- what a user does: make an instance; give an object to a section of instance `i` (setter); change an attribute of the object that instance `i` holds -/
inductive Op (C : Type)
  | create (a : Sec → Arg C)
  | assign (i : Nat) (s : Sec) (a : Arg C)
  | modify (i : Nat) (s : Sec) (f : C → C)

variable {C : Type}

/-- evaluation of an argument for section `s` -/
def evalArg (st : State C) (s : Sec) : Arg C → State C × Nat
  | .dflt => (st, dfltRef s)
  | .fresh c => ({ st with heap := Function.update st.heap st.next c, next := st.next + 1 }, st.next)
  | .object r => (st, r)

/-- core.py 50-60: the four arguments, then the instance -/
def create (st : State C) (a : Sec → Arg C) : State C :=
  let (st, o) := evalArg st .options (a .options)
  let (st, t) := evalArg st .tolerances (a .tolerances)
  let (st, n) := evalArg st .numeric (a .numeric)
  let (st, e) := evalArg st .settings (a .settings)
  { st with insts := st.insts ++ [fun | .options => o | .tolerances => t | .numeric => n | .settings => e] }

/-- core.py 83-119: `instance.section = object` -/
def assign (st : State C) (i : Nat) (s : Sec) (a : Arg C) : State C :=
  match st.insts[i]? with
  | none => st
  | some x =>
    let (st', r) := evalArg st s a
    { st' with insts := st'.insts.set i (Function.update x s r) }

/-- `instance.section.attribute = value` -/
def modify (st : State C) (i : Nat) (s : Sec) (f : C → C) : State C :=
  match st.insts[i]? with
  | none => st
  | some x => { st with heap := Function.update st.heap (x s) (f (st.heap (x s))) }

def step (st : State C) : Op C → State C
  | .create a => create st a
  | .assign i s a => assign st i s a
  | .modify i s f => modify st i s f

def run (st : State C) : List (Op C) → State C
  | [] => st
  | o :: os => run (step st o) os

/-- after import: the default objects, no instance -/
def start (dflt : Sec → C) (other : C) : State C where
  heap := fun r => if r = 0 then dflt .options else if r = 1 then dflt .tolerances else if r = 2 then dflt .numeric else if r = 3 then dflt .settings else other
  next := 4
  insts := []

/-- the contents of section `s` of instance `i` -/
def conf (st : State C) (i : Nat) (s : Sec) : Option C := (st.insts[i]?).map (fun x => st.heap (x s))

/-! ## `from_json` -/

/-- the exceptions of `from_json`: invalid key, missing key, one raised by the constructor of a section -/
inductive Exc
  | value | key | section (s : Sec)
deriving DecidableEq

/-- the name of a section in the file -/
def secName : Sec → String
  | .options => "Options" | .tolerances => "Tolerances" | .numeric => "NumericFormat" | .settings => "Settings"

/-- core.py 243-263: which section a key is -/
def keySec (k : String) : Option Sec :=
  if k = "Tolerances" then some .tolerances
  else if k = "Options" then some .options
  else if k = "NumericFormat" then some .numeric
  else if k = "Settings" then some .settings
  else none

variable {J : Type}

/-- core.py 243-263: the loop over the keys; `mk` makes the object of a section from the value in the file, `i` is the instance -/
def keyLoop (mk : Sec → J → Option C) (i : Nat) : List (String × J) → State C → Except Exc (State C)
  | [], st => .ok st
  | (k, v) :: l, st =>
    if k = "load_step_file" ∨ k = "export_csg" then keyLoop mk i l st
    else
      match keySec k with
      | none => .error .value
      | some s =>
        match mk s v with
        | none => .error (.section s)
        | some c => keyLoop mk i l (assign st i s (.fresh c))

/-- what `from_json` then runs: `load_step_file(**…)`, `start()`, `export_csg(**…)` -/
structure Calls (J : Type) where
  load : J
  export_ : Option J

/-- core.py 217-271 `from_json`: the file is a dictionary -/
def fromJson (mk : Sec → J → Option C) (file : List (String × J)) (st : State C) : Except Exc (State C × Calls J) :=
  match keyLoop mk st.insts.length file (create st (fun _ => .dflt)) with
  | .error x => .error x
  | .ok st' =>
    match file.lookup "load_step_file" with
    | none => .error .key
    | some v => .ok (st', { load := v, export_ := file.lookup "export_csg" })

end Geouned.Conf
