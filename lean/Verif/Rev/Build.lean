import Verif.Rev.BuildSpec
import Verif.Rev.Levels
/-!
# Model of the construction of the solids of nested universes

`src/geouned/GEOReverse/Modules/buildCAD.py`: `interferencia` (10-27), `BuildUniverseCells` (49-125);
`src/geouned/GEOReverse/core.py`: `build_universe` (154-205), the end of `build_container` (124-152).

Solids are sets of points; what the CAD kernel does is in `Kernel`, with what is assumed of it in `Kernel.Lawful`. Simplifications: the result is the list of the solids
of the tree, each with the names of the containers that lead to it (empty groups are left out); the level of the first universe is known.
-/
namespace Geouned.Rev

/-- result of `build_BoundBox` and `buildShape` (94-103): an exception, no box (`shape` is `None`), a solid -/
inductive Built (P : Type) where
  | failed
  | nothing
  | solid (s : P → Prop)

/-- the CAD kernel -/
structure Kernel (P : Type) where
  /-- `shape.BoundBox` -/
  bbox : (P → Prop) → P → Prop
  /-- `Box.transformed(tr.inverse())`: the box of the moved box -/
  boxBack : Motion P → (P → Prop) → P → Prop
  /-- solid of a region, made in a box -/
  build : (P → Prop) → (P → Prop) → Built P
  /-- `interferencia(container, cell)` (10-27) -/
  cut : (P → Prop) → (P → Prop) → P → Prop

/-- What is assumed of the kernel. For `cut` this is 10-27 with exact Boolean operations: the parts of the cell in the container, or (24-25) the whole cell
when there is none. -/
structure Kernel.Lawful {P : Type} (K : Kernel P) : Prop where
  bbox_sub : ∀ S p, S p → K.bbox S p
  boxBack_sub : ∀ t S p, S (t.fwd p) → K.boxBack t S p
  build_solid : ∀ r e s, K.build r e = .solid s → (∀ p, s p → r p) ∧ ∀ p, r p → e p → s p
  build_nothing : ∀ r e, K.build r e = .nothing → ∀ p, ¬ (r p ∧ e p)
  cut_parts : ∀ cont cell, (∃ p, cell p ∧ cont p) → ∀ p, K.cut cont cell p ↔ cell p ∧ cont p
  cut_whole : ∀ cont cell, ¬ (∃ p, cell p ∧ cont p) → K.cut cont cell = cell

/-- the container cell: name, `FILL`, `CurrentTR`, `shape`, `externalBox` (only used without a shape), `level` -/
structure Container (P : Type) where
  name : Option Nat
  fill : Nat
  tr : Option (Motion P)
  shape : Option (P → Prop)
  externalBox : P → Prop
  level : Nat

/-- the shapes that the cells of the universes keep: `NTcell.shape`, of universe and name -/
abbrev Shapes (P : Type) := Nat → Nat → Option (P → Prop)

def Shapes.set {P : Type} (st : Shapes P) (U n : Nat) (s : P → Prop) : Shapes P := fun V m => if V = U ∧ m = n then some s else st V m

structure Out (P : Type) where
  leaves : List (Leaf P)
  fails : List Nat
  shapes : Shapes P

section
variable {P : Type}

/-- 77-82 `external_box` -/
def extBox (K : Kernel P) (cont : Container P) : P → Prop :=
  match cont.shape with
  | some s =>
    match cont.tr with
    | some t => K.boxBack t (K.bbox s)
    | none => K.bbox s
  | none => cont.externalBox

/-- 112-113: `cell.shape = interferencia(...)` -/
def cutIn (K : Kernel P) (cont : Container P) (s : P → Prop) : P → Prop :=
  match cont.shape with
  | some cs => K.cut cs s
  | none => s

/-- 62-113: the shape of the cell in the container (`none`: `continue`), the failures, the shapes kept.
A shape that is kept is used again; without `CurrentTR` the cell is not copied (68), so that the cut shape is kept in its place (113). -/
def placeCell (K : Kernel P) (cont : Container P) (st : Shapes P) (c : PCell P) : Option (P → Prop) × List Nat × Shapes P :=
  match st cont.fill c.name with
  | some s =>
    match cont.tr with
    | some t => (some (cutIn K cont (image t s)), [], st)
    | none => (some (cutIn K cont s), [], if cont.shape.isSome then st.set cont.fill c.name (cutIn K cont s) else st)
  | none =>
    match K.build c.region (extBox K cont) with
    | .failed => (none, [c.name], st)
    | .nothing => (none, [], st)
    | .solid s => (some (cutIn K cont (moved cont.tr s)), [], st.set cont.fill c.name s)

/-- `cell.CurrentTR` in the next container (118-119): `None` is no argument of `multiply`; without `CurrentTR` of the container it is `TRFL` (Objects.py 44) -/
def nextTR (cont : Container P) (c : PCell P) : R (Option (Motion P)) :=
  match cont.tr with
  | none => .ok c.place
  | some t =>
    match c.place with
    | none => .error .typeError
    | some t' => .ok (some (t.comp t'))

/-- 59-123, the loop over the cells; `rec` is the recursive call (121) -/
def cellsLoop (K : Kernel P) (levelMax : Int) (rec : Container P → Shapes P → R (Out P)) (cont : Container P) : List (PCell P) → Shapes P → R (Out P)
  | [], st => .ok ⟨[], [], st⟩
  | c :: cs, st =>
    match placeCell K cont st c with
    | (none, fl, st') => do
      let o ← cellsLoop K levelMax rec cont cs st'
      .ok ⟨o.leaves, fl ++ o.fails, o.shapes⟩
    | (some s, fl, st') =>
      match c.fill with
      | none => do
        let o ← cellsLoop K levelMax rec cont cs st'
        .ok ⟨⟨[], c.name, s⟩ :: o.leaves, fl ++ o.fails, o.shapes⟩
      | some V =>
        if (cont.level : Int) + 1 > levelMax then do
          let o ← cellsLoop K levelMax rec cont cs st'
          .ok ⟨⟨[], c.name, s⟩ :: o.leaves, fl ++ o.fails, o.shapes⟩
        else do
          let t ← nextTR cont c
          let u ← rec ⟨some c.name, V, t, some s, cont.externalBox, cont.level + 1⟩ st'
          let o ← cellsLoop K levelMax rec cont cs u.shapes
          .ok ⟨u.leaves.map (fun l => ⟨c.name :: l.path, l.name, l.shape⟩) ++ o.leaves, fl ++ u.fails ++ o.fails, o.shapes⟩

/-- 49-125 `BuildUniverseCells` (`f`: recursion depth allowed) -/
def buildCells (K : Kernel P) (us : Universes P) (levelMax : Int) : Nat → Container P → Shapes P → R (Out P)
  | 0, _, _ => .error .recursion
  | f + 1, cont, st =>
    match us cont.fill with
    | none => .error .keyError
    | some cs => cellsLoop K levelMax (buildCells K us levelMax f) cont cs st

/-- the universes that `GetFilteredCells` returns: `keys` chosen (`Levels.lean`), cells chosen (`Select.lean`), with their geometry -/
def filteredUniverses (cells : List UCell) (keep : UCell → Bool) (geo : Nat → (P → Prop) × Option (Motion P)) (keys : List Nat) : Universes P := fun U =>
  if keys.contains U then
    some ((cells.filter fun c => c.u = U && keep c).map fun c => ⟨c.name, c.filled, (geo c.name).2, (geo c.name).1⟩)
  else none

/-- core.py 154-201 `build_universe(U, depth)`, first call, MCNP file; `f`: recursion depth allowed -/
def buildUniverse (K : Kernel P) (f : Nat) (cells : List UCell) (keep : UCell → Bool) (geo : Nat → (P → Prop) × Option (Motion P)) (box : P → Prop)
    (start : Nat) (depth : Int) : R (Out P) := do
  let levels ← levelStructure cells
  let keys ← universeKeys false f cells levels start depth
  match findLevel levels start with
  | none => .error .valueError
  | some lev =>
    let levelMax : Int := if depth = -1 then (levels.length : Int) - 1 else min (lev + depth) ((levels.length : Int) - 1)       -- 195-198
    buildCells K (filteredUniverses cells keep geo keys) levelMax f ⟨none, start, none, none, box, lev⟩ (fun _ _ => none)

/-- core.py 124-152, the end of `build_container`, for a container with the given name, filling, transformation and shape -/
def buildContainer (K : Kernel P) (f : Nat) (cells : List UCell) (keep : UCell → Bool) (geo : Nat → (P → Prop) × Option (Motion P)) (box : P → Prop)
    (name start : Nat) (tr : Option (Motion P)) (shape : P → Prop) (depth : Int) : R (Out P) := do
  let levels ← levelStructure cells
  let keys ← universeKeys false f cells levels start depth
  match findLevel levels start with
  | none => .error .valueError
  | some lev =>
    let levelMax : Int := if depth = -1 then (levels.length : Int) else min (lev + depth) (levels.length : Int)                  -- 143-146
    buildCells K (filteredUniverses cells keep geo keys) levelMax f ⟨some name, start, tr, some shape, box, lev⟩ (fun _ _ => none)

end
end Geouned.Rev
