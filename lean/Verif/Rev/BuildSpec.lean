import Verif.Rev.Basic
/-!
# Specification: the solids made from nested universes

Points of space are of any type `P`. A cell has a region, given in the coordinates of its universe; a cell filled with a universe may have a motion that places this
universe. This file mentions no function of the code.
-/
namespace Geouned.Rev

/-- a motion of space, with its inverse -/
structure Motion (P : Type) where
  fwd : P → P
  back : P → P
  back_fwd : ∀ p, back (fwd p) = p
  fwd_back : ∀ p, fwd (back p) = p

/-- first `b`, then `a` -/
def Motion.comp {P : Type} (a b : Motion P) : Motion P :=
  ⟨fun p => a.fwd (b.fwd p), fun p => b.back (a.back p), fun p => by rw [a.back_fwd, b.back_fwd], fun p => by rw [b.fwd_back, a.fwd_back]⟩

/-- a set of points, moved -/
def image {P : Type} (t : Motion P) (S : P → Prop) : P → Prop := fun p => S (t.back p)

/-- the same for an optional motion -/
def moved {P : Type} (t : Option (Motion P)) (S : P → Prop) : P → Prop :=
  match t with
  | none => S
  | some t => image t S

/-- two optional motions, one after the other -/
def compose {P : Type} : Option (Motion P) → Option (Motion P) → Option (Motion P)
  | none, b => b
  | some a, none => some a
  | some a, some b => some (a.comp b)

/-- a cell to build; `fill`: the universe that fills it (not 0), `place`: its transformation -/
structure PCell (P : Type) where
  name : Nat
  fill : Option Nat
  place : Option (Motion P)
  region : P → Prop

/-- the universes of a file -/
abbrev Universes (P : Type) := Nat → Option (List (PCell P))

/-- `At us d U G I path c G' I'`: a cell `c` stands in universe `U`, or in a universe nested at most `d` times in it, and nothing more is nested in it (or the depth
`d` is used up). `path`: the filled cells that lead to it. `G`, `G'`: how universe `U` and the universe of `c` are placed; `I`, `I'`: the part of space where
universe `U` and the universe of `c` are visible. -/
inductive At {P : Type} (us : Universes P) : Nat → Nat → Option (Motion P) → (P → Prop) → List Nat → PCell P → Option (Motion P) → (P → Prop) → Prop where
  | leaf {d U cs c G I} : us U = some cs → c ∈ cs → (c.fill = none ∨ d = 0) → At us d U G I [] c G I
  | into {d U cs c V G I path c' G' I'} : us U = some cs → c ∈ cs → c.fill = some V →
      At us d V (compose G c.place) (fun p => I p ∧ moved G c.region p) path c' G' I' → At us (d + 1) U G I (c.name :: path) c' G' I'

/-- The solid `s` shows the cell with region `r` (in space) which is visible in `I`; only the part in the box `B` is asked for. -/
structure Shows {P : Type} (s r I B : P → Prop) : Prop where
  /-- the solid has no point outside the cell -/
  inside : ∀ p, s p → r p
  /-- it has all points that are visible -/
  covers : ∀ p, r p → I p → B p → s p
  /-- if there is any such point, it has no point that is not visible -/
  clipped : (∃ p, r p ∧ I p ∧ B p) → ∀ p, s p → I p

/-- a solid of the result: names of the containers, name of the cell, shape -/
structure Leaf (P : Type) where
  path : List Nat
  name : Nat
  shape : P → Prop

/-- The solids made for universe `U` (placed by `G`, visible in `I`) up to depth `d` are right: for every cell there is one that shows it, unless nothing of the cell
is visible or a failure is reported for it or a cell that contains it. There are no others. -/
structure RightSolids {P : Type} (us : Universes P) (d U : Nat) (G : Option (Motion P)) (I B : P → Prop) (leaves : List (Leaf P)) (fails : List Nat) : Prop where
  nodup : (leaves.map fun l => l.path ++ [l.name]).Nodup
  sound : ∀ l ∈ leaves, ∃ c G' I', At us d U G I l.path c G' I' ∧ c.name = l.name ∧ Shows l.shape (moved G' c.region) I' B
  complete : ∀ path c G' I', At us d U G I path c G' I' → (∃ p, moved G' c.region p ∧ I' p ∧ B p) →
    (∃ l ∈ leaves, l.path = path ∧ l.name = c.name ∧ Shows l.shape (moved G' c.region) I' B) ∨ ∃ n ∈ path ++ [c.name], n ∈ fails

/-- a cell `c` of universe `U` is filled with `V` -/
def FilledBy {P : Type} (us : Universes P) (U : Nat) (c : PCell P) (V : Nat) : Prop := ∃ cs, us U = some cs ∧ c ∈ cs ∧ c.fill = some V

/-- universe `V` is nested in `U` -/
inductive Nests {P : Type} (us : Universes P) (U : Nat) : Nat → Prop where
  | refl : Nests us U U
  | step {V W c} : Nests us U V → FilledBy us V c W → Nests us U W

/-- universe `V` is nested in `U`, `k` times -/
inductive NestsIn {P : Type} (us : Universes P) (U : Nat) : Nat → Nat → Prop where
  | refl : NestsIn us U U 0
  | step {V W c k} : NestsIn us U V k → FilledBy us V c W → NestsIn us U W (k + 1)

/-- the universes nested at most `d` times in `U` exist -/
def ClosedTo {P : Type} (us : Universes P) (U d : Nat) : Prop := ∀ V k, k ≤ d → NestsIn us U V k → ∃ cs, us V = some cs

/-- what is expected of a file: cells of a universe have different names, no universe is nested in itself -/
structure WellNested {P : Type} (us : Universes P) (rank : Nat → Nat) : Prop where
  names : ∀ U cs, us U = some cs → (cs.map (·.name)).Nodup
  nested : ∀ U c V, FilledBy us U c V → rank V < rank U

/-- every universe fills one cell only -/
def FilledOnce {P : Type} (us : Universes P) : Prop :=
  ∀ V U₁ c₁ U₂ c₂, FilledBy us U₁ c₁ V → FilledBy us U₂ c₂ V → U₁ = U₂ ∧ c₁.name = c₂.name

/-- in a universe that is placed by a transformation, every filled cell has one, too -/
def PlacesGiven {P : Type} (us : Universes P) (placed : Nat → Prop) : Prop :=
  ∀ U c V, FilledBy us U c V → (placed U → c.place ≠ none) ∧ (c.place ≠ none → placed V)

end Geouned.Rev
