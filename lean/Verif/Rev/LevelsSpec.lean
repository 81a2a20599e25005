import Verif.Rev.Basic
/-!
# Specification: universes and levels

The cells of a file are in universes, and may be filled with universes. This file mentions no function of the code.
-/
namespace Geouned.Rev

/-- a cell card with the universe it belongs to -/
structure UCell extends SCell where
  u : Nat
  deriving DecidableEq, Repr

/-- a cell of universe `v` is filled with universe `w`; a fill with universe 0 is no fill -/
def Fills (cells : List UCell) (v w : Nat) : Prop := w ≠ 0 ∧ ∃ c ∈ cells, c.u = v ∧ c.fill = some w

/-- from universe `v`, universe `w` is reached in `k` fillings -/
inductive Steps (cells : List UCell) (v : Nat) : Nat → Nat → Prop where
  | refl : Steps cells v v 0
  | step {w x k} : Steps cells v w k → Fills cells w x → Steps cells v x (k + 1)

/-- the smallest number of fillings from `v` to `w` is `k` -/
def Dist (cells : List UCell) (v w k : Nat) : Prop := Steps cells v w k ∧ ∀ j, Steps cells v w j → k ≤ j

/-- a universe of the file -/
def IsUniverse (cells : List UCell) (v : Nat) : Prop := ∃ c ∈ cells, c.u = v

/-- the main universe: 0 when there is one, otherwise the only one that fills no cell -/
def IsRoot (cells : List UCell) (r : Nat) : Prop :=
  IsUniverse cells r ∧ (IsUniverse cells 0 → r = 0) ∧ (¬ IsUniverse cells 0 → ∀ v, ¬ Fills cells v r)

/-- a universe that is not the main one and fills no cell -/
def Lonely (cells : List UCell) (r v : Nat) : Prop := IsUniverse cells v ∧ v ≠ r ∧ ∀ w, ¬ Fills cells w v

/-- level `k` of the file: at level 0 the main universe, at level `k+1` the universes that fill a cell of a universe at distance `k` -/
def Level (cells : List UCell) (r : Nat) : Nat → Nat → Prop
  | 0, v => v = r
  | k + 1, v => ∃ w, Dist cells r w k ∧ Fills cells w v

/-- all fillings are with universes of the file -/
def Closed (cells : List UCell) : Prop := ∀ v w, Fills cells v w → IsUniverse cells w

/-- no universe is nested in itself -/
def Nested (cells : List UCell) (rank : Nat → Nat) : Prop := ∀ v w, Fills cells v w → rank w < rank v

/-- every universe is nested at one level only -/
def Graded (cells : List UCell) (r : Nat) : Prop := ∀ v j k, Steps cells r v j → Steps cells r v k → j = k

/-- the universes to build for a depth (`-1` for all) -/
def Within (cells : List UCell) (start : Nat) (depth : Int) (v : Nat) : Prop :=
  ∃ k, Steps cells start v k ∧ (depth = -1 ∨ (k : Int) ≤ depth)

end Geouned.Rev
