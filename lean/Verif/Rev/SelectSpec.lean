import Verif.Rev.Basic
/-!
# Specification: which cells the user wants

The user calls `cell_filter(type, cells)` and `material_filter(type, materials)`, any number of times, in any order. This file mentions no function of the code.
-/
namespace Geouned.Rev

/-- a call of the user: the type (a string) and the list (or `None`) -/
inductive Call where
  | cells (type : String) (l : Option (List Nat))
  | mats (type : String) (l : Option (List Int))
  deriving DecidableEq, Repr

/-- the last call of `cell_filter`; without any, all cells are wanted -/
def lastCells : List Call → String × List Nat
  | [] => ("all", [])
  | .cells t l :: cs => if cs.any (fun c => match c with | .cells _ _ => true | _ => false) then lastCells cs else (t, l.getD [])
  | .mats _ _ :: cs => lastCells cs

/-- the last call of `material_filter` -/
def lastMats : List Call → String × List Int
  | [] => ("all", [])
  | .mats t l :: cs => if cs.any (fun c => match c with | .mats _ _ => true | _ => false) then lastMats cs else (t, l.getD [])
  | .cells _ _ :: cs => lastMats cs

/-- what `"include"` and `"exclude"` mean; any other type means `"all"` -/
def Keeps {α : Type} (f : String × List α) (x : α) : Prop := (f.1 = "include" → x ∈ f.2) ∧ (f.1 = "exclude" → x ∉ f.2)

instance {α : Type} [DecidableEq α] (f : String × List α) (x : α) : Decidable (Keeps f x) := by unfold Keeps; infer_instance

/-- a material filter applied to a cell that may have no material -/
def KeepsMat (f : String × List Int) : Option Int → Prop
  | some m => Keeps f m
  | none => f.1 ≠ "include"

instance (f : String × List Int) (m : Option Int) : Decidable (KeepsMat f m) := by
  cases m <;> (unfold KeepsMat; infer_instance)

/-- the cell is wanted: its number passes the cell filter, and its material the material filter, unless the cell is filled with a universe -/
def Wanted (calls : List Call) (c : SCell) : Prop :=
  Keeps (lastCells calls) c.name ∧ (c.fill = none → KeepsMat (lastMats calls) c.mat)

instance (calls : List Call) (c : SCell) : Decidable (Wanted calls c) := by unfold Wanted; infer_instance

/-- every `include` call brings a list -/
def ListsGiven (calls : List Call) : Prop := ∀ c ∈ calls, c ≠ .cells "include" none ∧ c ≠ .mats "include" none

end Geouned.Rev
