import Verif.Bool.Spec
/-!
# Specification: a list of cells divides space (C122)
-/
namespace Geouned.Whole

/-- exactly one place of the list holds an element with the property -/
def ExactlyOne {α : Type} (P : α → Prop) (l : List α) : Prop :=
  ∃ l1 a l2, l = l1 ++ a :: l2 ∧ P a ∧ ∀ b ∈ l1 ++ l2, ¬ P b

/-- at most one place of the list holds an element with the property -/
def AtMostOne {α : Type} (P : α → Prop) (l : List α) : Prop := l.Pairwise fun a b => ¬ (P a ∧ P b)

end Geouned.Whole
