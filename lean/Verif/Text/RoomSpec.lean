import Verif.Bool.Model
/-!
# Specification: the size of the numbers of an expression
-/
namespace Geouned.Text

mutual
/-- the numbers of the expression are smaller than `N` -/
def Below (N : Nat) : Seq → Prop
  | .int n => n.natAbs < N
  | .boo _ _ _ => True
  | .lst _ _ es => BelowL N es
def BelowL (N : Nat) : List Seq → Prop
  | [] => True
  | e :: es => Below N e ∧ BelowL N es
end

end Geouned.Text
