import Verif.Text.Spec
/-! # Specification: partial knowledge about the side of surfaces -/
namespace Geouned.RBool
open Geouned

/-- the point `σ` is one of those that the dictionary describes: where a side is known it is the side of the point -/
def Fits (σ : Side) (vs : Nat → Option (Option Bool)) : Prop := ∀ n b, vs n = some (some b) → σ n = b

/-- the surfaces written in a text -/
def written (ts : List Text.Tok) (n : Nat) : Prop := ∃ k : Int, Text.Tok.num k ∈ ts ∧ k.natAbs = n

end Geouned.RBool
