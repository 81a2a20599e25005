import Verif.Misc.Encl
/-!
# Specification of the enclosure hierarchy
-/
namespace Geouned.Encl

/-- `Depth es e k`: going up from parent to parent, `e` reaches the top level (identifier 0) after `k` steps -/
inductive Depth (es : List Encl) : Encl → Nat → Prop
  | top {e} : e ∈ es → e.parent = 0 → Depth es e 1
  | sub {e e' k} : e ∈ es → Depth es e' k → e.parent = e'.id → Depth es e (k + 1)

/-- the labels define a hierarchy: 0 is not used as identifier, no identifier is used twice, and every enclosure has a chain of
parents up to the top level -/
def Hierarchy (es : List Encl) : Prop :=
  es ≠ [] ∧ (∀ e ∈ es, e.id ≠ 0) ∧ (es.map Encl.id).Nodup ∧ ∀ e ∈ es, ∃ k, Depth es e k

/-- `k` is the least depth of `e` -/
def LeastDepth (es : List Encl) (e : Encl) (k : Nat) : Prop := Depth es e k ∧ ∀ j, Depth es e j → k ≤ j

end Geouned.Encl
