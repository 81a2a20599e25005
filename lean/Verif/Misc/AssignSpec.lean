import Verif.Misc.Assign
import Verif.Misc.EnclSpec
/-!
# Specification: solids and enclosures as sets of points
-/
namespace Geouned.Encl

/-- the enclosures are nested as their labels say: a son inside its parent, brothers without common points -/
structure Placed {P : Type} (es : List Encl) (reg : Encl → P → Prop) : Prop where
  inside : ∀ e ∈ es, ∀ e' ∈ es, e.parent = e'.id → ∀ p, reg e p → reg e' p
  apart : ∀ e ∈ es, ∀ e' ∈ es, e.parent = e'.parent → ∀ p, reg e p → reg e' p → e = e'

/-- what the answers of `check_intersection` say of a solid with the points `S` -/
structure Answers {P : Type} (es : List Encl) (reg : Encl → P → Prop) (S : P → Prop) (inter : Encl → Int) : Prop where
  disjoint : ∀ e ∈ es, inter e = 1 ↔ ¬ ∃ p, S p ∧ reg e p
  inside : ∀ e ∈ es, inter e = -1 ↔ (∃ p, S p ∧ reg e p) ∧ ∀ p, S p → reg e p
  around : ∀ e ∈ es, inter e = -2 ↔ (∃ p, S p ∧ reg e p) ∧ (¬ ∀ p, S p → reg e p) ∧ ∀ p, reg e p → S p
  partly : ∀ e ∈ es, inter e = 0 ↔ (∃ p, S p ∧ reg e p) ∧ (¬ ∀ p, S p → reg e p) ∧ ¬ ∀ p, reg e p → S p

/-- the point is in the enclosure and in no enclosure inside it -/
def Own {P : Type} (es : List Encl) (reg : Encl → P → Prop) (e : Encl) (p : P) : Prop :=
  reg e p ∧ ∀ c ∈ es, c.parent = e.id → ¬ reg c p

/-- the points of an object given to `get_void_def` -/
def Obj.pts {P : Type} (reg : Encl → P → Prop) (S : Sol → P → Prop) : Obj → P → Prop
  | .encl e => reg e
  | .sol m => S m

/-- the cells hold each point of `A` that is in none of the objects exactly once, and no other point -/
def Fills {P γ : Type} (holds : γ → P → Bool) (A : P → Prop) (objs : List (P → Prop)) (cells : List γ) : Prop :=
  ∀ p, ((A p ∧ ∀ o ∈ objs, ¬ o p) → cells.countP (holds · p) = 1) ∧ (¬ (A p ∧ ∀ o ∈ objs, ¬ o p) → cells.countP (holds · p) = 0)

end Geouned.Encl
