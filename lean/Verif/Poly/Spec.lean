import Verif.Bool.Spec
/-!
# Specification: a cell described by planes

For the bounding box of a cell GEOReverse stands planes for the curved surfaces of the cell. This file says what a set of planes means; it
mentions no function of the code.
-/
namespace Geouned.Poly
open Geouned

mutual
/-- the signed surface number `n` is written in the expression -/
def Has (n : Int) : Seq → Prop
  | .int m => m = n
  | .boo _ _ _ => False
  | .lst _ _ es => HasL n es
def HasL (n : Int) : List Seq → Prop
  | [] => False
  | e :: es => Has n e ∨ HasL n es
end

/-- The planes that stand for one curved surface, all with the normal to the inside. `P`: planes or their numbers. -/
inductive Group (P : Type) where
  /-- a convex body: the inside is the side where all planes are positive -/
  | flat (ps : List P)
  /-- a cone of one sheet: the same, but the planes are also used for the outside -/
  | cone (ps : List P)
  /-- a cone of two sheets: all planes positive, or all negative -/
  | dbl (ps : List P)
  /-- a torus: inside of all `ext`, and outside of the hole, i.e. on the positive side of one of `inn` (if there are any) -/
  | torus (ext inn : List P)

/-- the point is inside the planes; `on p`: it is on the positive side of `p` -/
def Group.Inside {P : Type} (on : P → Prop) : Group P → Prop
  | .flat ps => ∀ p ∈ ps, on p
  | .cone ps => ∀ p ∈ ps, on p
  | .dbl ps => (∀ p ∈ ps, on p) ∨ ∀ p ∈ ps, ¬ on p
  | .torus ext inn => (∀ p ∈ ext, on p) ∧ (inn ≠ [] → ∃ p ∈ inn, on p)

/-- the planes stand for both sides of the surface -/
def Group.twoSided {P : Type} : Group P → Bool
  | .cone _ => true
  | .dbl _ => true
  | _ => false

/-- the group has the planes it needs: `flat []` is the answer for a type of surface that is not supported -/
def Group.Ok {P : Type} : Group P → Prop
  | .flat _ => True
  | .cone ps => ps ≠ []
  | .dbl ps => ps ≠ []
  | .torus ext _ => ext ≠ []

/-- a surface of the cell: a plane, or a curved surface with its planes; the planes may be taken around the surface (`some false`), inside of it
(`some true`), or between (`none`) -/
inductive Surf (P : Type) where
  | plane (p : P)
  | curved (planes : Option Bool → Group P)

variable {P : Type}

/-- A cell: an expression of surfaces, all of them known; the curved ones are of a type for which there are planes. -/
structure Cell (surfaces : Nat → Option (Surf P)) (d : Seq) : Prop where
  expr : d.NoBool
  list : ∃ op l es, d = .lst op l es
  known : ∀ n, Has n d → n ≠ 0 ∧ (surfaces n.natAbs).isSome
  group : ∀ n conv, surfaces n = some (.curved conv) → ∀ pos, (conv pos).Ok

/-- there are planes for every curved surface -/
def Supported (surfaces : Nat → Option (Surf P)) : Prop :=
  ∀ n conv, surfaces n = some (.curved conv) → ∀ pos, conv pos ≠ .flat []

/-- A point, by its sides: `σ n`, it is on the positive side of surface `n`; `on p`, on the positive side of plane `p`. The planes around a curved
surface contain its inside, and the planes inside of it (which matter only where the planes also stand for the outside) are contained in it. -/
structure Point (surfaces : Nat → Option (Surf P)) (σ : Side) (on : P → Bool) : Prop where
  plane : ∀ n p, surfaces n = some (.plane p) → σ n = on p
  around : ∀ n conv, surfaces n = some (.curved conv) → σ n = false → (conv (some false)).Inside fun p => on p = true
  within : ∀ n conv, surfaces n = some (.curved conv) → (conv (some true)).twoSided = true → ((conv (some true)).Inside fun p => on p = true) → σ n = false

/-- no curved surface is used with both signs, unless its planes are always the same -/
def OneSign (surfaces : Nat → Option (Surf P)) (d : Seq) : Prop :=
  ∀ (n : Nat) conv, surfaces n = some (.curved conv) → Has n d → Has (-(n : Int)) d → conv (some true) = conv (some false)

end Geouned.Poly
