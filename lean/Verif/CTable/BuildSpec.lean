import Verif.CTable.BuildModel
/-!
# What the CAD kernel is taken to do when a constraint table is made

`inP p q`: point `q` is in the solid `p`. The points are those on no surface: a table speaks about the sides of surfaces.
-/
namespace Geouned

/-- the kernel does what its functions are for: `inside` gives a point of the solid; the pieces of the box cover it and are parts of it, and none of them crosses the surface
that cut it; a surface that does not cut the box into several pieces, or has no shape, does not cross the box; a solid away from a surface does not cross it -/
structure CutKernel.Honest {P Q : Type} (K : CutKernel P Q) (inP : P → Q → Prop) : Prop where
  inside_box : inP K.box (K.inside K.box)
  inside : ∀ s, ∀ p ∈ K.cut s, inP p (K.inside p)
  cover : ∀ s q, inP K.box q → ∃ p ∈ K.cut s, inP p q
  part : ∀ s q, ∀ p ∈ K.cut s, inP p q → inP K.box q
  piece : ∀ s, ∀ p ∈ K.cut s, ∀ q q', inP p q → inP p q' → K.positive q s = K.positive q' s
  whole : ∀ s, K.hasShape s = false ∨ (K.cut s).length ≤ 1 → ∀ q q', inP K.box q → inP K.box q' → K.positive q s = K.positive q' s
  away : ∀ s1 s2, ∀ p ∈ K.cut s1, K.hasShape s2 = false ∨ K.far p s2 = true → ∀ q q', inP p q → inP p q' → K.positive q s2 = K.positive q' s2

/-- the surface has points of the box on both of its sides -/
def CutKernel.Crosses {P Q : Type} (K : CutKernel P Q) (inP : P → Q → Prop) (s : Nat) : Prop :=
  (∃ q, inP K.box q ∧ K.positive q s = true) ∧ ∃ q, inP K.box q ∧ K.positive q s = false

/-- every surface that cuts the box leaves pieces on both of its sides -/
def CutKernel.BothSides {P Q : Type} (K : CutKernel P Q) (surfs : List Nat) : Prop :=
  ∀ s ∈ surfs, K.hasShape s = true → 1 < (K.cut s).length → (∃ p ∈ K.cut s, K.positive (K.inside p) s = true) ∧ ∃ p ∈ K.cut s, K.positive (K.inside p) s = false

/-- a solid that is not away from a surface has points on both sides of it -/
def CutKernel.Exact {P Q : Type} (K : CutKernel P Q) (inP : P → Q → Prop) : Prop :=
  ∀ s1 s2, ∀ p ∈ K.cut s1, K.hasShape s2 = true → K.far p s2 = false → (∃ q, inP p q ∧ K.positive q s2 = true) ∧ ∃ q, inP p q ∧ K.positive q s2 = false

end Geouned
