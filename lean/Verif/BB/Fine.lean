import Verif.BB.Model
/-!
# Specification: the inputs for which the bounding box of a level-0 definition is computed (C78, C121)
-/
namespace Geouned.BB
open Geouned Geouned.Rev.Solid

variable {F : Type} [Field F] [LinearOrder F] [IsStrictOrderedRing F]

/-- the input of the computation: an intersection (`op = .and`) or a union of half-spaces given by signed plane numbers,
planes with unit normals, the tolerance larger than 0.3 (it is 1 by default), an external box with a volume -/
structure Fine (c : Comp F) (op : Op) (lits : List Int) : Prop where
  definition : c.definition = .lst op 0 (lits.map .int)
  surfaces : ∀ k, k ∈ c.nums ↔ ∃ n ∈ lits, n.natAbs = k
  nonzero : ∀ n ∈ lits, n ≠ 0
  unit : ∀ k ∈ c.nums, dot (c.planes k).nrm (c.planes k).nrm = 1
  tol : 3 / 10 < c.tol
  out : c.out.Solid

end Geouned.BB
