import Verif.BB.Fine
import Verif.Nest.Model
/-!
# Specification: the bounding box of a nested definition of planes (C121)

`Fits` lists the level-0 definitions whose box is right (the cases of C78). `Fit` is what is required of a nested definition: its parts fit, and no intersection in it is a sliver.
-/
namespace Geouned.Nest
open Geouned Geouned.Rev.Solid Geouned.BB

variable {F : Type} [Field F] [LinearOrder F] [IsStrictOrderedRing F]

/-- the half-space `n` does not hold `k`, which is farther from its plane than the tolerance -/
def ClearlyNot (c : Comp F) (n : Int) (k : Pt F) : Prop :=
  (0 < n → (c.planes n.natAbs).ev k ≤ -c.tol) ∧ (n < 0 → c.tol ≤ (c.planes n.natAbs).ev k)

/-- the level-0 definitions of C78: intersections and unions of half-spaces -/
inductive Fits (c : Comp F) : Prop where
  /-- an intersection that lies in the external box, not a sliver, away from some corner of the universe -/
  | inside (lits : List Int) (h : Fine c .and lits) (hin : ∀ x, AllOf c.planes lits x → c.out.Mem x) (hw : Wide (AllOf c.planes lits))
      (hfar : ∃ k, c.univ.Corner k ∧ ∃ n ∈ lits, ClearlyNot c n k)
  /-- an intersection that goes on outside of the universe; no line of two planes crosses an edge of the external box -/
  | cut (lits : List Int) (h : Fine c .and lits) (hw : Wide (fun x => AllOf c.planes lits x ∧ c.out.Mem x))
      (hfar : ∃ k, c.univ.Corner k ∧ ∃ n ∈ lits, ClearlyNot c n k)
      (hnear : ∃ k, c.univ.Corner k ∧ ∀ n ∈ lits, (0 < n → -c.tol < (c.planes n.natAbs).ev k) ∧ (n < 0 → (c.planes n.natAbs).ev k < c.tol))
      (hedge : ∀ m ∈ lits, ∀ n ∈ lits, cross (c.planes m.natAbs).nrm (c.planes n.natAbs).nrm ≠ ⟨0, 0, 0⟩ →
        ∀ p, c.out.Edge p → ¬ ((c.planes m.natAbs).ev p = 0 ∧ (c.planes n.natAbs).ev p = 0))
  /-- a union that holds some corner of the universe, but not all of them -/
  | union (lits : List Int) (h : Fine c .or lits) (hw : Wide (fun x => OneOf c.planes lits x ∧ c.out.Mem x))
      (hfar : ∃ k, c.univ.Corner k ∧ ∀ n ∈ lits, ClearlyNot c n k) (hnear : ∃ k, c.univ.Corner k ∧ OneOf c.planes lits k)
  /-- a union whose complement lies in the external box and is not a sliver -/
  | outside (lits : List Int) (h : Fine c .or lits) (hin : ∀ x, AllOf c.planes (lits.map (fun n => -n)) x → c.out.Mem x)
      (hw : Wide (AllOf c.planes (lits.map (fun n => -n)))) (hnear : ∀ k, c.univ.Corner k → OneOf c.planes lits k)
  /-- an intersection that fills the universe -/
  | everywhere (lits : List Int) (h : Fine c .and lits) (hu : ∀ x, c.out.Mem x → c.univ.Mem x)
      (hin : ∀ k, c.univ.Corner k → ∀ n ∈ lits, (0 < n → 0 < (c.planes n.natAbs).ev k) ∧ (n < 0 → (c.planes n.natAbs).ev k < 0))
  /-- a union that does not come near the universe -/
  | nowhere (lits : List Int) (h : Fine c .or lits) (hu : ∀ x, c.out.Mem x → c.univ.Mem x)
      (hin : ∀ k, c.univ.Corner k → ∀ n ∈ lits, ClearlyNot c n k)

/-- empty, or at least 2.1 mm wide along each axis -/
def NoSliver (R : Pt F → Prop) : Prop := (∀ x, ¬ R x) ∨ Wide R

mutual
/-- a nested definition of planes: the definitions of level 0 fit, the others are operations on at least one definition, and what an intersection has in the external box is not a
sliver. Nothing is required of unions. -/
def Fit (g : Ctx F) : Seq → Prop
  | .int _ => False
  | .boo _ _ _ => True
  | .lst op l es => if l = 0 then Fits (g.comp (.lst op l es))
      else es ≠ [] ∧ FitL g es ∧ (op = .and → NoSliver fun x => g.out.Mem x ∧ Region g.planes (.lst op l es) x)
/-- all of them -/
def FitL (g : Ctx F) : List Seq → Prop
  | [] => True
  | e :: es => Fit g e ∧ FitL g es
end

mutual
/-- the form of a definition that can be walked through: the elements of a sequence of level 0 are looked at as a whole, those of another sequence are sequences, at least one -/
def Shaped : Seq → Prop
  | .int _ => False
  | .boo _ _ _ => True
  | .lst _ l es => l = 0 ∨ (es ≠ [] ∧ ShapedL es)
/-- all of them -/
def ShapedL : List Seq → Prop
  | [] => True
  | e :: es => Shaped e ∧ ShapedL es
end

end Geouned.Nest
