import Verif.Void.PieceModel
import Verif.Whole.Spec
/-!
# Specification: the void boxes of an enclosure at a point (C124)
-/
namespace Geouned.Void
open Geouned.Box

/-- the answers of the kernel fit to the point `q`; `In s`: the point is in the solid `s` -/
structure Kernel.Fits {S : Type} (K : Kernel S) (q : Pt) (In : S → Prop) : Prop where
  /-- a solid lies in its bounding box -/
  bbox : ∀ s, In s → (K.bbox s).Int q
  /-- a box at a distance from the solid has no point in common with it -/
  far : ∀ b s, K.far b s = true → ¬ (b.Int q ∧ In s)
  /-- a box with the volume of what it has in common with the solid lies in the solid -/
  full : ∀ b s, K.full b s = true → b.Int q → In s
  /-- the solids of the common part are the points of the box and of the solid -/
  common : ∀ b s, (∃ x ∈ K.common b s, In x) ↔ (b.Int q ∧ In s)
  /-- the solids of the common part are not empty and lie in the box -/
  inside : ∀ b s, ∀ x ∈ K.common b s, (K.bbox x).Proper ∧ b.xmin ≤ (K.bbox x).xmin ∧ (K.bbox x).xmax ≤ b.xmax ∧ b.ymin ≤ (K.bbox x).ymin ∧ (K.bbox x).ymax ≤ b.ymax ∧
    b.zmin ≤ (K.bbox x).zmin ∧ (K.bbox x).zmax ≤ b.zmax

/-- the point is in the region of the void box: in the piece, or in the box -/
def PBox.Holds {S Ω : Type} (q : Pt) (In : S → Prop) (z : PBox S Ω) : Prop :=
  match z.piece with
  | none => z.box.Int q
  | some s => In s

/-- a box made from `z` by any number of splits -/
inductive Reach {β : Type} (split : β → Option (List β)) (z : β) : β → Prop
  | refl : Reach split z z
  | step {y b : β} {ps : List β} : Reach split z y → split y = some ps → b ∈ ps → Reach split z b

end Geouned.Void
