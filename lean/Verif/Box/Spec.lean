import Mathlib.Data.Real.Basic
import Mathlib.Tactic.Linarith
import Mathlib.Tactic.Push
/-!
# Specification: axis-aligned boxes and the points they hold (real arithmetic)
-/
namespace Geouned.Box

/-- a point -/
@[ext] structure Pt where
  x : ℝ
  y : ℝ
  z : ℝ

/-- a box given by its two corners (`FreeCAD.BoundBox`) -/
@[ext] structure BBox where
  (xmin xmax ymin ymax zmin zmax : ℝ)

/-- closed box -/
def BBox.Mem (b : BBox) (p : Pt) : Prop :=
  (b.xmin ≤ p.x ∧ p.x ≤ b.xmax) ∧ (b.ymin ≤ p.y ∧ p.y ≤ b.ymax) ∧ (b.zmin ≤ p.z ∧ p.z ≤ b.zmax)

/-- interior of the box -/
def BBox.Int (b : BBox) (p : Pt) : Prop :=
  (b.xmin < p.x ∧ p.x < b.xmax) ∧ (b.ymin < p.y ∧ p.y < b.ymax) ∧ (b.zmin < p.z ∧ p.z < b.zmax)

/-- a box with at least one point -/
def BBox.Proper (b : BBox) : Prop := b.xmin ≤ b.xmax ∧ b.ymin ≤ b.ymax ∧ b.zmin ≤ b.zmax

end Geouned.Box
