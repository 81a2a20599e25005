import Verif.RCore.SetModel
/-!
# Specification of C126: the box in which GEOReverse builds
-/
namespace Geouned.RCore

/-- `b` is the box that the values `dims` and `radius` ask for: the box of the dimensions, or the cube of the radius around the origin -/
def Asks (radius : ℚ) (dims : Option (List ℚ)) (b : Box) : Prop :=
  (dims = Option.none ∧ b = ⟨-radius, -radius, -radius, radius, radius, radius⟩) ∨
  ∃ x0 y0 z0 x1 y1 z1, dims = some [x0, y0, z0, x1, y1, z1] ∧ b = ⟨x0, y0, z0, x1, y1, z1⟩

/-- the box has a size that the CAD kernel can see -/
def Thick (b : Box) : Prop := 1 / 10 ^ 12 < b.xmax - b.xmin ∧ 1 / 10 ^ 12 < b.ymax - b.ymin ∧ 1 / 10 ^ 12 < b.zmax - b.zmin

/-- the point is in the box -/
def Box.Has (b : Box) (x y z : ℚ) : Prop := b.xmin ≤ x ∧ x ≤ b.xmax ∧ b.ymin ≤ y ∧ y ≤ b.ymax ∧ b.zmin ≤ z ∧ z ≤ b.zmax

/-- a session that begins after the import and ends in `s` -/
def Reached (os : List Op) (s : State) : Prop := runOps os start = s

/-- the statement changes the radius or the dimensions of the object `i` -/
def Resizes (i : Nat) : Op → Prop
  | .setRadius j _ => j = i
  | .setDims j _ => j = i
  | _ => False

/-- the values that the documentation asks for: numbers (no `True`, `False`), and None or a sequence of six numbers, minima below maxima -/
def Documented (r t d : V) : Prop :=
  (∃ q, r = .num q) ∧ (∃ q, t = .num q) ∧
  (d = .none ∨ ∃ x0 y0 z0 x1 y1 z1, d = .seq [.num x0, .num y0, .num z0, .num x1, .num y1, .num z1] ∧ x0 < x1 ∧ y0 < y1 ∧ z0 < z1)

end Geouned.RCore
