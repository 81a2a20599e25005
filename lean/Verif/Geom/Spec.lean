import Mathlib.Data.Real.Sqrt
import Mathlib.Tactic.Ring
import Mathlib.Tactic.Linarith
import Mathlib.Tactic.LinearCombination
import Mathlib.Tactic.FieldSimp
import Mathlib.Tactic.Positivity
/-!
# Specification: points, axes and the solids of revolution

Everything is over the real numbers: the floating point rounding of the code is not modelled.
-/
namespace Geouned.Geom

/-- `FreeCAD.Vector` -/
@[ext] structure Vec where
  x : ℝ
  y : ℝ
  z : ℝ

namespace Vec
def add (a b : Vec) : Vec := ⟨a.x + b.x, a.y + b.y, a.z + b.z⟩
def sub (a b : Vec) : Vec := ⟨a.x - b.x, a.y - b.y, a.z - b.z⟩
def smul (t : ℝ) (a : Vec) : Vec := ⟨t * a.x, t * a.y, t * a.z⟩
def dot (a b : Vec) : ℝ := a.x * b.x + a.y * b.y + a.z * b.z
def cross (a b : Vec) : Vec := ⟨a.y * b.z - a.z * b.y, a.z * b.x - a.x * b.z, a.x * b.y - a.y * b.x⟩
/-- squared length -/
def sq (a : Vec) : ℝ := dot a a
end Vec

/-- squared distance of two points -/
def distSq (p q : Vec) : ℝ := (p.sub q).sq

/-- the point of parameter `t` of the axis through `c` with direction `a` -/
def onAxis (c a : Vec) (t : ℝ) : Vec := c.add (Vec.smul t a)

/-- strictly inside the infinite cylinder: some point of the axis is nearer than the radius -/
def InCyl (c a : Vec) (r : ℝ) (p : Vec) : Prop := ∃ t, distSq p (onAxis c a t) < r ^ 2

/-- strictly outside the infinite cylinder: every point of the axis is farther than the radius -/
def OutCyl (c a : Vec) (r : ℝ) (p : Vec) : Prop := ∀ t, r ^ 2 < distSq p (onAxis c a t)

/-- `p` lies at height `t` along the axis (in units of `a`) and at offset `w` from it -/
def Decomp (c a p : Vec) (t : ℝ) (w : Vec) : Prop := p.sub c = (Vec.smul t a).add w ∧ a.dot w = 0

/-- strictly inside the double cone of apex `c`, axis `a` and tangent `k`: distance to the axis less than `k` times the
distance to the apex along the axis -/
def InCone (c a : Vec) (k : ℝ) (p : Vec) : Prop := ∃ t w, Decomp c a p t w ∧ w.sq < k ^ 2 * (t ^ 2 * a.sq)

/-- strictly outside the double cone -/
def OutCone (c a : Vec) (k : ℝ) (p : Vec) : Prop := ∃ t w, Decomp c a p t w ∧ k ^ 2 * (t ^ 2 * a.sq) < w.sq

/-- value at `p` of the general quadric `GQ A B C D E F G H J K` of the MCNP manual:
`A x² + B y² + C z² + D xy + E yz + F zx + G x + H y + J z + K` -/
structure GQ where
  (A B C D E F G H J K : ℝ)

def GQ.eval (q : GQ) (p : Vec) : ℝ :=
  q.A * p.x ^ 2 + q.B * p.y ^ 2 + q.C * p.z ^ 2 + q.D * (p.x * p.y) + q.E * (p.y * p.z) + q.F * (p.z * p.x) +
    q.G * p.x + q.H * p.y + q.J * p.z + q.K

/-- three points do not lie on a line -/
def NonCollinear (p1 p2 p3 : Vec) : Prop := ((p2.sub p1).cross (p3.sub p1)).sq ≠ 0

end Geouned.Geom
