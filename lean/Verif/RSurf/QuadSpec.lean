import Verif.Geom.CardSpec
/-!
# Specification for the quadrics GQ and SQ

`IsEigh`: what `numpy.linalg.eigh` promises. `Principal`: the equation of a quadric referred to its principal axes.
-/
namespace Geouned.RSurf
open Geouned.Geom

/-- eigenvalues and eigenvectors -/
structure Eig where
  e : Fin 3 → ℝ
  u : Fin 3 → Vec

/-- three unit vectors at right angles -/
def Orthonormal3 (u : Fin 3 → Vec) : Prop := ∀ i j, (u i).dot (u j) = if i = j then 1 else 0

/-- the terms of second degree of the quadric -/
def quadPart (q : GQ) (p : Vec) : ℝ :=
  q.A * p.x ^ 2 + q.B * p.y ^ 2 + q.C * p.z ^ 2 + q.D * (p.x * p.y) + q.E * (p.y * p.z) + q.F * (p.z * p.x)

/-- `numpy.linalg.eigh` of the symmetric matrix of the second-degree terms: eigenvalues in ascending order, orthonormal eigenvectors -/
def IsEigh (q : GQ) (E : Eig) : Prop :=
  Orthonormal3 E.u ∧ E.e 0 ≤ E.e 1 ∧ E.e 1 ≤ E.e 2 ∧
    ∀ p, quadPart q p = E.e 0 * (E.u 0).dot p ^ 2 + E.e 1 * (E.u 1).dot p ^ 2 + E.e 2 * (E.u 2).dot p ^ 2

/-- The quadric has centre `c`, principal axes `w` and the equation `l0 X² + l1 Y² + l2 Z² + K = 0` in them, `l0 ≤ l1 ≤ l2`. -/
def Principal (q : GQ) (w : Fin 3 → Vec) (c : Vec) (l0 l1 l2 K : ℝ) : Prop :=
  Orthonormal3 w ∧ l0 ≤ l1 ∧ l1 ≤ l2 ∧
    ∀ p, q.eval p = l0 * (w 0).dot (p.sub c) ^ 2 + l1 * (w 1).dot (p.sub c) ^ 2 + l2 * (w 2).dot (p.sub c) ^ 2 + K

/-- the equation of the card `SQ A B C D E F G x y z` -/
def eqSQ (a b c d e f g x y z : ℝ) (p : Vec) : ℝ :=
  a * (p.x - x) ^ 2 + b * (p.y - y) ^ 2 + c * (p.z - z) ^ 2 + 2 * d * (p.x - x) + 2 * e * (p.y - y) + 2 * f * (p.z - z) + g

end Geouned.RSurf
