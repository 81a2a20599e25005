import Verif.Shape.Model
import Verif.RSurf.LoopLemmas
import Verif.Poly.Props
/-!
# Lemmas for C115
-/
namespace Geouned.Shape
open Geouned.Geom Geouned.RSurf

/-! ## Vectors -/

theorem dot_add (a b c : Vec) : a.dot (b.add c) = a.dot b + a.dot c := by simp only [Vec.dot, Vec.add]; ring
theorem dot_sub (a b c : Vec) : a.dot (b.sub c) = a.dot b - a.dot c := by simp only [Vec.dot, Vec.sub]; ring
theorem dot_smul (a b : Vec) (k : ℝ) : a.dot (Vec.smul k b) = k * a.dot b := by simp only [Vec.dot, Vec.smul]; ring
theorem add_dot (a b c : Vec) : (a.add b).dot c = a.dot c + b.dot c := by simp only [Vec.dot, Vec.add]; ring
theorem sub_dot (a b c : Vec) : (a.sub b).dot c = a.dot c - b.dot c := by simp only [Vec.dot, Vec.sub]; ring
theorem smul_dot (a b : Vec) (k : ℝ) : (Vec.smul k a).dot b = k * a.dot b := by simp only [Vec.dot, Vec.smul]; ring
theorem opp_dot (a b : Vec) : (opp a).dot b = - a.dot b := by simp only [opp, Vec.dot, Vec.smul]; ring
theorem dot_opp (a b : Vec) : a.dot (opp b) = - a.dot b := by simp only [opp, Vec.dot, Vec.smul]; ring
theorem dot_comm (a b : Vec) : a.dot b = b.dot a := by simp only [Vec.dot]; ring
theorem opp_sq (a : Vec) : (opp a).sq = a.sq := by simp only [opp, Vec.sq, Vec.dot, Vec.smul]; ring
theorem sub_add (q c v : Vec) : q.sub (c.add v) = (q.sub c).sub v := by
  ext <;> simp only [Vec.sub, Vec.add] <;> ring
theorem sub_sub (q c v : Vec) : q.sub (c.sub v) = (q.sub c).add v := by
  ext <;> simp only [Vec.sub, Vec.add] <;> ring

/-! ## `Part.Plane` -/

/-- the plane that is made -/
noncomputable def unitPl (e : Vec × Vec) : Pl := ⟨e.1, Vec.smul (1 / e.2.len) e.2⟩

theorem partPlane_eq {e : Vec × Vec} (h : e.2.sq ≠ 0) : partPlane e = some (unitPl e) := by
  simp [partPlane, normalize_ne h, unitPl]

theorem partPlanes_eq : ∀ {l : List (Vec × Vec)}, (∀ e ∈ l, e.2.sq ≠ 0) → partPlanes l = some (l.map unitPl)
  | [], _ => rfl
  | e :: l, h => by
    rw [partPlanes, partPlane_eq (h e (by simp)), Option.bind_some, partPlanes_eq fun e he => h e (by simp [he])]
    rfl

theorem unitPl_on {e : Vec × Vec} (h : e.2.sq ≠ 0) (q : Vec) : (unitPl e).On q ↔ 0 < e.2.dot (q.sub e.1) := by
  have hl := len_pos h
  simp only [Pl.On, unitPl, smul_dot]
  constructor
  · intro hh
    exact (pos_iff_pos_of_mul_pos hh).1 (by positivity)
  · intro hh; positivity

theorem unitPl_unit {e : Vec × Vec} (h : e.2.sq ≠ 0) : (unitPl e).nrm.sq = 1 := normalize_sq (normalize_ne h)

/-! ## An orthonormal frame -/

/-- `x`, `y`, `a` are unit vectors at right angles, `y = x × a` -/
structure Frame (x y a : Vec) : Prop where
  xx : x.sq = 1
  yy : y.sq = 1
  aa : a.sq = 1
  xy : x.dot y = 0
  xa : x.dot a = 0
  ya : y.dot a = 0
  hand : y = x.cross a

theorem Frame.parseval {x y a : Vec} (h : Frame x y a) (r : Vec) : r.sq = r.dot x ^ 2 + r.dot y ^ 2 + r.dot a ^ 2 := by
  have e : (r.dot (x.cross a)) ^ 2 = r.sq * (x.sq * a.sq - x.dot a ^ 2) - r.dot x * (r.dot x * a.sq - r.dot a * x.dot a)
      + r.dot a * (r.dot x * x.dot a - r.dot a * x.sq) := by
    simp only [Vec.sq, Vec.dot, Vec.cross]; ring
  rw [h.xx, h.aa, h.xa] at e
  rw [h.hand]
  linarith

theorem cross_dot_self (x a : Vec) : x.dot (x.cross a) = 0 := by simp only [Vec.dot, Vec.cross]; ring
theorem cross_dot_right (x a : Vec) : (x.cross a).dot a = 0 := by simp only [Vec.dot, Vec.cross]; ring

theorem ortoAxis_eq {a : Vec} (h : a.sq = 1) : ∃ x y, ortoAxis a = some (x, y) ∧ Frame x y a := by
  have hx : (a.cross vX).sq = a.y ^ 2 + a.z ^ 2 := by simp only [Vec.sq, Vec.dot, Vec.cross, vX]; ring
  have hz : (a.cross vZ).sq = a.x ^ 2 + a.y ^ 2 := by simp only [Vec.sq, Vec.dot, Vec.cross, vZ]; ring
  have ha : a.x ^ 2 + a.y ^ 2 + a.z ^ 2 = 1 := by rw [← h]; simp only [Vec.sq, Vec.dot]; ring
  set v0 := if (a.cross vX).len < (a.cross vZ).len then a.cross vZ else a.cross vX with hv0
  have hne : v0.sq ≠ 0 := by
    rw [hv0]
    split
    · rename_i hl
      have : 0 < (a.cross vZ).len := lt_of_le_of_lt (len_nonneg _) hl
      intro h0
      simp [Vec.len, h0] at this
    · rename_i hl
      intro h0
      have h1 : (a.cross vX).len = 0 := by simp [Vec.len, h0]
      rw [h1, not_lt] at hl
      have h2 : (a.cross vZ).sq = 0 := by
        have := le_antisymm hl (len_nonneg _)
        rw [Vec.len, Real.sqrt_eq_zero (by rw [hz]; positivity)] at this
        exact this
      rw [hx] at h0; rw [hz] at h2
      nlinarith [sq_nonneg a.x, sq_nonneg a.y, sq_nonneg a.z]
  have hperp : v0.dot a = 0 := by
    rw [hv0]; split <;> (simp only [Vec.dot, Vec.cross]; ring)
  set v := Vec.smul (1 / v0.len) v0 with hv
  have e1 : v0.normalize = some v := normalize_ne hne
  have hvv : v.sq = 1 := normalize_sq e1
  have hva : v.dot a = 0 := by rw [hv, smul_dot, hperp, mul_zero]
  have hw : (v.cross a).sq = 1 := by rw [cross_sq, hvv, h, hva]; norm_num
  refine ⟨v, v.cross a, ?_, ⟨hvv, hw, h, cross_dot_self v a, hva, cross_dot_right v a, rfl⟩⟩
  show v0.normalize.bind _ = _
  rw [e1, Option.bind_some, normalize_unit hw]
  rfl

theorem Frame.ne {x y a : Vec} (h : Frame x y a) : x.sq ≠ 0 ∧ y.sq ≠ 0 ∧ a.sq ≠ 0 := by
  rw [h.xx, h.yy, h.aa]; simp

/-- height and distance to the axis, in a frame -/
theorem Frame.decomp {x y a P q w : Vec} {t : ℝ} (h : Frame x y a) (hd : Decomp P a q t w) :
    (q.sub P).dot a = t ∧ w.sq = (q.sub P).dot x ^ 2 + (q.sub P).dot y ^ 2 := by
  have ht : (q.sub P).dot a = t := by
    rw [hd.1, add_dot, smul_dot, dot_comm w, hd.2, add_zero]
    show t * a.sq = t
    rw [h.aa, mul_one]
  refine ⟨ht, ?_⟩
  have hw : w = (q.sub P).sub (Vec.smul t a) := by
    rw [hd.1]; ext <;> simp only [Vec.sub, Vec.add, Vec.smul] <;> ring
  have h1 : w.sq = (q.sub P).sq - (q.sub P).dot a ^ 2 := by
    have : w.sq = (q.sub P).sq - 2 * t * (q.sub P).dot a + t ^ 2 * a.sq := by
      rw [hw]; simp only [Vec.sq, Vec.dot, Vec.sub, Vec.smul]; ring
    rw [this, ht, h.aa]; ring
  rw [h1, h.parseval]; ring

end Geouned.Shape
