import Verif.RSurf.Round
import Verif.RSurf.XmlProps
import Verif.Geom.CardProps
/-! Helper lemmas for C76. -/
namespace Geouned.RSurf
open Geouned.Geom

/-- an orthonormal base that begins with a given unit vector -/
theorem complete_base {a : Vec} (hu : a.sq = 1) (hs : Slanted a) : ∃ w : Fin 3 → Vec, Orthonormal3 w ∧ w 0 = a := by
  obtain ⟨x, y, z, w, N, -, hN0, hN, hx, hy, hz, h1, h2⟩ := rot_abc (slanted_ne hs)
  rw [hu] at hN
  have hN2 : N * N = 1 := by linarith [sq N]
  have hw : w = w ^ 2 * (1 + x) := by linear_combination (-w) * h2
  obtain ⟨ax, ay, az⟩ := a
  simp only at hx hy hz
  have n1 : ax * ax + ay * ay + az * az = 1 := hu
  refine ⟨![⟨ax, ay, az⟩, ⟨-y, x + z ^ 2 * w, -(y * z * w)⟩, ⟨-z, -(y * z * w), x + y ^ 2 * w⟩], ?_, rfl⟩
  have e22 : (x + z ^ 2 * w) ^ 2 + (y * z * w) ^ 2 = 1 - y ^ 2 := by
    linear_combination (z ^ 2 * w ^ 2 + 1) * h1 + (z ^ 2 * w * (1 - x) + z ^ 2) * h2
  have e33 : (y * z * w) ^ 2 + (x + y ^ 2 * w) ^ 2 = 1 - z ^ 2 := by
    linear_combination (y ^ 2 * w ^ 2 + 1) * h1 + (y ^ 2 * w * (1 - x) + y ^ 2) * h2
  have e23 : (x + z ^ 2 * w) * (y * z * w) + (y * z * w) * (x + y ^ 2 * w) = y * z := by
    linear_combination (y * z * w ^ 2) * h1 + (y * z * (w * (1 - x) + 1)) * h2
  have d1 : ax * -y + ay * (x + z ^ 2 * w) + az * -(y * z * w) = 0 := by rw [hx, hy, hz]; ring
  have d2 : ax * -z + ay * -(y * z * w) + az * (x + y ^ 2 * w) = 0 := by rw [hx, hy, hz]; ring
  intro i j
  fin_cases i <;> fin_cases j <;> simp [Vec.dot] <;> first | linarith | nlinarith

theorem mm_cm (p : Vec) : mm (Vec.smul (1 / 10) p) = p := by
  ext <;> simp [mm, Vec.smul]

/-- what is written in cm and read in mm -/
theorem sides_back {R r : Region} {s : Surf} (h : SameInCm R r) (hs : Sides r s) (p : Vec) :
    (R.pos p → surfaceSide p s = some true) ∧ (R.neg p → surfaceSide p s = some false) := by
  have := hs (Vec.smul (1 / 10) p)
  rw [mm_cm] at this
  exact ⟨fun hp => this.1 ((h p).2.1 hp), fun hp => this.2 ((h p).1.1 hp)⟩

theorem sq_dot_unit {w : Fin 3 → Vec} (hw : Orthonormal3 w) (d : Vec) : d.sq = (w 0).dot d ^ 2 + (w 1).dot d ^ 2 + (w 2).dot d ^ 2 := by
  rw [Vec.sq, orth_complete hw d d]; ring

/-- the quadric of a cylinder, referred to its axis -/
theorem cyl_principal {a c : Vec} {r : ℝ} (hu : a.sq = 1) (hs : Slanted a) : ∃ q w, qFormCyl a c r = some q ∧ Principal q w c 0 1 1 (-r ^ 2) := by
  obtain ⟨q, hq, he⟩ := qFormCyl_eval (c := c) (r := r) (slanted_ne hs)
  obtain ⟨w, hw, hw0⟩ := complete_base hu hs
  refine ⟨q, w, hq, hw, by norm_num, le_rfl, fun p => ?_⟩
  have := he p
  rw [hu, sq_dot_unit hw, ← hw0, dot_comm' (p.sub c) (w 0)] at this
  linarith

/-- the quadric of a cone, referred to its axis -/
theorem cone_principal {a c : Vec} {k m : ℝ} (hm : m ≠ 0) (hu : a.sq = 1) (hs : Slanted a) :
    ∃ q w, qFormCone (Vec.smul m a) c k = some q ∧ Principal q w c (-k ^ 2) 1 1 0 := by
  obtain ⟨q, hq, he⟩ := qFormCone_eval (c := c) (k := k) (slanted_ne (slanted_smul hm hs))
  obtain ⟨w, hw, hw0⟩ := complete_base hu hs
  refine ⟨q, w, hq, hw, by nlinarith [sq_nonneg k], le_rfl, fun p => ?_⟩
  have hp := he p
  have h1 : (Vec.smul m a).sq = m ^ 2 := by
    have : (Vec.smul m a).sq = m ^ 2 * a.sq := by simp only [Vec.sq, Vec.smul, Vec.dot]; ring
    rw [this, hu, mul_one]
  rw [h1, dot_smul, sq_dot_unit hw, ← hw0, dot_comm' (p.sub c) (w 0)] at hp
  have hm2 : m ^ 2 ≠ 0 := pow_ne_zero 2 hm
  apply mul_right_cancel₀ hm2
  linear_combination hp

/-- the entries of a written card: positive radii and squared tangents, sheet ±1 -/
def McnpEntries : String → List ℝ → Prop
  | "P", [a, b, c, _] => ¬ (a = 0 ∧ b = 0 ∧ c = 0)
  | "P", [x1, y1, z1, x2, y2, z2, x3, y3, z3] => NonCollinear ⟨x1, y1, z1⟩ ⟨x2, y2, z2⟩ ⟨x3, y3, z3⟩
  | "CX", [r] => 0 < r
  | "CY", [r] => 0 < r
  | "CZ", [r] => 0 < r
  | "C/X", [_, _, r] => 0 < r
  | "C/Y", [_, _, r] => 0 < r
  | "C/Z", [_, _, r] => 0 < r
  | "KX", [_, t2, s] => 0 < t2 ∧ (s = 1 ∨ s = -1)
  | "KY", [_, t2, s] => 0 < t2 ∧ (s = 1 ∨ s = -1)
  | "KZ", [_, t2, s] => 0 < t2 ∧ (s = 1 ∨ s = -1)
  | "K/X", [_, _, _, t2, s] => 0 < t2 ∧ (s = 1 ∨ s = -1)
  | "K/Y", [_, _, _, t2, s] => 0 < t2 ∧ (s = 1 ∨ s = -1)
  | "K/Z", [_, _, _, t2, s] => 0 < t2 ∧ (s = 1 ∨ s = -1)
  | "SO", [r] => 0 < r
  | "S", [_, _, _, r] => 0 < r
  | "TX", [_, _, _, _, b, c] => 0 < b ∧ 0 < c
  | "TY", [_, _, _, _, b, c] => 0 < b ∧ 0 < c
  | "TZ", [_, _, _, _, b, c] => 0 < b ∧ 0 < c
  | "GQ", _ => False
  | _, _ => True

theorem read_of_good (eigh : GQ → Eig) {mn : String} {args : List ℝ} {r : Region} (hq : mn ≠ "GQ") (h : Good mn args r) (ho : ∀ p, offFacets mn args p) :
    ∃ s, readCard eigh ⟨mn, args⟩ = some s ∧ Sides r s := by
  obtain ⟨s, bp, bR, h1, _, h2⟩ := h
  refine ⟨s, ?_, fun p => h2 p (ho p)⟩
  unfold readCard
  split
  · exact absurd (by assumption) hq
  · simp only [h1]

/-- every card but the quadrics -/
theorem mcnp_back (eigh : GQ → Eig) {mn : String} {args : List ℝ} {r : Region} (h : mcnpMeaning mn args = some r) (he : McnpEntries mn args) :
    ∃ s, readCard eigh ⟨mn, args⟩ = some s ∧ Sides r s := by
  have tt : ∀ p : Vec, True := fun _ => trivial
  unfold mcnpMeaning at h
  split at h
  · rename_i d
    exact read_of_good eigh (by decide) (good_plane (mn := "PX") (args := [d]) h) tt
  · rename_i d
    exact read_of_good eigh (by decide) (good_plane (mn := "PY") (args := [d]) h) tt
  · rename_i d
    exact read_of_good eigh (by decide) (good_plane (mn := "PZ") (args := [d]) h) tt
  · rename_i a b c d
    replace he : ¬ (a = 0 ∧ b = 0 ∧ c = 0) := he
    exact read_of_good eigh (by decide) (good_plane (mn := "P") (args := [a, b, c, d]) (by simp only [planeCards]; rw [if_neg he]; exact h)) tt
  · rename_i x1 y1 z1 x2 y2 z2 x3 y3 z3
    replace he : NonCollinear ⟨x1, y1, z1⟩ ⟨x2, y2, z2⟩ ⟨x3, y3, z3⟩ := he
    exact read_of_good eigh (by decide) (good_plane (mn := "P") (args := [x1, y1, z1, x2, y2, z2, x3, y3, z3]) (by simp only [planeCards]; rw [if_pos he]; exact h)) tt
  · rename_i a
    replace he : 0 < a := he
    exact read_of_good eigh (by decide) (good_cyl (mn := "CX") (args := [a]) (by simp only [cylCards]; rw [if_pos he]; exact h)) tt
  · rename_i a
    replace he : 0 < a := he
    exact read_of_good eigh (by decide) (good_cyl (mn := "CY") (args := [a]) (by simp only [cylCards]; rw [if_pos he]; exact h)) tt
  · rename_i a
    replace he : 0 < a := he
    exact read_of_good eigh (by decide) (good_cyl (mn := "CZ") (args := [a]) (by simp only [cylCards]; rw [if_pos he]; exact h)) tt
  · rename_i a b c
    replace he : 0 < c := he
    exact read_of_good eigh (by decide) (good_cyl (mn := "C/X") (args := [a, b, c]) (by simp only [cylCards]; rw [if_pos he]; exact h)) tt
  · rename_i a b c
    replace he : 0 < c := he
    exact read_of_good eigh (by decide) (good_cyl (mn := "C/Y") (args := [a, b, c]) (by simp only [cylCards]; rw [if_pos he]; exact h)) tt
  · rename_i a b c
    replace he : 0 < c := he
    exact read_of_good eigh (by decide) (good_cyl (mn := "C/Z") (args := [a, b, c]) (by simp only [cylCards]; rw [if_pos he]; exact h)) tt
  · rename_i a b c
    replace he : 0 < b ∧ (c = 1 ∨ c = -1) := he
    exact read_of_good eigh (by decide) (good_cone (mn := "KX") (args := [a, b, c]) (by simp only [coneCards]; rw [if_pos he.1, coneCard, if_pos he.2]; exact h)) tt
  · rename_i a b c
    replace he : 0 < b ∧ (c = 1 ∨ c = -1) := he
    exact read_of_good eigh (by decide) (good_cone (mn := "KY") (args := [a, b, c]) (by simp only [coneCards]; rw [if_pos he.1, coneCard, if_pos he.2]; exact h)) tt
  · rename_i a b c
    replace he : 0 < b ∧ (c = 1 ∨ c = -1) := he
    exact read_of_good eigh (by decide) (good_cone (mn := "KZ") (args := [a, b, c]) (by simp only [coneCards]; rw [if_pos he.1, coneCard, if_pos he.2]; exact h)) tt
  · rename_i x y z b c
    replace he : 0 < b ∧ (c = 1 ∨ c = -1) := he
    exact read_of_good eigh (by decide) (good_cone (mn := "K/X") (args := [x, y, z, b, c]) (by simp only [coneCards]; rw [if_pos he.1, coneCard, if_pos he.2]; exact h)) tt
  · rename_i x y z b c
    replace he : 0 < b ∧ (c = 1 ∨ c = -1) := he
    exact read_of_good eigh (by decide) (good_cone (mn := "K/Y") (args := [x, y, z, b, c]) (by simp only [coneCards]; rw [if_pos he.1, coneCard, if_pos he.2]; exact h)) tt
  · rename_i x y z b c
    replace he : 0 < b ∧ (c = 1 ∨ c = -1) := he
    exact read_of_good eigh (by decide) (good_cone (mn := "K/Z") (args := [x, y, z, b, c]) (by simp only [coneCards]; rw [if_pos he.1, coneCard, if_pos he.2]; exact h)) tt
  · exact absurd he id
  · rename_i a
    replace he : 0 < a := he
    exact read_of_good eigh (by decide) (good_sphere (mn := "SO") (args := [a]) (by simp only [sphereCards]; rw [if_pos he]; exact h)) tt
  · rename_i a b c d
    replace he : 0 < d := he
    exact read_of_good eigh (by decide) (good_sphere (mn := "S") (args := [a, b, c, d]) (by simp only [sphereCards]; rw [if_pos he]; exact h)) tt
  · rename_i x y z a b c
    replace he : 0 < b ∧ 0 < c := he
    exact read_of_good eigh (by decide) (good_torus (mn := "TX") (args := [x, y, z, a, b, c]) (by simp only [torusCards]; rw [if_pos he]; exact h)) tt
  · rename_i x y z a b c
    replace he : 0 < b ∧ 0 < c := he
    exact read_of_good eigh (by decide) (good_torus (mn := "TY") (args := [x, y, z, a, b, c]) (by simp only [torusCards]; rw [if_pos he]; exact h)) tt
  · rename_i x y z a b c
    replace he : 0 < b ∧ 0 < c := he
    exact read_of_good eigh (by decide) (good_torus (mn := "TZ") (args := [x, y, z, a, b, c]) (by simp only [torusCards]; rw [if_pos he]; exact h)) tt
  · simp at h

theorem nonCollinear_cm {p1 p2 p3 : Vec} (h : NonCollinear p1 p2 p3) :
    NonCollinear ⟨p1.x / 10, p1.y / 10, p1.z / 10⟩ ⟨p2.x / 10, p2.y / 10, p2.z / 10⟩ ⟨p3.x / 10, p3.y / 10, p3.z / 10⟩ := by
  unfold NonCollinear at *
  intro h0
  apply h
  simp only [Vec.sub, Vec.cross, Vec.sq, Vec.dot] at *
  linear_combination 10000 * h0

theorem one_smul' (a : Vec) : Vec.smul 1 a = a := by ext <;> simp [Vec.smul]

theorem axis_not_parallel {a e : Vec} (h : a.dot e = 0) (ha : a.sq = 1) (he : e.sq = 1) {tol : ℝ} (ht : tol ≤ 1 / 2) : ¬ isParallel a e tol := by
  unfold isParallel isSameValue getAngle
  rw [unit_len ha, unit_len he, mul_one, div_one, h]
  have h1 := arccos_gt (x := 0) (by norm_num) (by norm_num)
  have h2 := arccos_lt (x := 0) le_rfl (by norm_num)
  rw [abs_of_pos (by linarith)]
  rintro (h | h)
  · linarith
  · have := (abs_lt.1 h).1
    linarith [Real.pi_gt_three]

theorem sheetOf_one (t : Tol) (d e : Vec) : sheetOf t d e = 1 ∨ sheetOf t d e = -1 := by
  unfold sheetOf; split <;> simp

end Geouned.RSurf
