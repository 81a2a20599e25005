import Verif.Face.TorusLemmas
import Mathlib.Analysis.SpecialFunctions.Trigonometric.Bounds
/-!
# C91: the planes that bound a torus face along its first angle

`annexU t u0 u1 vmid tol`: the face of the torus `t` for the angles `u0` to `u1`; gives one normal, or two with "or" between them, of planes through the center.
-/
namespace Geouned.Face

open Geouned.Geom

/-- the point `p` lies on the side to which the normal `d` of a plane through the center points, up to a tolerance -/
def OnSide (t : Torus) (slack : ℝ) (d p : Vec) : Prop := -slack ≤ d.dot (p.sub t.c)

/-- the property in full: every point of the face is on the side of the plane, or of one of the two planes -/
def C91_statement : Prop :=
  ∀ (t : Torus) (u0 u1 vmid tol : ℝ), Frame t → 0 < t.r → t.r < t.R → snapAxis t.e3 ≠ none → 0 < tol → tol < 1 / 100 → u0 < u1 → u1 < u0 + 2 * Real.pi →
    ∃ d1 d2 o, annexU t u0 u1 vmid tol = some (d1, d2, o) ∧
      ∀ u v, u0 ≤ u → u ≤ u1 → OnSide t ((t.R + t.r) * tol) d1 (t.valueAt u v) ∨ ∃ d, d2 = some d ∧ OnSide t ((t.R + t.r) * tol) d (t.valueAt u v)

theorem radius_pos {t : Torus} (h0 : 0 < t.r) (h1 : t.r < t.R) (v : ℝ) : 0 < t.R + t.r * Real.cos v ∧ t.R + t.r * Real.cos v ≤ t.R + t.r := by
  have a := Real.neg_one_le_cos v
  have b := Real.cos_le_one v
  constructor <;> nlinarith

/-- ranges of at most half a turn: one plane, the face on its side; when the range is half a turn, the rest of the torus is on the other side -/
theorem C91_half_partial (t : Torus) (u0 u1 vmid tol : ℝ) (hf : Frame t) (h0 : 0 < t.r) (h1 : t.r < t.R) (hs : snapAxis t.e3 ≠ none) (ht : 0 < tol) (ht1 : tol < 1 / 100)
    (hu : u0 < u1) (hpi : u1 - u0 < Real.pi + tol) :
    ∃ d, annexU t u0 u1 vmid tol = some (d, none, false) ∧ (∀ u v, u0 ≤ u → u ≤ u1 → OnSide t ((t.R + t.r) * tol) d (t.valueAt u v)) ∧
      (u1 - u0 ≤ Real.pi → ∀ u v, u0 ≤ u → u ≤ u1 → OnSide t 0 d (t.valueAt u v)) ∧
      (u1 - u0 = Real.pi → ∀ u v, u1 < u → u < u0 + 2 * Real.pi → d.dot ((t.valueAt u v).sub t.c) < 0) := by
  have hpi3 := Real.two_le_pi
  obtain ⟨axis, hax⟩ := Option.ne_none_iff_exists'.mp hs
  obtain ⟨σ, hσ, rfl⟩ := snapAxis_spec hf.n3 hax
  obtain ⟨hρ, _⟩ := radius_pos h0 h1 vmid
  generalize hρd : t.R + t.r * Real.cos vmid = ρ at hρ
  have hσ2 : σ ^ 2 = 1 := by rcases hσ with rfl | rfl <;> norm_num
  -- half sum and half difference of the angles
  obtain ⟨m, h, rfl, rfl⟩ : ∃ m h, u0 = m - h ∧ u1 = m + h := ⟨(u0 + u1) / 2, (u1 - u0) / 2, by ring, by ring⟩
  have hh0 : 0 < h := by linarith
  have hh1 : h < Real.pi := by linarith
  have hsin : 0 < Real.sin h := Real.sin_pos_of_pos_of_lt_pi hh0 hh1
  have hmid : 1 / 2 * (m - h + (m + h)) = m := by ring
  have hbr : |(|m + h - (m - h)|) - Real.pi| < tol ∨ m + h - (m - h) < Real.pi := by
    rcases lt_or_ge (m + h - (m - h)) Real.pi with a | a
    · exact Or.inr a
    · left
      rw [abs_of_pos (by linarith : 0 < m + h - (m - h)), abs_of_nonneg (by linarith)]
      linarith
  unfold annexU
  rw [hax]
  dsimp only
  rw [if_pos hbr, hmid, valueAt_sub]
  have hsub : (t.valueAt (m + h) vmid).sub (t.valueAt (m - h) vmid) = comb t (ρ * (-2 * Real.sin m * Real.sin h)) (ρ * (2 * Real.cos m * Real.sin h)) 0 := by
    have e : (t.valueAt (m + h) vmid).sub (t.valueAt (m - h) vmid) = ((t.valueAt (m + h) vmid).sub t.c).sub ((t.valueAt (m - h) vmid).sub t.c) := by
      simp only [Vec.sub, Vec.mk.injEq]
      refine ⟨?_, ?_, ?_⟩ <;> ring
    rw [e, valueAt_sub, valueAt_sub, comb_sub, hρd, Real.cos_add, Real.cos_sub, Real.sin_add, Real.sin_sub]
    congr 1 <;> ring
  rw [hsub, axis_cross hf]
  have hcs := Real.sin_sq_add_cos_sq m
  obtain ⟨K, hK, hK1, hK2⟩ := toward_spec hf (a := -(σ * (ρ * (2 * Real.cos m * Real.sin h)))) (b := σ * (ρ * (-2 * Real.sin m * Real.sin h)))
    (by
      have : (-(σ * (ρ * (2 * Real.cos m * Real.sin h)))) ^ 2 + (σ * (ρ * (-2 * Real.sin m * Real.sin h))) ^ 2 = (ρ * (2 * Real.sin h)) ^ 2 := by
        linear_combination (ρ * (2 * Real.sin h)) ^ 2 * (σ ^ 2 * hcs + hσ2)
      rw [this]; positivity)
    ((t.R + t.r * Real.cos vmid) * Real.cos m) ((t.R + t.r * Real.cos vmid) * Real.sin m) (t.r * Real.sin vmid)
  rw [hK]
  -- the normal is the direction of the middle of the face
  have hκ : K * (-(σ * (ρ * (2 * Real.sin h)))) = 1 := by
    have a1 : (K * (-(σ * (ρ * (2 * Real.sin h))))) ^ 2 = 1 := by
      linear_combination hK1 - K ^ 2 * (σ * (ρ * (2 * Real.sin h))) ^ 2 * hcs
    rw [hρd] at hK2
    have a2 : 0 ≤ K * (-(σ * (ρ * (2 * Real.sin h)))) * ρ := by
      have : K * (-(σ * (ρ * (2 * Real.cos m * Real.sin h))) * (ρ * Real.cos m) + σ * (ρ * (-2 * Real.sin m * Real.sin h)) * (ρ * Real.sin m)) =
          K * (-(σ * (ρ * (2 * Real.sin h)))) * ρ := by linear_combination (K * (-(σ * (ρ * (2 * Real.sin h)))) * ρ) * hcs
      linarith
    have a3 : 0 ≤ K * (-(σ * (ρ * (2 * Real.sin h)))) := nonneg_of_mul_nonneg_left a2 hρ
    nlinarith
  have hd : comb t (K * (-(σ * (ρ * (2 * Real.cos m * Real.sin h))))) (K * (σ * (ρ * (-2 * Real.sin m * Real.sin h)))) 0 = comb t (Real.cos m) (Real.sin m) 0 := by
    congr 1
    · linear_combination Real.cos m * hκ
    · linear_combination Real.sin m * hκ
  rw [hd]
  have hdot : ∀ u v, (comb t (Real.cos m) (Real.sin m) 0).dot ((t.valueAt u v).sub t.c) = (t.R + t.r * Real.cos v) * Real.cos (u - m) := by
    intro u v
    rw [valueAt_sub, comb_dot hf, Real.cos_sub]
    ring
  refine ⟨_, rfl, fun u v a1 a2 => ?_, fun hle u v a1 a2 => ?_, fun he u v a1 a2 => ?_⟩
  · unfold OnSide
    rw [hdot]
    obtain ⟨b1, b2⟩ := radius_pos h0 h1 v
    have hc : -tol ≤ Real.cos (u - m) := by
      rcases le_or_gt |u - m| (Real.pi / 2) with hle | hgt
      · have := Real.cos_nonneg_of_neg_pi_div_two_le_of_le (neg_le_of_abs_le hle) (le_of_abs_le hle)
        linarith
      · have e1 : Real.cos (u - m) = - Real.sin (|u - m| - Real.pi / 2) := by
          rw [Real.sin_sub_pi_div_two, Real.cos_abs]; ring
        have e2 : |u - m| ≤ h := abs_le.mpr ⟨by linarith, by linarith⟩
        have e3 : Real.sin (|u - m| - Real.pi / 2) ≤ |u - m| - Real.pi / 2 := Real.sin_le (by linarith)
        rw [e1]
        linarith
    nlinarith
  · unfold OnSide
    rw [hdot]
    obtain ⟨b1, b2⟩ := radius_pos h0 h1 v
    have := Real.cos_nonneg_of_neg_pi_div_two_le_of_le (x := u - m) (by linarith) (by linarith)
    have := mul_nonneg b1.le this
    linarith
  · rw [hdot]
    obtain ⟨b1, b2⟩ := radius_pos h0 h1 v
    have : Real.cos (u - m) < 0 := Real.cos_neg_of_pi_div_two_lt_of_lt (by linarith) (by linarith)
    nlinarith

/-- ranges of more than half a turn, for a torus whose center lies on the line through the origin along its axis: the face is on the side of one of the two planes,
and the rest of the torus is on the side of none -/
theorem C91_large_partial (t : Torus) (u0 u1 vmid tol : ℝ) (hf : Frame t) (h0 : 0 < t.r) (h1 : t.r < t.R) (hs : snapAxis t.e3 ≠ none) (ht : 0 < tol)
    (hpi : Real.pi + tol ≤ u1 - u0) (hu : u1 < u0 + 2 * Real.pi) (s : ℝ) (hc : t.c = Vec.smul s t.e3) :
    ∃ d1 d2, annexU t u0 u1 vmid tol = some (d1, some d2, true) ∧ (∀ u v, u0 ≤ u → u ≤ u1 → OnSide t 0 d1 (t.valueAt u v) ∨ OnSide t 0 d2 (t.valueAt u v)) ∧
      ∀ u v, u1 < u → u < u0 + 2 * Real.pi → d1.dot ((t.valueAt u v).sub t.c) < 0 ∧ d2.dot ((t.valueAt u v).sub t.c) < 0 := by
  have hpi3 := Real.two_le_pi
  obtain ⟨axis, hax⟩ := Option.ne_none_iff_exists'.mp hs
  obtain ⟨σ, hσ, rfl⟩ := snapAxis_spec hf.n3 hax
  obtain ⟨hρ, _⟩ := radius_pos h0 h1 vmid
  generalize hρd : t.R + t.r * Real.cos vmid = ρ at hρ
  have hσ2 : σ ^ 2 = 1 := by rcases hσ with rfl | rfl <;> norm_num
  obtain ⟨m, h, rfl, rfl⟩ : ∃ m h, u0 = m - h ∧ u1 = m + h := ⟨(u0 + u1) / 2, (u1 - u0) / 2, by ring, by ring⟩
  have hh0 : Real.pi / 2 < h := by linarith
  have hh1 : h < Real.pi := by linarith
  have hsin : 0 < Real.sin h := Real.sin_pos_of_pos_of_lt_pi (by linarith) hh1
  have hmid : 1 / 2 * (m - h + (m + h)) = m := by ring
  have hbr : ¬ (|(|m + h - (m - h)|) - Real.pi| < tol ∨ m + h - (m - h) < Real.pi) := by
    rw [not_or, not_lt, not_lt, abs_of_pos (by linarith : 0 < m + h - (m - h)), abs_of_nonneg (by linarith)]
    exact ⟨by linarith, by linarith⟩
  have hval : ∀ u, t.valueAt u vmid = comb t (ρ * Real.cos u) (ρ * Real.sin u) (t.r * Real.sin vmid + s) := by
    intro u
    rw [← hρd]
    simp only [Torus.valueAt, hc, comb, Vec.add, Vec.smul, Vec.mk.injEq]
    refine ⟨?_, ?_, ?_⟩ <;> ring
  unfold annexU
  rw [hax]
  dsimp only
  rw [if_neg hbr, hmid, valueAt_sub, hval, hval, axis_cross hf, axis_cross hf, hρd]
  -- a plane through the angle `w`: the normal is on the side of the middle
  have key : ∀ w : ℝ, Real.sin (m - w) ≠ 0 → ∃ ε : ℝ, (ε = 1 ∨ ε = -1) ∧ 0 < ε * Real.sin (m - w) ∧
      toward (comb t (-(σ * (ρ * Real.sin w))) (σ * (ρ * Real.cos w)) 0) (comb t (ρ * Real.cos m) (ρ * Real.sin m) (t.r * Real.sin vmid)) =
        some (comb t (-(ε * Real.sin w)) (ε * Real.cos w) 0) := by
    intro w hw
    have hcs := Real.sin_sq_add_cos_sq w
    obtain ⟨K, hK, hK1, hK2⟩ := toward_spec hf (a := -(σ * (ρ * Real.sin w))) (b := σ * (ρ * Real.cos w))
      (by
        have : (-(σ * (ρ * Real.sin w))) ^ 2 + (σ * (ρ * Real.cos w)) ^ 2 = ρ ^ 2 := by linear_combination ρ ^ 2 * (σ ^ 2 * hcs + hσ2)
        rw [this]; positivity) (ρ * Real.cos m) (ρ * Real.sin m) (t.r * Real.sin vmid)
    have hε : (K * σ * ρ) ^ 2 = 1 := by linear_combination hK1 - K ^ 2 * σ ^ 2 * ρ ^ 2 * hcs
    refine ⟨K * σ * ρ, ?_, ?_, ?_⟩
    · have : (K * σ * ρ - 1) * (K * σ * ρ + 1) = 0 := by linear_combination hε
      rcases mul_eq_zero.mp this with a | a
      · exact Or.inl (by linarith)
      · exact Or.inr (by linarith)
    · have e : K * (-(σ * (ρ * Real.sin w)) * (ρ * Real.cos m) + σ * (ρ * Real.cos w) * (ρ * Real.sin m)) = K * σ * ρ * Real.sin (m - w) * ρ := by
        rw [Real.sin_sub]; ring
      rw [e] at hK2
      have a3 : 0 ≤ K * σ * ρ * Real.sin (m - w) := nonneg_of_mul_nonneg_left hK2 hρ
      refine lt_of_le_of_ne a3 (Ne.symm (mul_ne_zero ?_ hw))
      intro hz
      rw [hz] at hε
      norm_num at hε
    · rw [hK]
      congr 2 <;> ring
  have hdot : ∀ ε w u v, (comb t (-(ε * Real.sin w)) (ε * Real.cos w) 0).dot ((t.valueAt u v).sub t.c) = (t.R + t.r * Real.cos v) * (ε * Real.sin (u - w)) := by
    intro ε w u v
    rw [valueAt_sub, comb_dot hf, Real.sin_sub]
    ring
  have s1 : Real.sin (m - (m - h)) = Real.sin h := by congr 1; ring
  have s2 : Real.sin (m - (m + h)) = - Real.sin h := by rw [← Real.sin_neg]; congr 1; ring
  obtain ⟨ε1, hε1, p1, q1⟩ := key (m - h) (by rw [s1]; exact hsin.ne')
  obtain ⟨ε2, hε2, p2, q2⟩ := key (m + h) (by rw [s2]; linarith)
  rw [s1] at p1
  rw [s2] at p2
  have e1 : ε1 = 1 := by
    rcases hε1 with e | e
    · exact e
    · rw [e] at p1; linarith
  have e2 : ε2 = -1 := by
    rcases hε2 with e | e
    · rw [e] at p2; linarith
    · exact e
  subst e1 e2
  rw [q1, q2]
  refine ⟨_, _, rfl, fun u v a1 a2 => ?_, fun u v a1 a2 => ?_⟩
  · obtain ⟨b1, _⟩ := radius_pos h0 h1 v
    unfold OnSide
    rw [hdot, hdot]
    rcases le_or_gt (u - (m - h)) Real.pi with hle | hgt
    · left
      have := Real.sin_nonneg_of_nonneg_of_le_pi (x := u - (m - h)) (by linarith) hle
      have := mul_nonneg b1.le this
      linarith
    · right
      have e : -1 * Real.sin (u - (m + h)) = Real.sin (m + h - u) := by
        rw [← neg_sub, Real.sin_neg]; ring
      rw [e]
      have := Real.sin_nonneg_of_nonneg_of_le_pi (x := m + h - u) (by linarith) (by linarith)
      have := mul_nonneg b1.le this
      linarith
  · obtain ⟨b1, _⟩ := radius_pos h0 h1 v
    rw [hdot, hdot]
    constructor
    · have e : Real.sin (u - (m - h)) = - Real.sin (u - (m - h) - Real.pi) := by rw [Real.sin_sub_pi]; ring
      have := Real.sin_pos_of_pos_of_lt_pi (x := u - (m - h) - Real.pi) (by linarith) (by linarith)
      rw [e]
      nlinarith
    · have := Real.sin_pos_of_pos_of_lt_pi (x := u - (m + h)) (by linarith) (by linarith)
      nlinarith

/-- a torus of radii 2 and 1 around the z axis direction, with a given center -/
def zTorus (c : Vec) : Torus := ⟨c, ⟨1, 0, 0⟩, ⟨0, 1, 0⟩, ⟨0, 0, 1⟩, 2, 1⟩

theorem zTorus_frame (c : Vec) : Frame (zTorus c) := by
  constructor <;> simp [zTorus, Vec.dot, Vec.cross]

theorem zTorus_snap (c : Vec) : snapAxis (zTorus c).e3 = some ⟨0, 0, 1⟩ := by
  simp [zTorus, snapAxis, Vec.cross]

/-- non-vacuity: the hypotheses of the two theorems hold for a torus around the z axis -/
example : Frame (zTorus ⟨0, 0, 5⟩) ∧ 0 < (zTorus ⟨0, 0, 5⟩).r ∧ (zTorus ⟨0, 0, 5⟩).r < (zTorus ⟨0, 0, 5⟩).R ∧ snapAxis (zTorus ⟨0, 0, 5⟩).e3 ≠ none ∧
    (zTorus ⟨0, 0, 5⟩).c = Vec.smul 5 (zTorus ⟨0, 0, 5⟩).e3 :=
  ⟨zTorus_frame _, by norm_num [zTorus], by norm_num [zTorus], by rw [zTorus_snap]; simp, by simp [zTorus, Vec.smul]⟩

/-- the property fails: for a torus centered at (10, 0, 0) and a range of three quarters of a turn the end of the face is on the side of none of the two planes
(the program takes the cross product of the axis with the point itself instead of the point relative to the center) -/
theorem C91_violated : ¬ C91_statement := by
  intro hst
  have hpi3 := Real.two_le_pi
  obtain ⟨d1, d2, o, h1, h2⟩ := hst (zTorus ⟨10, 0, 0⟩) 0 (3 * Real.pi / 2) 0 (1 / 1000) (zTorus_frame _) (by norm_num [zTorus]) (by norm_num [zTorus])
    (by rw [zTorus_snap]; simp) (by norm_num) (by norm_num) (by linarith) (by linarith)
  have hc32 : Real.cos (3 * Real.pi / 2) = 0 := by
    rw [show 3 * Real.pi / 2 = Real.pi / 2 + Real.pi by ring, Real.cos_add_pi, Real.cos_pi_div_two, neg_zero]
  have hs32 : Real.sin (3 * Real.pi / 2) = -1 := by
    rw [show 3 * Real.pi / 2 = Real.pi / 2 + Real.pi by ring, Real.sin_add_pi, Real.sin_pi_div_two]
  have hc34 : Real.cos (1 / 2 * (3 * Real.pi / 2)) = -(Real.sqrt 2 / 2) := by
    rw [show 1 / 2 * (3 * Real.pi / 2) = Real.pi - Real.pi / 4 by ring, Real.cos_pi_sub, Real.cos_pi_div_four]
  have hs34 : Real.sin (1 / 2 * (3 * Real.pi / 2)) = Real.sqrt 2 / 2 := by
    rw [show 1 / 2 * (3 * Real.pi / 2) = Real.pi - Real.pi / 4 by ring, Real.sin_pi_sub, Real.sin_pi_div_four]
  have hq : 0 < Real.sqrt 2 := Real.sqrt_pos.mpr (by norm_num)
  have hq2 : Real.sqrt 2 ^ 2 = 2 := Real.sq_sqrt (by norm_num)
  have hfr := zTorus_frame ⟨10, 0, 0⟩
  -- vectors of the plane z = 0 in the directions of the torus
  have hcomb : ∀ x y : ℝ, (⟨x, y, 0⟩ : Vec) = comb (zTorus ⟨10, 0, 0⟩) x y 0 := by
    intro x y
    simp [comb, zTorus, Vec.add, Vec.smul]
  have hp1 : (zTorus ⟨10, 0, 0⟩).valueAt 0 0 = ⟨13, 0, 0⟩ := by
    simp [Torus.valueAt, zTorus, Vec.add, Vec.smul]; norm_num
  have hp2 : (zTorus ⟨10, 0, 0⟩).valueAt (3 * Real.pi / 2) 0 = ⟨10, -3, 0⟩ := by
    simp [Torus.valueAt, zTorus, Vec.add, Vec.smul, hc32, hs32]; norm_num
  have hpm : ((zTorus ⟨10, 0, 0⟩).valueAt (1 / 2 * (0 + 3 * Real.pi / 2)) 0).sub (zTorus ⟨10, 0, 0⟩).c = ⟨3 * -(Real.sqrt 2 / 2), 3 * (Real.sqrt 2 / 2), 0⟩ := by
    rw [valueAt_sub, zero_add, hc34, hs34, Real.cos_zero, Real.sin_zero]
    simp [comb, zTorus, Vec.add, Vec.smul]; norm_num
  unfold annexU at h1
  rw [zTorus_snap] at h1
  dsimp only at h1
  have hbr : ¬ (|(|3 * Real.pi / 2 - 0|) - Real.pi| < (1 / 1000 : ℝ) ∨ 3 * Real.pi / 2 - 0 < Real.pi) := by
    rw [not_or, not_lt, not_lt, sub_zero, abs_of_pos (by linarith : 0 < 3 * Real.pi / 2), abs_of_nonneg (by linarith)]
    exact ⟨by linarith, by linarith⟩
  have hx1 : (⟨0, 0, 1⟩ : Vec).cross ⟨13, 0, 0⟩ = comb (zTorus ⟨10, 0, 0⟩) 0 13 0 := by
    rw [← hcomb]; simp [Vec.cross]
  have hx2 : (⟨0, 0, 1⟩ : Vec).cross ⟨10, -3, 0⟩ = comb (zTorus ⟨10, 0, 0⟩) 3 10 0 := by
    rw [← hcomb]; simp [Vec.cross]
  rw [if_neg hbr, hp1, hp2, hpm, hx1, hx2, hcomb (3 * -(Real.sqrt 2 / 2)) (3 * (Real.sqrt 2 / 2))] at h1
  obtain ⟨K1, k1, k2, k3⟩ := toward_spec hfr (a := 0) (b := 13) (by norm_num) (3 * -(Real.sqrt 2 / 2)) (3 * (Real.sqrt 2 / 2)) 0
  obtain ⟨K2, l1, l2, l3⟩ := toward_spec hfr (a := 3) (b := 10) (by norm_num) (3 * -(Real.sqrt 2 / 2)) (3 * (Real.sqrt 2 / 2)) 0
  rw [k1, l1] at h1
  simp only [Option.some.injEq, Prod.mk.injEq] at h1
  obtain ⟨rfl, rfl, rfl⟩ := h1
  have hK1 : 0 ≤ K1 := by nlinarith
  have hK2 : 0 ≤ K2 := by nlinarith
  have hend : ∀ x y, (comb (zTorus ⟨10, 0, 0⟩) x y 0).dot (((zTorus ⟨10, 0, 0⟩).valueAt (3 * Real.pi / 2) 0).sub (zTorus ⟨10, 0, 0⟩).c) = -(3 * y) := by
    intro x y
    rw [valueAt_sub, comb_dot hfr, hc32, hs32, Real.cos_zero, Real.sin_zero]
    simp [zTorus]; ring
  have hR : ((zTorus ⟨10, 0, 0⟩).R + (zTorus ⟨10, 0, 0⟩).r) * (1 / 1000) = 3 / 1000 := by norm_num [zTorus]
  rcases h2 (3 * Real.pi / 2) 0 (by linarith) (le_refl _) with h | ⟨d, hd, h⟩
  · unfold OnSide at h
    rw [hend, hR] at h
    nlinarith
  · rw [← Option.some.inj hd] at h
    unfold OnSide at h
    rw [hend, hR] at h
    nlinarith

end Geouned.Face
