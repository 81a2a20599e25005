import Verif.Geom.QuadricLemmas
/-!
# Properties C36 - C38: quadric coefficients and three-point planes (exact real arithmetic)
-/
namespace Geouned.Geom

/-- an axis that is not parallel to X (the writers treat those apart) -/
def Slanted (a : Vec) : Prop := a.y ≠ 0 ∨ a.z ≠ 0

theorem slanted_ne {a : Vec} (h : Slanted a) : a.y ^ 2 + a.z ^ 2 ≠ 0 := by
  rcases h with h | h <;> positivity

theorem slanted_sq {a : Vec} (h : Slanted a) : 0 < a.sq := by
  have : a.sq = a.x ^ 2 + (a.y ^ 2 + a.z ^ 2) := by simp only [Vec.sq, Vec.dot]; ring
  rw [this]; have := slanted_ne h; positivity

/-- C36: the ten coefficients of a cylinder are negative exactly inside it and positive exactly outside it (so they
vanish exactly on it), for every axis not parallel to X, of any length, every position and radius. -/
theorem C36_q_form_cyl (axis pos : Vec) (rad : ℝ) (h : Slanted axis) :
    ∃ q, qFormCyl axis pos rad = some q ∧
      ∀ p, (q.eval p < 0 ↔ InCyl pos axis rad p) ∧ (0 < q.eval p ↔ OutCyl pos axis rad p) := by
  obtain ⟨q, hq, he⟩ := qFormCyl_eval (c := pos) (r := rad) (slanted_ne h)
  have hs := slanted_sq h
  refine ⟨q, hq, fun p => ?_⟩
  have hp := he p
  set S := axis.sq
  set m := (p.sub pos).sq with hm
  set n := (p.sub pos).dot axis with hn
  have hd : ∀ t, distSq p (onAxis pos axis t) * S = (m * S - n ^ 2) + (t * S - n) ^ 2 := by
    intro t; rw [dist_axis]; ring
  constructor
  · constructor
    · intro h0
      refine ⟨n / S, ?_⟩
      have := hd (n / S)
      rw [div_mul_cancel₀ _ hs.ne', sub_self] at this
      have h1 : q.eval p * S < 0 := mul_neg_of_neg_of_pos h0 hs
      nlinarith
    · rintro ⟨t, ht⟩
      have := hd t
      have h1 : distSq p (onAxis pos axis t) * S < rad ^ 2 * S := mul_lt_mul_of_pos_right ht hs
      have h2 : q.eval p * S < 0 := by nlinarith [sq_nonneg (t * S - n)]
      by_contra hc
      push Not at hc
      nlinarith [mul_nonneg hc hs.le]
  · constructor
    · intro h0 t
      have := hd t
      have h1 : 0 < q.eval p * S := mul_pos h0 hs
      have h2 : rad ^ 2 * S < distSq p (onAxis pos axis t) * S := by nlinarith [sq_nonneg (t * S - n)]
      exact lt_of_mul_lt_mul_right h2 hs.le
    · intro h0
      have h1 := mul_lt_mul_of_pos_right (h0 (n / S)) hs
      have := hd (n / S)
      rw [div_mul_cancel₀ _ hs.ne', sub_self] at this
      have h2 : 0 < q.eval p * S := by nlinarith
      by_contra hc
      push Not at hc
      nlinarith [mul_nonpos_of_nonpos_of_nonneg hc hs.le]

/-- C36, C37 excluded point: for an axis parallel to X the code raises (the rotation axis is null). -/
theorem C36_parallel_to_X_raises (a : ℝ) (pos : Vec) (r : ℝ) :
    qFormCyl ⟨a, 0, 0⟩ pos r = none ∧ qFormCone ⟨a, 0, 0⟩ pos r = none := by
  have : rotationMatrix ⟨1, 0, 0⟩ ⟨a, 0, 0⟩ = none := by
    unfold rotationMatrix
    have : ((⟨1, 0, 0⟩ : Vec).cross ⟨a, 0, 0⟩).len = 0 := by
      simp [Vec.cross, Vec.len, Vec.sq, Vec.dot]
    simp [Vec.normalize, this]
  simp [qFormCyl, qFormCone, this]

/-- non-vacuity: the Y axis and a slanted axis; a point inside and one outside the cylinder -/
example : Slanted ⟨0, 1, 0⟩ ∧ Slanted ⟨3, 1, 2⟩ ∧ InCyl ⟨1, 0, 0⟩ ⟨0, 1, 0⟩ 2 ⟨1, 7, 1⟩ ∧
    OutCyl ⟨1, 0, 0⟩ ⟨0, 1, 0⟩ 2 ⟨5, 7, 1⟩ := by
  refine ⟨.inl (by norm_num), .inl (by norm_num), ⟨7, ?_⟩, fun t => ?_⟩
  · simp only [distSq, onAxis, Vec.sub, Vec.add, Vec.smul, Vec.sq, Vec.dot]; norm_num
  · simp only [distSq, onAxis, Vec.sub, Vec.add, Vec.smul, Vec.sq, Vec.dot]
    nlinarith [sq_nonneg (7 - t)]

theorem decomp_iff {c a p : Vec} (h : 0 < a.sq) {t : ℝ} {w : Vec} (hd : Decomp c a p t w) :
    t * a.sq = (p.sub c).dot a ∧ w.sq * a.sq = (p.sub c).sq * a.sq - ((p.sub c).dot a) ^ 2 := by
  obtain ⟨h1, h2⟩ := hd
  rw [h1]
  have e1 : ((Vec.smul t a).add w).dot a = t * a.sq + a.dot w := by
    simp only [Vec.smul, Vec.add, Vec.dot, Vec.sq]; ring
  have e2 : ((Vec.smul t a).add w).sq = t ^ 2 * a.sq + 2 * t * a.dot w + w.sq := by
    simp only [Vec.smul, Vec.add, Vec.dot, Vec.sq]; ring
  rw [e1, e2, h2]
  constructor <;> ring

theorem decomp_exists (c p : Vec) {a : Vec} (h : 0 < a.sq) : ∃ t w, Decomp c a p t w := by
  refine ⟨(p.sub c).dot a / a.sq, (p.sub c).sub (Vec.smul ((p.sub c).dot a / a.sq) a), ?_, ?_⟩
  · ext <;> simp [Vec.sub, Vec.add, Vec.smul]
  · have : a.dot ((p.sub c).sub (Vec.smul ((p.sub c).dot a / a.sq) a)) =
        (p.sub c).dot a - ((p.sub c).dot a / a.sq) * a.sq := by
      simp only [Vec.sub, Vec.smul, Vec.dot, Vec.sq]; ring
    rw [this, div_mul_cancel₀ _ h.ne', sub_self]

/-- C37: the ten coefficients of a cone are negative exactly inside the double cone and positive exactly outside it. -/
theorem C37_q_form_cone (axis apex : Vec) (tan : ℝ) (h : Slanted axis) :
    ∃ q, qFormCone axis apex tan = some q ∧
      ∀ p, (q.eval p < 0 ↔ InCone apex axis tan p) ∧ (0 < q.eval p ↔ OutCone apex axis tan p) := by
  obtain ⟨q, hq, he⟩ := qFormCone_eval (c := apex) (k := tan) (slanted_ne h)
  have hs := slanted_sq h
  refine ⟨q, hq, fun p => ?_⟩
  have hp := he p
  have key : ∀ t w, Decomp apex axis p t w → q.eval p * axis.sq = (w.sq - tan ^ 2 * (t ^ 2 * axis.sq)) * axis.sq := by
    intro t w hd
    obtain ⟨h1, h2⟩ := decomp_iff hs hd
    rw [hp, ← h1] ; rw [← h1] at h2
    linear_combination -h2
  obtain ⟨t0, w0, hd0⟩ := decomp_exists apex p hs
  have k0 := key t0 w0 hd0
  have eq : ∀ t w, Decomp apex axis p t w → q.eval p = w.sq - tan ^ 2 * (t ^ 2 * axis.sq) :=
    fun t w hd => mul_right_cancel₀ hs.ne' (key t w hd)
  constructor
  · constructor
    · intro h0; exact ⟨t0, w0, hd0, by have := eq t0 w0 hd0; linarith⟩
    · rintro ⟨t, w, hd, hlt⟩; have := eq t w hd; linarith
  · constructor
    · intro h0; exact ⟨t0, w0, hd0, by have := eq t0 w0 hd0; linarith⟩
    · rintro ⟨t, w, hd, hlt⟩; have := eq t w hd; linarith

/-- non-vacuity: a point in the lower sheet of a cone around Y and a point outside -/
example : InCone ⟨0, 0, 0⟩ ⟨0, 2, 0⟩ 1 ⟨1, -3, 0⟩ ∧ OutCone ⟨0, 0, 0⟩ ⟨0, 2, 0⟩ 1 ⟨4, -3, 0⟩ := by
  refine ⟨⟨-3 / 2, ⟨1, 0, 0⟩, ⟨?_, ?_⟩, ?_⟩, ⟨-3 / 2, ⟨4, 0, 0⟩, ⟨?_, ?_⟩, ?_⟩⟩ <;>
    simp [Vec.sub, Vec.add, Vec.smul, Vec.dot, Vec.sq] <;> norm_num

/-! ### C38 -/

/-- coefficients of the plane through three points, before normalisation -/
theorem tpp_spec (p1 p2 p3 : Vec) :
    tpp (scf p1 p2 p3) = (((p2.sub p1).cross (p3.sub p1)).x, ((p2.sub p1).cross (p3.sub p1)).y,
      ((p2.sub p1).cross (p3.sub p1)).z, p1.dot (p2.cross p3)) := by
  simp only [tpp, tppTerm, tppDet, scf, Vec.cross, Vec.sub, Vec.dot, Prod.mk.injEq]
  refine ⟨?_, ?_, ?_, ?_⟩ <;> norm_num <;> ring

theorem plane_points (p1 p2 p3 : Vec) :
    ((p2.sub p1).cross (p3.sub p1)).dot p1 = p1.dot (p2.cross p3) ∧
    ((p2.sub p1).cross (p3.sub p1)).dot p2 = p1.dot (p2.cross p3) ∧
    ((p2.sub p1).cross (p3.sub p1)).dot p3 = p1.dot (p2.cross p3) := by
  simp only [Vec.cross, Vec.sub, Vec.dot]
  refine ⟨?_, ?_, ?_⟩ <;> ring

/-- the normalisation loop multiplies all four by one nonzero factor that makes the last nonzero one (in the order
distance, z, y, x) equal to 1 -/
theorem norm_spec {t0 t1 t2 t3 : ℝ} (h : t0 ≠ 0 ∨ t1 ≠ 0 ∨ t2 ≠ 0) :
    ∃ k, k ≠ 0 ∧
      (normStep 0 t3).2 = k * t3 ∧
      (normStep (normStep 0 t3).1 t2).2 = k * t2 ∧
      (normStep (normStep (normStep 0 t3).1 t2).1 t1).2 = k * t1 ∧
      (normStep (normStep (normStep (normStep 0 t3).1 t2).1 t1).1 t0).2 = k * t0 ∧
      (t3 ≠ 0 → k * t3 = 1) ∧ (t3 = 0 → t2 ≠ 0 → k * t2 = 1) ∧ (t3 = 0 → t2 = 0 → t1 ≠ 0 → k * t1 = 1) ∧
      (t3 = 0 → t2 = 0 → t1 = 0 → k * t0 = 1) := by
  by_cases h3 : t3 = 0
  · subst h3
    by_cases h2 : t2 = 0
    · subst h2
      by_cases h1 : t1 = 0
      · subst h1
        have h0 : t0 ≠ 0 := by simpa using h
        exact ⟨1 / t0, by positivity, by simp [normStep], by simp [normStep], by simp [normStep],
          by simp [normStep, h0], by simp, by simp, by simp, by simp [h0]⟩
      · have : (1 / t1) ≠ 0 := by positivity
        refine ⟨1 / t1, this, by simp [normStep], by simp [normStep], by simp [normStep, h1],
          by simp [normStep, h1, mul_comm], by simp, by simp, by simp [h1], by simp [h1]⟩
    · refine ⟨1 / t2, by positivity, by simp [normStep], by simp [normStep, h2],
          by simp [normStep, h2, mul_comm], by simp [normStep, h2, mul_comm], by simp, by simp [h2], by simp [h2], by simp [h2]⟩
  · refine ⟨1 / t3, by positivity, by simp [normStep, h3], by simp [normStep, h3, mul_comm],
          by simp [normStep, h3, mul_comm], by simp [normStep, h3, mul_comm], by simp [h3], by simp [h3], by simp [h3], by simp [h3]⟩

/-- C38: for three points not on a line the axis is a unit vector, the three points are on the plane
`axis · p = distance`, and the sides are those of the MCNP manual: the origin is on the negative side; if the plane
contains it, the point (0,0,∞) is on the positive side; if the plane is also parallel to Z, (0,∞,0) is; if it is also
parallel to Y, (∞,0,0) is. -/
theorem C38_points_to_coeffs (p1 p2 p3 : Vec) (h : NonCollinear p1 p2 p3) :
    ∃ axis distance, pointsToCoeffs p1 p2 p3 = some (axis, distance) ∧ axis.sq = 1 ∧
      axis.dot p1 = distance ∧ axis.dot p2 = distance ∧ axis.dot p3 = distance ∧
      0 ≤ distance ∧
      (distance = 0 → 0 ≤ axis.z ∧ (axis.z = 0 → 0 ≤ axis.y ∧ (axis.y = 0 → 0 < axis.x))) := by
  set n := (p2.sub p1).cross (p3.sub p1) with hn
  set D := p1.dot (p2.cross p3) with hD
  have ht := tpp_spec p1 p2 p3
  rw [← hn, ← hD] at ht
  obtain ⟨q1, q2, q3⟩ := plane_points p1 p2 p3
  rw [← hn, ← hD] at q1 q2 q3
  have hne : n.x ≠ 0 ∨ n.y ≠ 0 ∨ n.z ≠ 0 := by
    by_contra hc
    push Not at hc
    apply h
    rw [← hn]
    simp [Vec.sq, Vec.dot, hc]
  obtain ⟨k, hk0, k3, k2, k1, k0, s3, s2, s1, s0⟩ := norm_spec (t3 := D) hne
  have hsq : (⟨k * n.x, k * n.y, k * n.z⟩ : Vec).sq = k ^ 2 * n.sq := by simp only [Vec.sq, Vec.dot]; ring
  have hnsq : n.sq ≠ 0 := h
  have hlen : (⟨k * n.x, k * n.y, k * n.z⟩ : Vec).len ≠ 0 := len_ne (by rw [hsq]; positivity)
  set L := (⟨k * n.x, k * n.y, k * n.z⟩ : Vec).len with hL
  have hLpos : 0 < L := lt_of_le_of_ne (Real.sqrt_nonneg _) (Ne.symm hlen)
  have hL2 : L ^ 2 = k ^ 2 * n.sq := by rw [hL, len_sq, hsq]
  refine ⟨Vec.smul (1 / L) ⟨k * n.x, k * n.y, k * n.z⟩, k * D / L, ?_, ?_, ?_, ?_, ?_, ?_, ?_⟩
  · unfold pointsToCoeffs
    rw [ht]
    simp only [k3, k2, k1, k0]
    rw [← hL, if_neg hlen]
    simp only [Vec.normalize, ← hL, if_neg hlen, Option.map_some]
  · have : (Vec.smul (1 / L) ⟨k * n.x, k * n.y, k * n.z⟩).sq = (k ^ 2 * n.sq) / L ^ 2 := by
      simp only [Vec.smul, Vec.sq, Vec.dot]; field_simp
    rw [this, ← hL2]; field_simp
  · rw [← q1]; simp only [Vec.smul, Vec.dot]; field_simp
  · rw [← q2]; simp only [Vec.smul, Vec.dot]; field_simp
  · rw [← q3]; simp only [Vec.smul, Vec.dot]; field_simp
  · by_cases h3 : D = 0
    · rw [h3]; simp
    · rw [s3 h3]; positivity
  · intro hd
    have h3 : D = 0 := by
      by_contra h3
      rw [s3 h3] at hd
      have : (1 : ℝ) / L ≠ 0 := by positivity
      exact this hd
    simp only [Vec.smul]
    by_cases h2 : n.z = 0
    · refine ⟨by simp [h2], fun _ => ?_⟩
      by_cases h1 : n.y = 0
      · refine ⟨by simp [h1], fun _ => ?_⟩
        rw [s0 h3 h2 h1]; positivity
      · rw [s1 h3 h2 h1]
        refine ⟨by positivity, fun hc => ?_⟩
        have : (1 : ℝ) / L * 1 ≠ 0 := by positivity
        exact absurd hc this
    · rw [s2 h3 h2]
      refine ⟨by positivity, fun hc => ?_⟩
      have : (1 : ℝ) / L * 1 ≠ 0 := by positivity
      exact absurd hc this

/-- non-vacuity -/
example : NonCollinear ⟨1, 0, 0⟩ ⟨0, 1, 0⟩ ⟨0, 0, 1⟩ ∧ NonCollinear ⟨0, 0, 0⟩ ⟨0, 1, 0⟩ ⟨0, 0, -1⟩ := by
  constructor <;> simp [NonCollinear, Vec.sub, Vec.cross, Vec.sq, Vec.dot] <;> norm_num

/-- C38 excluded point: for three points on a line the code raises (division by the length 0). -/
theorem C38_collinear_raises (p1 p2 p3 : Vec) (h : ¬ NonCollinear p1 p2 p3) : pointsToCoeffs p1 p2 p3 = none := by
  simp only [NonCollinear, not_not] at h
  set n := (p2.sub p1).cross (p3.sub p1) with hn
  have ht := tpp_spec p1 p2 p3
  rw [← hn] at ht
  have hx : n.x = 0 ∧ n.y = 0 ∧ n.z = 0 := by
    simp only [Vec.sq, Vec.dot] at h
    have a := mul_self_nonneg n.x
    have b := mul_self_nonneg n.y
    have c := mul_self_nonneg n.z
    exact ⟨mul_self_eq_zero.1 (by linarith), mul_self_eq_zero.1 (by linarith), mul_self_eq_zero.1 (by linarith)⟩
  unfold pointsToCoeffs
  rw [ht, hx.1, hx.2.1, hx.2.2]
  have : ∀ a b c : ℝ, (⟨0 * a, 0 * b, 0 * c⟩ : Vec).len = 0 := by
    intro a b c; simp [Vec.len, Vec.sq, Vec.dot]
  simp only [normStep]
  rw [this]
  simp

end Geouned.Geom
