import Verif.Geom.Quadric
namespace Geouned.Geom

theorem sq_nonneg' (a : Vec) : 0 ≤ a.sq := by simp only [Vec.sq, Vec.dot]; nlinarith [mul_self_nonneg a.x, mul_self_nonneg a.y, mul_self_nonneg a.z]

theorem len_sq (a : Vec) : a.len ^ 2 = a.sq := Real.sq_sqrt (sq_nonneg' a)

theorem len_ne {a : Vec} (h : a.sq ≠ 0) : a.len ≠ 0 := by
  intro h0; apply h; rw [← len_sq, h0]; ring

theorem rot_some {v : Vec} (h : v.y ^ 2 + v.z ^ 2 ≠ 0) : ∃ R L N,
    rotationMatrix ⟨1, 0, 0⟩ v = some R ∧ L ^ 2 = v.y ^ 2 + v.z ^ 2 ∧ N ^ 2 = v.sq ∧ L ≠ 0 ∧ N ≠ 0 ∧
    R.A11 = v.x / N ∧ R.A12 = - v.y / N ∧ R.A13 = -v.z / N ∧
    R.A21 = v.y / N ∧ R.A22 = v.x / N + v.z ^ 2 / L ^ 2 * (1 - v.x / N) ∧ R.A23 = -(v.y * v.z) / L ^ 2 * (1 - v.x / N) ∧
    R.A31 = v.z / N ∧ R.A32 = -(v.y * v.z) / L ^ 2 * (1 - v.x / N) ∧ R.A33 = v.x / N + v.y ^ 2 / L ^ 2 * (1 - v.x / N) := by
  have hs : v.sq = v.x ^ 2 + (v.y ^ 2 + v.z ^ 2) := by simp only [Vec.sq, Vec.dot]; ring
  have hpos : 0 < v.y ^ 2 + v.z ^ 2 := lt_of_le_of_ne (by positivity) (Ne.symm h)
  have hvne : v.sq ≠ 0 := by rw [hs]; positivity
  set u : Vec := ⟨1, 0, 0⟩ with hu
  have hcr : u.cross v = ⟨0, -v.z, v.y⟩ := by simp [hu, Vec.cross]
  have hcsq : (u.cross v).sq = v.y ^ 2 + v.z ^ 2 := by rw [hcr]; simp only [Vec.sq, Vec.dot]; ring
  have hcne : (u.cross v).len ≠ 0 := len_ne (by rw [hcsq]; exact h)
  have husq : u.sq = 1 := by simp [hu, Vec.sq, Vec.dot]
  have hulen : u.len = 1 := by rw [Vec.len, husq]; exact Real.sqrt_one
  have hvlen : v.len ≠ 0 := len_ne hvne
  have hN0 : 0 < v.len := lt_of_le_of_ne (Real.sqrt_nonneg _) (Ne.symm hvlen)
  have hL0 : 0 < (u.cross v).len := lt_of_le_of_ne (Real.sqrt_nonneg _) (Ne.symm hcne)
  have hseno : ((Vec.smul (1 / u.len) u).cross (Vec.smul (1 / v.len) v)).len = (u.cross v).len / v.len := by
    have h1 : ((Vec.smul (1 / u.len) u).cross (Vec.smul (1 / v.len) v)).sq = ((u.cross v).len / v.len) ^ 2 := by
      rw [div_pow, len_sq, hulen, hcr]
      simp only [Vec.smul, Vec.cross, Vec.sq, Vec.dot, hu]
      field_simp
      ring
    rw [Vec.len, h1]
    exact Real.sqrt_sq (by positivity)
  have hrot : ∃ R, rotationMatrix u v = some R ∧ R = (rotationMatrix u v).getD ⟨0,0,0,0,0,0,0,0,0⟩ := by
    unfold rotationMatrix
    simp only [Vec.normalize, if_neg hcne, if_neg hvlen, hulen, one_ne_zero, if_false, bind, Option.bind]
    exact ⟨_, rfl, rfl⟩
  obtain ⟨R, h1, h2⟩ := hrot
  refine ⟨R, (u.cross v).len, v.len, h1, by rw [len_sq, hcsq], len_sq v, hcne, hvlen, ?_⟩
  rw [hulen] at hseno
  unfold rotationMatrix at h2
  simp only [Vec.normalize, if_neg hcne, if_neg hvlen, hulen, one_ne_zero, if_false, bind, Option.bind, hseno,
    Option.getD] at h2
  subst h2
  have hL2 : (u.cross v).len ^ 2 = v.y ^ 2 + v.z ^ 2 := by rw [len_sq, hcsq]
  set L := (u.cross v).len with hL
  rw [hcr]
  simp only [Vec.smul, Vec.dot, hu]
  refine ⟨?_, ?_, ?_, ?_, ?_, ?_, ?_, ?_, ?_⟩ <;> field_simp <;> ring

/-- the rotation matrix in terms of the unit axis `(a, b, c)`; `w = 1 / (1 + a)` -/
theorem rot_abc {v : Vec} (h : v.y ^ 2 + v.z ^ 2 ≠ 0) : ∃ a b c w N : ℝ,
    rotationMatrix ⟨1, 0, 0⟩ v = some ⟨a, -b, -c, b, a + c ^ 2 * w, -(b * c * w), c, -(b * c * w), a + b ^ 2 * w⟩ ∧
    N ≠ 0 ∧ N ^ 2 = v.sq ∧ v.x = N * a ∧ v.y = N * b ∧ v.z = N * c ∧ a ^ 2 + b ^ 2 + c ^ 2 = 1 ∧ w * (1 + a) = 1 := by
  obtain ⟨R, L, N, h1, hL, hN, hL0, hN0, r11, r12, r13, r21, r22, r23, r31, r32, r33⟩ := rot_some h
  have hs : v.sq = v.x ^ 2 + (v.y ^ 2 + v.z ^ 2) := by simp only [Vec.sq, Vec.dot]; ring
  have hN' : N ^ 2 = v.x ^ 2 + L ^ 2 := by rw [hN, hs, hL]
  have hw : (N ^ 2 * (1 - v.x / N) / L ^ 2) * (1 + v.x / N) = 1 := by
    field_simp
    nlinarith
  refine ⟨v.x / N, v.y / N, v.z / N, N ^ 2 * (1 - v.x / N) / L ^ 2, N, ?_, hN0, hN, ?_, ?_, ?_, ?_, hw⟩
  · rw [h1]
    congr 1
    cases R
    simp only at *
    subst r11 r12 r13 r21 r22 r23 r31 r32 r33
    congr 1 <;> field_simp
  · field_simp
  · field_simp
  · field_simp
  · field_simp
    linarith

/-- value of the quadric of a cylinder -/
theorem qFormCyl_eval {v c : Vec} {r : ℝ} (h : v.y ^ 2 + v.z ^ 2 ≠ 0) :
    ∃ q, qFormCyl v c r = some q ∧ ∀ p, q.eval p * v.sq = (p.sub c).sq * v.sq - ((p.sub c).dot v) ^ 2 - r ^ 2 * v.sq := by
  obtain ⟨a, b, cc, w, N, hR, hN0, hN, hx, hy, hz, h1, h2⟩ := rot_abc h
  unfold qFormCyl
  rw [hR]
  simp only [bind, Option.bind]
  refine ⟨_, rfl, ?_⟩
  · intro p
    obtain ⟨x, y, z⟩ := p
    obtain ⟨cx, cy, cz⟩ := c
    rw [← hN]
    simp only [GQ.eval, Mat.transpose, Mat.mulVec, Vec.smul, Vec.sub, Vec.sq, Vec.dot, hx, hy, hz]
    have e22 : (a + cc ^ 2 * w) ^ 2 + (b * cc * w) ^ 2 = 1 - b ^ 2 := by
      linear_combination (cc ^ 2 * w ^ 2 + 1) * h1 + (cc ^ 2 * w * (1 - a) + cc ^ 2) * h2
    have e33 : (b * cc * w) ^ 2 + (a + b ^ 2 * w) ^ 2 = 1 - cc ^ 2 := by
      linear_combination (b ^ 2 * w ^ 2 + 1) * h1 + (b ^ 2 * w * (1 - a) + b ^ 2) * h2
    have e23 : (a + cc ^ 2 * w) * (b * cc * w) + (b * cc * w) * (a + b ^ 2 * w) = b * cc := by
      linear_combination (b * cc * w ^ 2) * h1 + (b * cc * (w * (1 - a) + 1)) * h2
    set A := a + cc ^ 2 * w with hA
    set B := b * cc * w with hB
    set C := a + b ^ 2 * w with hC
    have e12 : -(b * A) + cc * B = -(a * b) := by rw [hA, hB]; ring
    have e13 : b * B - cc * C = -(a * cc) := by rw [hC, hB]; ring
    set dx := x - cx with hdx
    set dy := y - cy with hdy
    set dz := z - cz with hdz
    have key : (-b * dx + A * dy - B * dz) ^ 2 + (-cc * dx - B * dy + C * dz) ^ 2 =
        dx ^ 2 + dy ^ 2 + dz ^ 2 - (a * dx + b * dy + cc * dz) ^ 2 := by
      linear_combination dx ^ 2 * h1 + dy ^ 2 * e22 + dz ^ 2 * e33 - 2 * dy * dz * e23 + 2 * dx * dy * e12 + 2 * dx * dz * e13
    have : ∀ E : ℝ, E = ((-b * dx + A * dy - B * dz) ^ 2 + (-cc * dx - B * dy + C * dz) ^ 2 - r ^ 2) →
        E * N ^ 2 = (dx * dx + dy * dy + dz * dz) * N ^ 2 - (dx * (N * a) + dy * (N * b) + dz * (N * cc)) ^ 2 - r ^ 2 * N ^ 2 := by
      intro E hE
      rw [hE, key]; ring
    apply this
    rw [hdx, hdy, hdz]
    ring

/-- value of the quadric of a cone -/
theorem qFormCone_eval {v c : Vec} {k : ℝ} (h : v.y ^ 2 + v.z ^ 2 ≠ 0) :
    ∃ q, qFormCone v c k = some q ∧ ∀ p, q.eval p * v.sq =
      (p.sub c).sq * v.sq - ((p.sub c).dot v) ^ 2 - k ^ 2 * ((p.sub c).dot v) ^ 2 := by
  obtain ⟨a, b, cc, w, N, hR, hN0, hN, hx, hy, hz, h1, h2⟩ := rot_abc h
  unfold qFormCone
  rw [hR]
  simp only [bind, Option.bind]
  refine ⟨_, rfl, ?_⟩
  · intro p
    obtain ⟨x, y, z⟩ := p
    obtain ⟨cx, cy, cz⟩ := c
    rw [← hN]
    simp only [GQ.eval, Mat.transpose, Mat.mulVec, Vec.smul, Vec.sub, Vec.sq, Vec.dot, hx, hy, hz]
    have e22 : (a + cc ^ 2 * w) ^ 2 + (b * cc * w) ^ 2 = 1 - b ^ 2 := by
      linear_combination (cc ^ 2 * w ^ 2 + 1) * h1 + (cc ^ 2 * w * (1 - a) + cc ^ 2) * h2
    have e33 : (b * cc * w) ^ 2 + (a + b ^ 2 * w) ^ 2 = 1 - cc ^ 2 := by
      linear_combination (b ^ 2 * w ^ 2 + 1) * h1 + (b ^ 2 * w * (1 - a) + b ^ 2) * h2
    have e23 : (a + cc ^ 2 * w) * (b * cc * w) + (b * cc * w) * (a + b ^ 2 * w) = b * cc := by
      linear_combination (b * cc * w ^ 2) * h1 + (b * cc * (w * (1 - a) + 1)) * h2
    set A := a + cc ^ 2 * w with hA
    set B := b * cc * w with hB
    set C := a + b ^ 2 * w with hC
    have e12 : -(b * A) + cc * B = -(a * b) := by rw [hA, hB]; ring
    have e13 : b * B - cc * C = -(a * cc) := by rw [hC, hB]; ring
    set dx := x - cx with hdx
    set dy := y - cy with hdy
    set dz := z - cz with hdz
    have key : (-b * dx + A * dy - B * dz) ^ 2 + (-cc * dx - B * dy + C * dz) ^ 2 =
        dx ^ 2 + dy ^ 2 + dz ^ 2 - (a * dx + b * dy + cc * dz) ^ 2 := by
      linear_combination dx ^ 2 * h1 + dy ^ 2 * e22 + dz ^ 2 * e33 - 2 * dy * dz * e23 + 2 * dx * dy * e12 + 2 * dx * dz * e13
    have : ∀ E : ℝ, E = ((-b * dx + A * dy - B * dz) ^ 2 + (-cc * dx - B * dy + C * dz) ^ 2 - (k * (a * dx + b * dy + cc * dz)) ^ 2) →
        E * N ^ 2 = (dx * dx + dy * dy + dz * dz) * N ^ 2 - (dx * (N * a) + dy * (N * b) + dz * (N * cc)) ^ 2
          - k ^ 2 * (dx * (N * a) + dy * (N * b) + dz * (N * cc)) ^ 2 := by
      intro E hE
      rw [hE, key]; ring
    apply this
    rw [hdx, hdy, hdz]
    ring

theorem dist_axis (c v p : Vec) (t : ℝ) :
    distSq p (onAxis c v t) = (p.sub c).sq - 2 * t * (p.sub c).dot v + t ^ 2 * v.sq := by
  simp only [distSq, onAxis, Vec.add, Vec.sub, Vec.smul, Vec.sq, Vec.dot]; ring

end Geouned.Geom
