import Verif.Face.TorusModel
/-!
# Lemmas on the parametrisation of a torus
-/
namespace Geouned.Face

open Geouned.Geom

/-- the directions of the parametrisation are orthonormal and right-handed -/
structure Frame (t : Torus) : Prop where
  n1 : t.e1.dot t.e1 = 1
  n2 : t.e2.dot t.e2 = 1
  n3 : t.e3.dot t.e3 = 1
  o12 : t.e1.dot t.e2 = 0
  o13 : t.e1.dot t.e3 = 0
  o23 : t.e2.dot t.e3 = 0
  hand : t.e1.cross t.e2 = t.e3

/-- the vector of coordinates `a, b, g` -/
def comb (t : Torus) (a b g : ℝ) : Vec := ((Vec.smul a t.e1).add (Vec.smul b t.e2)).add (Vec.smul g t.e3)

theorem comb_dot {t : Torus} (h : Frame t) (a b g a' b' g' : ℝ) : (comb t a b g).dot (comb t a' b' g') = a * a' + b * b' + g * g' := by
  obtain ⟨n1, n2, n3, o12, o13, o23, _⟩ := h
  simp only [comb, Vec.dot, Vec.add, Vec.smul] at *
  linear_combination (a * a') * n1 + (b * b') * n2 + (g * g') * n3 + (a * b' + b * a') * o12 + (a * g' + g * a') * o13 + (b * g' + g * b') * o23

theorem valueAt_sub (t : Torus) (u v : ℝ) :
    (t.valueAt u v).sub t.c = comb t ((t.R + t.r * Real.cos v) * Real.cos u) ((t.R + t.r * Real.cos v) * Real.sin u) (t.r * Real.sin v) := by
  simp only [Torus.valueAt, comb, Vec.add, Vec.sub, Vec.smul, Vec.mk.injEq]
  refine ⟨?_, ?_, ?_⟩ <;> ring

theorem axis_cross {t : Torus} (h : Frame t) (σ a b g : ℝ) : (Vec.smul σ t.e3).cross (comb t a b g) = comb t (-(σ * b)) (σ * a) 0 := by
  obtain ⟨n1, n2, n3, o12, o13, o23, hand⟩ := h
  have hx : t.e1.y * t.e2.z - t.e1.z * t.e2.y = t.e3.x := congrArg Vec.x hand
  have hy : t.e1.z * t.e2.x - t.e1.x * t.e2.z = t.e3.y := congrArg Vec.y hand
  have hz : t.e1.x * t.e2.y - t.e1.y * t.e2.x = t.e3.z := congrArg Vec.z hand
  simp only [comb, Vec.dot, Vec.add, Vec.smul, Vec.cross, Vec.mk.injEq] at *
  refine ⟨?_, ?_, ?_⟩
  · simp only [← hx, ← hy, ← hz]
    linear_combination (σ * a * t.e2.x) * n1 - (σ * a * t.e1.x) * o12 - (σ * b * t.e1.x) * n2 + (σ * b * t.e2.x) * o12
  · simp only [← hx, ← hy, ← hz]
    linear_combination (σ * a * t.e2.y) * n1 - (σ * a * t.e1.y) * o12 - (σ * b * t.e1.y) * n2 + (σ * b * t.e2.y) * o12
  · simp only [← hx, ← hy, ← hz]
    linear_combination (σ * a * t.e2.z) * n1 - (σ * a * t.e1.z) * o12 - (σ * b * t.e1.z) * n2 + (σ * b * t.e2.z) * o12

theorem cross_zero_parallel {a e : Vec} (ha : a.dot a = 1) (he : e.dot e = 1) (h : e.cross a = ⟨0, 0, 0⟩) :
    ∃ σ : ℝ, (σ = 1 ∨ σ = -1) ∧ a = Vec.smul σ e := by
  have hx : e.y * a.z - e.z * a.y = 0 := congrArg Vec.x h
  have hy : e.z * a.x - e.x * a.z = 0 := congrArg Vec.y h
  have hz : e.x * a.y - e.y * a.x = 0 := congrArg Vec.z h
  simp only [Vec.dot] at ha he
  have hs : (e.x * a.x + e.y * a.y + e.z * a.z) ^ 2 = 1 := by
    linear_combination ha * (e.x * e.x + e.y * e.y + e.z * e.z) + he - (e.y * a.z - e.z * a.y) * hx - (e.z * a.x - e.x * a.z) * hy - (e.x * a.y - e.y * a.x) * hz
  refine ⟨e.x * a.x + e.y * a.y + e.z * a.z, ?_, ?_⟩
  · have : (e.x * a.x + e.y * a.y + e.z * a.z - 1) * (e.x * a.x + e.y * a.y + e.z * a.z + 1) = 0 := by linear_combination hs
    rcases mul_eq_zero.mp this with h | h
    · exact Or.inl (by linarith)
    · exact Or.inr (by linarith)
  · ext
    · simp only [Vec.smul]
      linear_combination (-a.x) * he + e.y * (-hz) + e.z * hy
    · simp only [Vec.smul]
      linear_combination (-a.y) * he + e.x * hz - e.z * hx
    · simp only [Vec.smul]
      linear_combination (-a.z) * he + e.y * hx - e.x * hy

theorem snapAxis_spec {e a : Vec} (he : e.dot e = 1) (h : snapAxis e = some a) : ∃ σ : ℝ, (σ = 1 ∨ σ = -1) ∧ a = Vec.smul σ e := by
  unfold snapAxis at h
  split at h
  · next hc => rw [← Option.some.inj h]; exact cross_zero_parallel (by norm_num [Vec.dot]) he hc
  · split at h
    · next hc => rw [← Option.some.inj h]; exact cross_zero_parallel (by norm_num [Vec.dot]) he hc
    · split at h
      · next hc => rw [← Option.some.inj h]; exact cross_zero_parallel (by norm_num [Vec.dot]) he hc
      · cases h

theorem smul_comb (t : Torus) (k a b g : ℝ) : Vec.smul k (comb t a b g) = comb t (k * a) (k * b) (k * g) := by
  simp only [comb, Vec.add, Vec.smul, Vec.mk.injEq]
  refine ⟨?_, ?_, ?_⟩ <;> ring

theorem comb_sub (t : Torus) (a b g a' b' g' : ℝ) : (comb t a b g).sub (comb t a' b' g') = comb t (a - a') (b - b') (g - g') := by
  simp only [comb, Vec.add, Vec.sub, Vec.smul, Vec.mk.injEq]
  refine ⟨?_, ?_, ?_⟩ <;> ring

/-- the normalised vector, on the side of `w` -/
theorem toward_spec {t : Torus} (h : Frame t) {a b : ℝ} (hab : 0 < a ^ 2 + b ^ 2) (a' b' g' : ℝ) :
    ∃ K : ℝ, toward (comb t a b 0) (comb t a' b' g') = some (comb t (K * a) (K * b) 0) ∧ K ^ 2 * (a ^ 2 + b ^ 2) = 1 ∧ 0 ≤ K * (a * a' + b * b') := by
  have hsq : (comb t a b 0).sq = a ^ 2 + b ^ 2 := by
    rw [Vec.sq, comb_dot h]; ring
  have hl : length (comb t a b 0) = Real.sqrt (a ^ 2 + b ^ 2) := by
    unfold length; rw [hsq]
  have hpos : 0 < Real.sqrt (a ^ 2 + b ^ 2) := Real.sqrt_pos.mpr hab
  have hss := Real.sq_sqrt hab.le
  unfold toward normalize
  rw [hl, if_neg hpos.ne', Option.map_some, smul_comb, mul_zero, comb_dot h]
  generalize Real.sqrt (a ^ 2 + b ^ 2) = s at *
  have hs1 : (1 / s) ^ 2 * (a ^ 2 + b ^ 2) = 1 := by
    rw [← hss]; field_simp
  split
  · next hneg =>
    refine ⟨-(1 / s), ?_, by rw [neg_sq]; exact hs1, by linarith⟩
    rw [smul_comb]
    congr 2 <;> ring
  · next hneg => exact ⟨1 / s, rfl, hs1, by linarith⟩

theorem length_cross {t : Torus} (h : Frame t) {σ : ℝ} (hσ : σ = 1 ∨ σ = -1) (a b g : ℝ) :
    length ((comb t a b g).cross (Vec.smul σ t.e3)) = Real.sqrt (a ^ 2 + b ^ 2) := by
  have hc : (comb t a b g).cross (Vec.smul σ t.e3) = Vec.smul (-1) ((Vec.smul σ t.e3).cross (comb t a b g)) := by
    simp only [comb, Vec.cross, Vec.add, Vec.smul, Vec.mk.injEq]
    refine ⟨?_, ?_, ?_⟩ <;> ring
  rw [hc, axis_cross h, smul_comb]
  unfold length
  rw [Vec.sq, comb_dot h]
  congr 1
  rcases hσ with rfl | rfl <;> ring

end Geouned.Face
