import Verif.Face.TorusUProps
/-!
# C92: the surface that bounds a torus face along its second angle

`annexV t v0 v1 tol forceCylinder`: the face of the torus `t` for the angles `v0` to `v1`; gives a plane, cylinder or cone and the side of it.
-/
namespace Geouned.Face

open Geouned.Geom

/-- the point is on the side given: `true` is below the plane, inside the cylinder, inside the sheet of the cone around its axis -/
def SideOf : VSurf → Bool → Vec → Prop
  | .plane c a, true, p => a.dot (p.sub c) ≤ 0
  | .plane c a, false, p => 0 ≤ a.dot (p.sub c)
  | .cylinder c a r, true, p => ∃ s, distSq p (onAxis c a s) ≤ r ^ 2
  | .cylinder c a r, false, p => ∀ s, r ^ 2 ≤ distSq p (onAxis c a s)
  | .cone c a k, true, p => ∃ s w, Decomp c a p s w ∧ 0 ≤ s ∧ w.sq ≤ (Real.tan k * s) ^ 2
  | .cone c a k, false, p => ∃ s w, Decomp c a p s w ∧ (s ≤ 0 ∨ (Real.tan k * s) ^ 2 ≤ w.sq)

/-- the comparisons with the tolerance answer as exact ones -/
def Exact (t : Torus) (v0 v1 tol : ℝ) : Prop :=
  0 < tol ∧ (|t.r * Real.sin v0 - t.r * Real.sin v1| < tol → Real.sin v0 = Real.sin v1) ∧
    (|t.r * Real.cos v0 - t.r * Real.cos v1| < tol → Real.cos v0 = Real.cos v1) ∧ (|t.r * Real.cos v0| < tol → Real.cos v0 = 0)

/-- the property in full: every point of the face is on the side given -/
def C92_statement : Prop :=
  ∀ (t : Torus) (v0 v1 tol : ℝ) (force : Bool), Frame t → 0 < t.r → t.r < t.R → snapAxis t.e3 ≠ none → Exact t v0 v1 tol → v0 < v1 → v1 < v0 + 2 * Real.pi →
    ∃ s b, annexV t v0 v1 tol force = some (s, b) ∧ ∀ u v, v0 ≤ v → v ≤ v1 → SideOf s b (t.valueAt u v)

theorem arc_side {A B C m h : ℝ} (hh0 : 0 < h) (hh1 : h < Real.pi) (h0 : A * Real.cos (m - h) + B * Real.sin (m - h) + C = 0)
    (h1 : A * Real.cos (m + h) + B * Real.sin (m + h) + C = 0) :
    ∃ K : ℝ, ∀ s, A * Real.cos (m + s) + B * Real.sin (m + s) + C = K * (Real.cos s - Real.cos h) := by
  have hsin : 0 < Real.sin h := Real.sin_pos_of_pos_of_lt_pi hh0 hh1
  rw [Real.cos_sub, Real.sin_sub] at h0
  rw [Real.cos_add, Real.sin_add] at h1
  have hz : (-A * Real.sin m + B * Real.cos m) * Real.sin h = 0 := by linarith
  have hz' : -A * Real.sin m + B * Real.cos m = 0 := (mul_eq_zero.mp hz).resolve_right hsin.ne'
  refine ⟨A * Real.cos m + B * Real.sin m, fun s => ?_⟩
  rw [Real.cos_add, Real.sin_add]
  linear_combination h1 / 2 + h0 / 2 + Real.sin s * hz'

theorem cos_ge_of_abs_le {s h : ℝ} (hs : |s| ≤ h) (hh : h < Real.pi) : Real.cos h ≤ Real.cos s := by
  rw [← Real.cos_abs s]
  exact Real.cos_le_cos_of_nonneg_of_le_pi (abs_nonneg s) hh.le hs

/-- the sign on the whole arc is the sign in the middle -/
theorem arc_mid {A B C m h : ℝ} (hh0 : 0 < h) (hh1 : h < Real.pi) (h0 : A * Real.cos (m - h) + B * Real.sin (m - h) + C = 0)
    (h1 : A * Real.cos (m + h) + B * Real.sin (m + h) + C = 0) (v : ℝ) (hv0 : m - h ≤ v) (hv1 : v ≤ m + h) :
    (A * Real.cos m + B * Real.sin m + C < 0 → A * Real.cos v + B * Real.sin v + C ≤ 0) ∧
      (0 ≤ A * Real.cos m + B * Real.sin m + C → 0 ≤ A * Real.cos v + B * Real.sin v + C) := by
  obtain ⟨K, hK⟩ := arc_side hh0 hh1 h0 h1
  have e0 := hK 0
  rw [add_zero, Real.cos_zero] at e0
  have ev := hK (v - m)
  rw [show m + (v - m) = v by ring] at ev
  have hc : Real.cos h < 1 := by
    rw [← Real.cos_zero]
    exact Real.cos_lt_cos_of_nonneg_of_le_pi (le_refl _) hh1.le hh0
  have hcv : Real.cos h ≤ Real.cos (v - m) := cos_ge_of_abs_le (abs_le.mpr ⟨by linarith, by linarith⟩) hh1
  rw [e0, ev]
  constructor
  · intro hneg
    have : K < 0 := by nlinarith
    nlinarith
  · intro hpos
    have : 0 ≤ K := by nlinarith
    nlinarith

theorem cos_half_min {w0 w1 w : ℝ} (h0 : -(Real.pi / 2) ≤ w0) (h1 : w1 ≤ Real.pi / 2) (hw0 : w0 ≤ w) (hw1 : w ≤ w1) :
    min (Real.cos w0) (Real.cos w1) ≤ Real.cos w := by
  rcases le_total 0 w with h | h
  · exact (min_le_right _ _).trans (Real.cos_le_cos_of_nonneg_of_le_pi h (by linarith [Real.pi_pos]) hw1)
  · refine (min_le_left _ _).trans ?_
    rw [← Real.cos_neg w0, ← Real.cos_neg w]
    exact Real.cos_le_cos_of_nonneg_of_le_pi (by linarith) (by linarith [Real.pi_pos]) (by linarith)

set_option maxHeartbeats 1000000 in
/-- faces whose range has ends at different heights and different distances from the axis (without `forceCylinder`), or ends at the same height, or lies in the half
of the torus away from the axis or the half near it: the property holds -/
theorem C92_partial (t : Torus) (v0 v1 tol : ℝ) (force : Bool) (hf : Frame t) (h0 : 0 < t.r) (h1 : t.r < t.R) (hs : snapAxis t.e3 ≠ none) (hex : Exact t v0 v1 tol)
    (hv : v0 < v1) (hv2 : v1 < v0 + 2 * Real.pi)
    (hcase : (force = false ∧ Real.cos v0 ≠ Real.cos v1) ∨ Real.sin v0 = Real.sin v1 ∨ ∃ k : ℤ, k * Real.pi - Real.pi / 2 ≤ v0 ∧ v1 ≤ k * Real.pi + Real.pi / 2) :
    ∃ s b, annexV t v0 v1 tol force = some (s, b) ∧ ∀ u v, v0 ≤ v → v ≤ v1 → SideOf s b (t.valueAt u v) := by
  obtain ⟨axis, hax⟩ := Option.ne_none_iff_exists'.mp hs
  obtain ⟨σ, hσ, rfl⟩ := snapAxis_spec hf.n3 hax
  have hσ2 : σ ^ 2 = 1 := by rcases hσ with rfl | rfl <;> norm_num
  have hσa : |σ| = 1 := by rcases hσ with rfl | rfl <;> norm_num
  obtain ⟨ht, ex1, ex2, ex3⟩ := hex
  have hρ : ∀ v, 0 < t.R + t.r * Real.cos v := fun v => (radius_pos h0 h1 v).1
  have hax' : Vec.smul σ t.e3 = comb t 0 0 σ := by
    simp [comb, Vec.add, Vec.smul]
  have hdotax : ∀ u v, ((t.valueAt u v).sub t.c).dot (Vec.smul σ t.e3) = σ * (t.r * Real.sin v) := by
    intro u v
    rw [valueAt_sub, hax', comb_dot hf]; ring
  have hlen : ∀ v, length (((t.valueAt 0 v).sub t.c).cross (Vec.smul σ t.e3)) = t.R + t.r * Real.cos v := by
    intro v
    rw [valueAt_sub, length_cross hf hσ, Real.cos_zero, Real.sin_zero, mul_one, mul_zero]
    rw [show (t.R + t.r * Real.cos v) ^ 2 + 0 ^ 2 = (t.R + t.r * Real.cos v) ^ 2 by ring]
    exact Real.sqrt_sq (hρ v).le
  obtain ⟨m, h, rfl, rfl⟩ : ∃ m h, v0 = m - h ∧ v1 = m + h := ⟨(v0 + v1) / 2, (v1 - v0) / 2, by ring, by ring⟩
  have hh0 : 0 < h := by linarith
  have hh1 : h < Real.pi := by linarith
  have hmid : (m - h + (m + h)) * (1 / 2) = m := by ring
  unfold annexV
  rw [hax]
  dsimp only
  rw [hmid]
  simp only [hdotax, hlen]
  by_cases hz : |σ * (t.r * Real.sin (m - h)) - σ * (t.r * Real.sin (m + h))| < tol
  · rw [if_pos hz]
    have hz' : Real.sin (m - h) = Real.sin (m + h) := by
      apply ex1
      rwa [← mul_sub, abs_mul, hσa, one_mul] at hz
    refine ⟨_, _, rfl, fun u v a1 a2 => ?_⟩
    have hval : (Vec.smul σ t.e3).dot ((t.valueAt u v).sub (t.c.add (Vec.smul (σ * (t.r * Real.sin (m - h))) (Vec.smul σ t.e3)))) =
        σ * (t.r * Real.sin v) - σ * (t.r * Real.sin (m - h)) := by
      have e : (t.valueAt u v).sub (t.c.add (Vec.smul (σ * (t.r * Real.sin (m - h))) (Vec.smul σ t.e3))) =
          ((t.valueAt u v).sub t.c).sub (Vec.smul (σ * (t.r * Real.sin (m - h))) (Vec.smul σ t.e3)) := by
        simp only [Vec.sub, Vec.add, Vec.mk.injEq]
        refine ⟨?_, ?_, ?_⟩ <;> ring
      rw [e, valueAt_sub, hax', smul_comb, comb_sub, comb_dot hf]
      linear_combination -(σ * (t.r * Real.sin (m - h))) * hσ2
    obtain ⟨g1, g2⟩ := arc_mid (A := 0) (B := σ * t.r) (C := -(σ * (t.r * Real.sin (m - h)))) hh0 hh1 (by ring) (by rw [hz']; ring) v a1 a2
    by_cases hb : σ * (t.r * Real.sin m) < σ * (t.r * Real.sin (m - h))
    · rw [decide_eq_true hb]
      rw [SideOf, hval]
      have := g1 (by linarith)
      linarith
    · rw [decide_eq_false hb]
      rw [SideOf, hval]
      have := g2 (by linarith)
      linarith
  · rw [if_neg hz]
    have hz' : Real.sin (m - h) ≠ Real.sin (m + h) := by
      intro hcon
      apply hz
      rw [hcon, sub_self, abs_zero]
      exact ht
    have hdist : ∀ u v s, distSq (t.valueAt u v) (onAxis t.c (Vec.smul σ t.e3) s) = (t.R + t.r * Real.cos v) ^ 2 + (σ * (t.r * Real.sin v) - s) ^ 2 := by
      intro u v s
      have e : (t.valueAt u v).sub (onAxis t.c (Vec.smul σ t.e3) s) = ((t.valueAt u v).sub t.c).sub (Vec.smul s (Vec.smul σ t.e3)) := by
        simp only [onAxis, Vec.sub, Vec.add, Vec.mk.injEq]
        refine ⟨?_, ?_, ?_⟩ <;> ring
      rw [distSq, e, valueAt_sub, hax', smul_comb, comb_sub, Vec.sq, comb_dot hf]
      linear_combination (t.R + t.r * Real.cos v) ^ 2 * (Real.sin_sq_add_cos_sq u) + s ^ 2 * hσ2 - (t.r * Real.sin v) ^ 2 * hσ2
    by_cases hcyl : |t.R + t.r * Real.cos (m - h) - (t.R + t.r * Real.cos (m + h))| < tol ∨ force = true
    · rw [if_pos hcyl]
      -- the range is in one half
      have hk : ∃ k : ℤ, k * Real.pi - Real.pi / 2 ≤ m - h ∧ m + h ≤ k * Real.pi + Real.pi / 2 := by
        rcases hcase with ⟨c1, c2⟩ | c | c
        · rcases hcyl with e | e
          · exact absurd (ex2 (by rwa [add_sub_add_left_eq_sub] at e)) c2
          · rw [c1] at e; cases e
        · exact absurd c hz'
        · exact c
      obtain ⟨k, k1, k2⟩ := hk
      obtain ⟨ε, hε, hcos⟩ : ∃ ε : ℝ, (ε = 1 ∨ ε = -1) ∧ ∀ w, Real.cos w = ε * Real.cos (w - k * Real.pi) := by
        rcases Int.even_or_odd k with ⟨j, hj⟩ | ⟨j, hj⟩
        · refine ⟨1, Or.inl rfl, fun w => ?_⟩
          rw [one_mul, show w - k * Real.pi = w - j * (2 * Real.pi) by rw [hj]; push_cast; ring, Real.cos_sub_int_mul_two_pi]
        · refine ⟨-1, Or.inr rfl, fun w => ?_⟩
          rw [show w - k * Real.pi = w - Real.pi - j * (2 * Real.pi) by rw [hj]; push_cast; ring, Real.cos_sub_int_mul_two_pi, Real.cos_sub_pi]
          ring
      have hnn : ∀ w, m - h ≤ w → w ≤ m + h → 0 ≤ Real.cos (w - k * Real.pi) := fun w w1 w2 =>
        Real.cos_nonneg_of_neg_pi_div_two_le_of_le (by linarith) (by linarith)
      have hmn : ∀ w, m - h ≤ w → w ≤ m + h → min (Real.cos (m - h - k * Real.pi)) (Real.cos (m + h - k * Real.pi)) ≤ Real.cos (w - k * Real.pi) := fun w w1 w2 =>
        cos_half_min (by linarith) (by linarith) (by linarith) (by linarith)
      have hmidp : 0 < Real.cos (m - k * Real.pi) := Real.cos_pos_of_mem_Ioo ⟨by linarith, by linarith⟩
      have hR1 : |t.R + t.r * Real.cos (m - h) - t.R| < tol → Real.cos (m - h) = 0 := by
        intro e
        exact ex3 (by rwa [add_sub_cancel_left] at e)
      rcases hε with rfl | rfl
      · -- away from the axis
        have hres : annexCyl t (Vec.smul σ t.e3) (m - h) (m + h) (t.R + t.r * Real.cos (m - h)) (t.R + t.r * Real.cos (m + h)) tol =
            (min (t.R + t.r * Real.cos (m - h)) (t.R + t.r * Real.cos (m + h)), false) := by
          unfold annexCyl
          rw [hmid, hlen]
          split
          · rw [if_neg]
            have := hcos m
            nlinarith
          · rw [if_neg]
            have a1 := hcos (m - h)
            have a2 := hnn (m - h) (le_refl _) (by linarith)
            nlinarith
        rw [hres]
        refine ⟨_, _, rfl, fun u v a1 a2 s => ?_⟩
        rw [hdist]
        have hle : min (t.R + t.r * Real.cos (m - h)) (t.R + t.r * Real.cos (m + h)) ≤ t.R + t.r * Real.cos v := by
          have := hmn v a1 a2
          rw [← one_mul (Real.cos (m - h - k * Real.pi)), ← one_mul (Real.cos (m + h - k * Real.pi)), ← one_mul (Real.cos (v - k * Real.pi)),
            ← hcos, ← hcos, ← hcos] at this
          rcases min_le_iff.mp this with h | h
          · exact (min_le_left _ _).trans (by nlinarith)
          · exact (min_le_right _ _).trans (by nlinarith)
        have hpos : 0 < min (t.R + t.r * Real.cos (m - h)) (t.R + t.r * Real.cos (m + h)) := lt_min (hρ _) (hρ _)
        nlinarith [sq_nonneg (σ * (t.r * Real.sin v) - s)]
      · -- near the axis
        have hres : annexCyl t (Vec.smul σ t.e3) (m - h) (m + h) (t.R + t.r * Real.cos (m - h)) (t.R + t.r * Real.cos (m + h)) tol =
            (max (t.R + t.r * Real.cos (m - h)) (t.R + t.r * Real.cos (m + h)), true) := by
          unfold annexCyl
          rw [hmid, hlen]
          split
          · rw [if_pos]
            have := hcos m
            nlinarith
          · next hne =>
            rw [if_pos]
            have a1 := hcos (m - h)
            have a2 := hnn (m - h) (le_refl _) (by linarith)
            have a3 : Real.cos (m - h) ≠ 0 := by
              intro hcon
              apply hne
              rw [hcon, mul_zero, add_zero, sub_self, abs_zero]
              exact ht
            have a4 : Real.cos (m - h) < 0 := lt_of_le_of_ne (by linarith) a3
            nlinarith
        rw [hres]
        refine ⟨_, _, rfl, fun u v a1 a2 => ⟨σ * (t.r * Real.sin v), ?_⟩⟩
        rw [hdist, sub_self]
        have hle : t.R + t.r * Real.cos v ≤ max (t.R + t.r * Real.cos (m - h)) (t.R + t.r * Real.cos (m + h)) := by
          have := hmn v a1 a2
          have b0 := hcos v
          have b1 := hcos (m - h)
          have b2 := hcos (m + h)
          rcases min_le_iff.mp this with h | h
          · exact le_trans (by nlinarith) (le_max_left _ _)
          · exact le_trans (by nlinarith) (le_max_right _ _)
        have := hρ v
        nlinarith
    · rw [if_neg hcyl]
      rw [not_or] at hcyl
      have hd : t.R + t.r * Real.cos (m - h) - (t.R + t.r * Real.cos (m + h)) ≠ 0 := by
        intro hcon
        apply hcyl.1
        rw [hcon, abs_zero]
        exact ht
      have hzz : σ * (t.r * Real.sin (m - h)) - σ * (t.r * Real.sin (m + h)) ≠ 0 := by
        intro hcon
        apply hz
        rw [hcon, abs_zero]
        exact ht
      have hd1 := hρ (m - h)
      have hd2 := hρ (m + h)
      generalize hz1 : σ * (t.r * Real.sin (m - h)) = z1 at *
      generalize hz2 : σ * (t.r * Real.sin (m + h)) = z2 at *
      generalize hD1 : t.R + t.r * Real.cos (m - h) = D1 at *
      generalize hD2 : t.R + t.r * Real.cos (m + h) = D2 at *
      generalize hza : (z2 * D1 - z1 * D2) / (D1 - D2) = za
      have e1 : z1 - za = D1 * (z1 - z2) / (D1 - D2) := by rw [← hza]; field_simp; ring
      have e2 : z2 - za = D2 * (z1 - z2) / (D1 - D2) := by rw [← hza]; field_simp; ring
      have hne : z1 - za ≠ 0 := by
        rw [e1]
        exact div_ne_zero (mul_ne_zero hd1.ne' hzz) hd
      have hv1 : D1 * (z2 - za) / (z1 - za) = D2 := by
        rw [e1, e2]; field_simp
      -- the distance from the axis minus that of the cone
      have hF : ∀ v, t.R + t.r * Real.cos v - D1 * (σ * (t.r * Real.sin v) - za) / (z1 - za) =
          t.r * Real.cos v + (-(D1 * σ * t.r / (z1 - za))) * Real.sin v + (t.R + D1 * za / (z1 - za)) := by
        intro v; field_simp; ring
      have f0 : t.r * Real.cos (m - h) + (-(D1 * σ * t.r / (z1 - za))) * Real.sin (m - h) + (t.R + D1 * za / (z1 - za)) = 0 := by
        rw [← hF, hD1, hz1]; field_simp; ring
      have f1 : t.r * Real.cos (m + h) + (-(D1 * σ * t.r / (z1 - za))) * Real.sin (m + h) + (t.R + D1 * za / (z1 - za)) = 0 := by
        rw [← hF, hD2, hz2, hv1]; ring
      refine ⟨_, _, rfl, fun u v a1 a2 => ?_⟩
      obtain ⟨g1, g2⟩ := arc_mid hh0 hh1 f0 f1 v a1 a2
      rw [← hF, ← hF] at g1 g2
      -- the cone in the coordinates of the torus
      obtain ⟨τ, hτ, hτs, hτe⟩ : ∃ τ : ℝ, (τ = 1 ∨ τ = -1) ∧ 0 < τ * (z1 - za) ∧
          (if 0 < z1 - za then Vec.smul σ t.e3 else Vec.smul (-1) (Vec.smul σ t.e3)) = comb t 0 0 (τ * σ) := by
        by_cases hp : 0 < z1 - za
        · exact ⟨1, Or.inl rfl, by linarith, by rw [if_pos hp, hax', one_mul]⟩
        · have : z1 - za < 0 := lt_of_le_of_ne (not_lt.mp hp) hne
          exact ⟨-1, Or.inr rfl, by linarith, by rw [if_neg hp, hax', smul_comb, mul_zero]⟩
      have hτ2 : τ ^ 2 = 1 := by rcases hτ with rfl | rfl <;> norm_num
      rw [hτe]
      have htan : Real.tan |Real.arctan (D1 / (z1 - za))| = τ * (D1 / (z1 - za)) := by
        rcases hτ with rfl | rfl
        · have : 0 < D1 / (z1 - za) := div_pos hd1 (by linarith)
          rw [abs_of_pos (Real.arctan_pos.mpr this), Real.tan_arctan, one_mul]
        · have : D1 / (z1 - za) < 0 := div_neg_of_pos_of_neg hd1 (by linarith)
          rw [abs_of_neg (Real.arctan_lt_zero.mpr this), Real.tan_neg, Real.tan_arctan]
          ring
      have hdec : Decomp (t.c.add (Vec.smul za (Vec.smul σ t.e3))) (comb t 0 0 (τ * σ)) (t.valueAt u v) (τ * (σ * (t.r * Real.sin v) - za))
          (comb t ((t.R + t.r * Real.cos v) * Real.cos u) ((t.R + t.r * Real.cos v) * Real.sin u) 0) := by
        constructor
        · have e : (t.valueAt u v).sub (t.c.add (Vec.smul za (Vec.smul σ t.e3))) = ((t.valueAt u v).sub t.c).sub (Vec.smul za (Vec.smul σ t.e3)) := by
            simp only [Vec.sub, Vec.add, Vec.mk.injEq]
            refine ⟨?_, ?_, ?_⟩ <;> ring
          have hadd : ∀ a b g a' b' g' : ℝ, (comb t a b g).add (comb t a' b' g') = comb t (a + a') (b + b') (g + g') := by
            intro a b g a' b' g'
            simp only [comb, Vec.add, Vec.smul, Vec.mk.injEq]
            refine ⟨?_, ?_, ?_⟩ <;> ring
          rw [e, valueAt_sub, hax', smul_comb, smul_comb, comb_sub, hadd]
          congr 1
          · ring
          · ring
          · linear_combination (-(t.r * Real.sin v) + za * σ) * hτ2 - (t.r * Real.sin v) * τ ^ 2 * hσ2
        · rw [comb_dot hf]; ring
      have hw : (comb t ((t.R + t.r * Real.cos v) * Real.cos u) ((t.R + t.r * Real.cos v) * Real.sin u) 0).sq = (t.R + t.r * Real.cos v) ^ 2 := by
        rw [Vec.sq, comb_dot hf]
        linear_combination (t.R + t.r * Real.cos v) ^ 2 * (Real.sin_sq_add_cos_sq u)
      have hts : τ * (D1 / (z1 - za)) * (τ * (σ * (t.r * Real.sin v) - za)) = D1 * (σ * (t.r * Real.sin v) - za) / (z1 - za) := by
        have : τ * (D1 / (z1 - za)) * (τ * (σ * (t.r * Real.sin v) - za)) = τ ^ 2 * (D1 * (σ * (t.r * Real.sin v) - za) / (z1 - za)) := by ring
        rw [this, hτ2, one_mul]
      have hslope : 0 < τ * (D1 / (z1 - za)) := by
        have : τ * (D1 / (z1 - za)) = τ ^ 2 * D1 / (τ * (z1 - za)) := by
          have hτ0 : τ ≠ 0 := by rcases hτ with rfl | rfl <;> norm_num
          field_simp
        rw [this, hτ2, one_mul]
        exact div_pos hd1 hτs
      have hρv := hρ v
      by_cases hb : t.R + t.r * Real.cos m < D1 * (σ * (t.r * Real.sin m) - za) / (z1 - za)
      · rw [decide_eq_true hb]
        have hle := g1 (by linarith)
        refine ⟨_, _, hdec, ?_, ?_⟩
        · by_contra hcon
          have : τ * (D1 / (z1 - za)) * (τ * (σ * (t.r * Real.sin v) - za)) < 0 := mul_neg_of_pos_of_neg hslope (not_le.mp hcon)
          rw [hts] at this
          linarith
        · rw [htan, hts, hw]
          exact pow_le_pow_left₀ hρv.le (by linarith) 2
      · rw [decide_eq_false hb]
        have hle := g2 (by linarith)
        refine ⟨_, _, hdec, ?_⟩
        rcases le_or_gt (τ * (σ * (t.r * Real.sin v) - za)) 0 with hs | hs
        · exact Or.inl hs
        · right
          have hpos : 0 < τ * (D1 / (z1 - za)) * (τ * (σ * (t.r * Real.sin v) - za)) := mul_pos hslope hs
          rw [htan, hts, hw]
          rw [hts] at hpos
          exact pow_le_pow_left₀ hpos.le (by linarith) 2

/-- non-vacuity: the hypotheses hold for a face in the half of a torus away from the axis -/
example : Frame (zTorus ⟨1, 2, 3⟩) ∧ 0 < (zTorus ⟨1, 2, 3⟩).r ∧ (zTorus ⟨1, 2, 3⟩).r < (zTorus ⟨1, 2, 3⟩).R ∧ snapAxis (zTorus ⟨1, 2, 3⟩).e3 ≠ none ∧
    Exact (zTorus ⟨1, 2, 3⟩) (-(Real.pi / 2)) 0 (1 / 1000) ∧ -(Real.pi / 2) < 0 ∧
      ∃ k : ℤ, k * Real.pi - Real.pi / 2 ≤ -(Real.pi / 2) ∧ 0 ≤ k * Real.pi + Real.pi / 2 := by
  have hp := Real.pi_pos
  refine ⟨zTorus_frame _, by norm_num [zTorus], by norm_num [zTorus], by rw [zTorus_snap]; simp, ?_, by linarith, 0, by push_cast; linarith, by push_cast; linarith⟩
  unfold Exact
  simp only [Real.sin_neg, Real.sin_pi_div_two, Real.sin_zero, Real.cos_neg, Real.cos_pi_div_two, Real.cos_zero, zTorus]
  norm_num

/-- the property fails: a face from -135° to 135°, across the side of the torus away from the axis: its ends are nearer to the axis than the circle of the centers,
and the face is said to be inside the cylinder through them; the point farthest from the axis is not -/
theorem C92_violated : ¬ C92_statement := by
  intro hst
  have hp := Real.pi_pos
  have hq : 0 < Real.sqrt 2 := Real.sqrt_pos.mpr (by norm_num)
  have hq2 : Real.sqrt 2 ^ 2 = 2 := Real.sq_sqrt (by norm_num)
  have hq1 : Real.sqrt 2 < 2 := by nlinarith
  have hq0 : 1 < Real.sqrt 2 := by nlinarith
  have hc : Real.cos (3 * Real.pi / 4) = -(Real.sqrt 2 / 2) := by
    rw [show 3 * Real.pi / 4 = Real.pi - Real.pi / 4 by ring, Real.cos_pi_sub, Real.cos_pi_div_four]
  have hs : Real.sin (3 * Real.pi / 4) = Real.sqrt 2 / 2 := by
    rw [show 3 * Real.pi / 4 = Real.pi - Real.pi / 4 by ring, Real.sin_pi_sub, Real.sin_pi_div_four]
  have hsn : Real.sin (-(3 * Real.pi / 4)) = -(Real.sqrt 2 / 2) := by rw [Real.sin_neg, hs]
  have hcn : Real.cos (-(3 * Real.pi / 4)) = -(Real.sqrt 2 / 2) := by rw [Real.cos_neg, hc]
  have hfr := zTorus_frame ⟨0, 0, 0⟩
  have hR : (zTorus ⟨0, 0, 0⟩).R = 2 := rfl
  have hr : (zTorus ⟨0, 0, 0⟩).r = 1 := rfl
  have hexact : Exact (zTorus ⟨0, 0, 0⟩) (-(3 * Real.pi / 4)) (3 * Real.pi / 4) (1 / 1000) := by
    unfold Exact
    rw [hr, hs, hc, hsn, hcn]
    refine ⟨by norm_num, fun h => ?_, fun _ => rfl, fun h => ?_⟩
    · rw [abs_lt] at h; linarith
    · rw [abs_lt] at h; linarith
  obtain ⟨s, b, he, h⟩ := hst (zTorus ⟨0, 0, 0⟩) (-(3 * Real.pi / 4)) (3 * Real.pi / 4) (1 / 1000) false hfr (by rw [hr]; norm_num) (by rw [hr, hR]; norm_num)
    (by rw [zTorus_snap]; simp) hexact (by linarith) (by linarith)
  have h3 : (⟨0, 0, 1⟩ : Vec) = Vec.smul 1 (zTorus ⟨0, 0, 0⟩).e3 := by simp [zTorus, Vec.smul]
  have hax' : Vec.smul 1 (zTorus ⟨0, 0, 0⟩).e3 = comb (zTorus ⟨0, 0, 0⟩) 0 0 1 := by simp [comb, Vec.add, Vec.smul]
  have hlen : ∀ v, length ((((zTorus ⟨0, 0, 0⟩).valueAt 0 v).sub (zTorus ⟨0, 0, 0⟩).c).cross (Vec.smul 1 (zTorus ⟨0, 0, 0⟩).e3)) = 2 + Real.cos v := by
    intro v
    rw [valueAt_sub, length_cross hfr (Or.inl rfl), Real.cos_zero, Real.sin_zero, mul_one, mul_zero, hR, hr, one_mul]
    rw [show (2 + Real.cos v) ^ 2 + (0 : ℝ) ^ 2 = (2 + Real.cos v) ^ 2 by ring]
    exact Real.sqrt_sq (by linarith [Real.neg_one_le_cos v])
  have hdot : ∀ v, (((zTorus ⟨0, 0, 0⟩).valueAt 0 v).sub (zTorus ⟨0, 0, 0⟩).c).dot (Vec.smul 1 (zTorus ⟨0, 0, 0⟩).e3) = Real.sin v := by
    intro v
    rw [valueAt_sub, hax', comb_dot hfr, hr]; ring
  unfold annexV at he
  rw [zTorus_snap] at he
  dsimp only at he
  rw [h3] at he
  simp only [hdot, hlen] at he
  rw [hs, hc, hsn, hcn, if_neg (by rw [abs_lt, not_and_or]; exact Or.inl (by linarith)), if_pos (by left; rw [sub_self, abs_zero]; norm_num)] at he
  unfold annexCyl at he
  rw [if_neg (by rw [hR, abs_lt, not_and_or]; exact Or.inl (by linarith)), if_pos (by rw [hR]; linarith), max_self] at he
  simp only [Option.some.injEq, Prod.mk.injEq] at he
  obtain ⟨rfl, rfl⟩ := he
  obtain ⟨w, hw⟩ := h 0 0 (by linarith) (by linarith)
  simp only [distSq, onAxis, Torus.valueAt, zTorus, Vec.sq, Vec.dot, Vec.sub, Vec.add, Vec.smul, Real.cos_zero, Real.sin_zero] at hw
  nlinarith [sq_nonneg w]

end Geouned.Face
