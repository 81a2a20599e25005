import Verif.Shape.Lemmas
/-!
# Lemmas for C115: spheres, cylinders, boxes and cones
-/
namespace Geouned.Shape
open Geouned.Geom Geouned.RSurf

/-- between two planes at right angles to the unit vector `x` -/
theorem slab {x P q : Vec} {d : ℝ} (hx : x.sq = 1) (hd : 0 < d) (h : (q.sub P).dot x ^ 2 < d ^ 2) :
    0 < (opp x).dot (q.sub (P.add (Vec.smul d x))) ∧ 0 < x.dot (q.sub (P.sub (Vec.smul d x))) := by
  have := abs_lt.1 (abs_lt_of_sq_lt_sq h hd.le)
  have e : x.dot x = 1 := hx
  rw [sub_add, sub_sub, opp_dot, dot_sub, dot_add, dot_smul, e, dot_comm x]
  constructor <;> linarith [this.1, this.2]

theorem slab_iff {x P q : Vec} {d : ℝ} (hx : x.sq = 1) :
    (0 < (opp x).dot (q.sub (P.add (Vec.smul d x))) ↔ (q.sub P).dot x < d) ∧ (0 < x.dot (q.sub (P.sub (Vec.smul d x))) ↔ -d < (q.sub P).dot x) := by
  have e : x.dot x = 1 := hx
  rw [sub_add, sub_sub, opp_dot, dot_sub, dot_add, dot_smul, e, dot_comm x]
  constructor <;> constructor <;> intro h <;> linarith

theorem vX_sq : vX.sq = 1 := by norm_num [vX, Vec.sq, Vec.dot]
theorem vY_sq : vY.sq = 1 := by norm_num [vY, Vec.sq, Vec.dot]
theorem vZ_sq : vZ.sq = 1 := by norm_num [vZ, Vec.sq, Vec.dot]
theorem ne_of_one {v : Vec} (h : v.sq = 1) : v.sq ≠ 0 := by rw [h]; exact one_ne_zero
theorem opp_ne {v : Vec} (h : v.sq ≠ 0) : (opp v).sq ≠ 0 := by rwa [opp_sq]

theorem dot_vX (r : Vec) : r.dot vX = r.x := by simp [vX, Vec.dot]
theorem dot_vY (r : Vec) : r.dot vY = r.y := by simp [vY, Vec.dot]
theorem dot_vZ (r : Vec) : r.dot vZ = r.z := by simp [vZ, Vec.dot]
theorem sq_eq (r : Vec) : r.sq = r.x ^ 2 + r.y ^ 2 + r.z ^ 2 := by simp only [Vec.sq, Vec.dot]; ring

/-! ## Six planes -/

theorem six_ne (P : Vec) (a b c : ℝ) : ∀ e ∈ sixPlanes P a b c, e.2.sq ≠ 0 := by
  intro e he
  simp only [sixPlanes, List.mem_cons, List.not_mem_nil, or_false] at he
  rcases he with rfl | rfl | rfl | rfl | rfl | rfl <;>
    simp only [opp_sq, vX_sq, vY_sq, vZ_sq] <;> exact one_ne_zero

theorem six_on {P q : Vec} {a b c : ℝ} (ha : (q.sub P).x ^ 2 < a ^ 2) (hb : (q.sub P).y ^ 2 < b ^ 2) (hc : (q.sub P).z ^ 2 < c ^ 2) (a0 : 0 < a) (b0 : 0 < b)
    (c0 : 0 < c) : ∀ e ∈ sixPlanes P a b c, 0 < e.2.dot (q.sub e.1) := by
  intro e he
  rw [← dot_vX] at ha
  rw [← dot_vY] at hb
  rw [← dot_vZ] at hc
  simp only [sixPlanes, List.mem_cons, List.not_mem_nil, or_false] at he
  rcases he with rfl | rfl | rfl | rfl | rfl | rfl
  · exact (slab vX_sq a0 ha).1
  · exact (slab vX_sq a0 ha).2
  · exact (slab vY_sq b0 hb).1
  · exact (slab vY_sq b0 hb).2
  · exact (slab vZ_sq c0 hc).1
  · exact (slab vZ_sq c0 hc).2

theorem sphere_eq (P : Vec) (R : ℝ) (pos : Option Bool) : sphereToPlanes P R pos = some ((sixPlanes P (factor pos R) (factor pos R) (factor pos R)).map unitPl) :=
  partPlanes_eq (six_ne P (factor pos R) (factor pos R) (factor pos R))

theorem map_on {l : List (Vec × Vec)} (hne : ∀ e ∈ l, e.2.sq ≠ 0) {q : Vec} (h : ∀ e ∈ l, 0 < e.2.dot (q.sub e.1)) : ∀ p ∈ l.map unitPl, p.On q := by
  intro p hp
  obtain ⟨e, he, rfl⟩ := List.mem_map.1 hp
  exact (unitPl_on (hne e he) q).2 (h e he)

theorem sphere_around {P q : Vec} {R : ℝ} (hR : 0 < R) (h : (sphRegion P R).neg q) :
    ∃ ps, sphereToPlanes P R (some false) = some ps ∧ ∀ p ∈ ps, p.On q := by
  refine ⟨_, sphere_eq P R _, map_on (six_ne _ _ _ _) ?_⟩
  have h' : distSq q P - R ^ 2 < 0 := h
  unfold distSq at h'
  rw [sq_eq] at h'
  refine six_on ?_ ?_ ?_ hR hR hR <;> simp only [factor] <;> nlinarith [sq_nonneg (q.sub P).x, sq_nonneg (q.sub P).y, sq_nonneg (q.sub P).z]

/-! ## Cylinders -/

theorem cyl_planes {P v : Vec} (hv : v.sq = 1) (R : ℝ) (pos : Option Bool) : ∃ x y, Frame x y v ∧
    cylinderToPlanes P v R pos = some ([(P.add (Vec.smul (factor pos R) x), opp x), (P.sub (Vec.smul (factor pos R) x), x), (P.add (Vec.smul (factor pos R) y), opp y),
      (P.sub (Vec.smul (factor pos R) y), y)].map unitPl) := by
  obtain ⟨x, y, e, hf⟩ := ortoAxis_eq hv
  refine ⟨x, y, hf, ?_⟩
  rw [cylinderToPlanes, e, Option.bind_some]
  refine partPlanes_eq ?_
  intro e he
  simp only [List.mem_cons, List.not_mem_nil, or_false] at he
  rcases he with rfl | rfl | rfl | rfl <;> simp only [opp_sq, hf.xx, hf.yy] <;> exact one_ne_zero

theorem cyl_around {P v q : Vec} {R : ℝ} (hv : v.sq = 1) (hR : 0 < R) (h : (cylRegion P v R).neg q) :
    ∃ ps, cylinderToPlanes P v R (some false) = some ps ∧ ∀ p ∈ ps, p.On q := by
  obtain ⟨x, y, hf, e⟩ := cyl_planes (P := P) hv R (some false)
  refine ⟨_, e, map_on ?_ ?_⟩
  · intro e he
    simp only [List.mem_cons, List.not_mem_nil, or_false] at he
    rcases he with rfl | rfl | rfl | rfl <;> simp only [opp_sq, hf.xx, hf.yy] <;> exact one_ne_zero
  obtain ⟨t, ht⟩ := h
  have e0 : q.sub (onAxis P v t) = (q.sub P).sub (Vec.smul t v) := sub_add _ _ _
  rw [distSq, e0, hf.parseval] at ht
  have k1 : ((q.sub P).sub (Vec.smul t v)).dot x = (q.sub P).dot x := by rw [sub_dot, smul_dot, dot_comm v, hf.xa]; ring
  have k2 : ((q.sub P).sub (Vec.smul t v)).dot y = (q.sub P).dot y := by rw [sub_dot, smul_dot, dot_comm v, hf.ya]; ring
  rw [k1, k2] at ht
  intro e he
  have s1 := slab (P := P) (q := q) hf.xx hR (by nlinarith [sq_nonneg ((q.sub P).dot y), sq_nonneg (((q.sub P).sub (Vec.smul t v)).dot v)])
  have s2 := slab (P := P) (q := q) hf.yy hR (by nlinarith [sq_nonneg ((q.sub P).dot x), sq_nonneg (((q.sub P).sub (Vec.smul t v)).dot v)])
  simp only [List.mem_cons, List.not_mem_nil, or_false] at he
  rcases he with rfl | rfl | rfl | rfl
  · exact s1.1
  · exact s1.2
  · exact s2.1
  · exact s2.2

/-! ## Boxes -/

theorem box_planes {P v1 v2 v3 : Vec} (h : Orth3 v1 v2 v3) :
    boxToPlanes P v1 v2 v3 = some ([(P, v1), (P, v2), (P, v3), (P.add v1, opp v1), (P.add v2, opp v2), (P.add v3, opp v3)].map unitPl) := by
  obtain ⟨-, -, -, h1, h2, h3⟩ := h
  refine partPlanes_eq ?_
  intro e he
  simp only [List.mem_cons, List.not_mem_nil, or_false] at he
  rcases he with rfl | rfl | rfl | rfl | rfl | rfl <;> simp only [opp_sq] <;> apply ne_of_gt <;> assumption

theorem box_dots {P v1 v2 v3 q : Vec} (h : Orth3 v1 v2 v3) {a b c : ℝ} (e : q.sub P = ((Vec.smul a v1).add (Vec.smul b v2)).add (Vec.smul c v3)) :
    v1.dot (q.sub P) = a * v1.sq ∧ v2.dot (q.sub P) = b * v2.sq ∧ v3.dot (q.sub P) = c * v3.sq := by
  obtain ⟨h12, h23, h31, -, -, -⟩ := h
  rw [e]
  simp only [dot_add, dot_smul, h12, h23, h31, dot_comm v2 v1, dot_comm v3 v2, dot_comm v1 v3, Vec.sq]
  refine ⟨?_, ?_, ?_⟩ <;> ring

theorem box_on_iff {P v1 v2 v3 q : Vec} (h : Orth3 v1 v2 v3) :
    (∀ p ∈ [(P, v1), (P, v2), (P, v3), (P.add v1, opp v1), (P.add v2, opp v2), (P.add v3, opp v3)].map unitPl, p.On q) ↔
      (0 < v1.dot (q.sub P) ∧ v1.dot (q.sub P) < v1.sq) ∧ (0 < v2.dot (q.sub P) ∧ v2.dot (q.sub P) < v2.sq) ∧ (0 < v3.dot (q.sub P) ∧ v3.dot (q.sub P) < v3.sq) := by
  obtain ⟨-, -, -, h1, h2, h3⟩ := h
  simp only [List.map_cons, List.map_nil, List.mem_cons, List.not_mem_nil, or_false, forall_eq_or_imp, forall_eq]
  have r : ∀ v : Vec, 0 < v.sq → ((unitPl (P.add v, opp v)).On q ↔ v.dot (q.sub P) < v.sq) := fun v hv => by
    rw [unitPl_on (by rw [opp_sq]; exact hv.ne'), opp_dot, sub_add, dot_sub, ← Vec.sq]
    constructor <;> intro h <;> linarith
  rw [unitPl_on h1.ne', unitPl_on h2.ne', unitPl_on h3.ne', r v1 h1, r v2 h2, r v3 h3]
  tauto

theorem box_around {P v1 v2 v3 q : Vec} (ho : Orth3 v1 v2 v3) (h : (boxRegion P v1 v2 v3).neg q) :
    ∃ ps, boxToPlanes P v1 v2 v3 = some ps ∧ ∀ p ∈ ps, p.On q := by
  refine ⟨_, box_planes ho, (box_on_iff ho).2 ?_⟩
  obtain ⟨a, b, c, e, a0, a1, b0, b1, c0, c1⟩ := h
  obtain ⟨d1, d2, d3⟩ := box_dots ho e
  obtain ⟨-, -, -, h1, h2, h3⟩ := ho
  rw [d1, d2, d3]
  refine ⟨⟨by positivity, ?_⟩, ⟨by positivity, ?_⟩, by positivity, ?_⟩ <;> nlinarith

/-! ## Cones -/

/-- the direction away from the axis at the angle `phi` -/
noncomputable def rhoAt (x y : Vec) (phi : ℝ) : Vec := (Vec.smul (Real.cos phi) x).add (Vec.smul (Real.sin phi) y)

theorem rho_dot (x y r : Vec) (phi : ℝ) : (rhoAt x y phi).dot r = Real.cos phi * r.dot x + Real.sin phi * r.dot y := by
  rw [rhoAt, add_dot, smul_dot, smul_dot, dot_comm x, dot_comm y]

theorem rho_sq {x y a : Vec} (h : Frame x y a) (phi : ℝ) : (rhoAt x y phi).sq = 1 := by
  have : (rhoAt x y phi).sq = Real.cos phi ^ 2 * x.sq + 2 * Real.cos phi * Real.sin phi * x.dot y + Real.sin phi ^ 2 * y.sq := by
    simp only [rhoAt, Vec.sq, Vec.dot, Vec.add, Vec.smul]; ring
  rw [this, h.xx, h.yy, h.xy]
  have := Real.sin_sq_add_cos_sq phi
  linarith

theorem rho_a {x y a : Vec} (h : Frame x y a) (phi : ℝ) : (rhoAt x y phi).dot a = 0 := by
  rw [rhoAt, add_dot, smul_dot, smul_dot, h.xa, h.ya]; ring

/-- Cauchy-Schwarz in the plane of `x` and `y` -/
theorem rho_le (x y r : Vec) (phi : ℝ) : ((rhoAt x y phi).dot r) ^ 2 ≤ r.dot x ^ 2 + r.dot y ^ 2 := by
  rw [rho_dot]
  have := Real.sin_sq_add_cos_sq phi
  nlinarith [sq_nonneg (Real.cos phi * r.dot y - Real.sin phi * r.dot x)]

theorem coneLoop_mem {P a x y : Vec} {cs ss : ℝ} : ∀ {n : Nat} {phi : ℝ} {e : Vec × Vec}, e ∈ coneLoop P a x y cs ss n phi →
    ∃ th, e = (P, opp ((Vec.smul ss (opp a)).add (Vec.smul cs (rhoAt x y th))))
  | n + 1, phi, e, h => by
    rw [coneLoop] at h
    rcases List.mem_cons.1 h with rfl | h
    · exact ⟨phi, rfl⟩
    · exact coneLoop_mem h

/-- the side of one plane of a cone -/
theorem cone_dot (a x y r : Vec) (cs ss th : ℝ) :
    (opp ((Vec.smul ss (opp a)).add (Vec.smul cs (rhoAt x y th)))).dot r = ss * r.dot a - cs * (rhoAt x y th).dot r := by
  rw [opp_dot, add_dot, smul_dot, smul_dot, opp_dot, dot_comm a]; ring

theorem cone_normal {x y a : Vec} (h : Frame x y a) (t th : ℝ) :
    (opp ((Vec.smul (Real.sin (Real.arctan t)) (opp a)).add (Vec.smul (Real.cos (Real.arctan t)) (rhoAt x y th)))).sq = 1 := by
  have e : ∀ (p q : ℝ) (u : Vec), (opp ((Vec.smul p (opp a)).add (Vec.smul q u))).sq = p ^ 2 * a.sq - 2 * p * q * u.dot a + q ^ 2 * u.sq := by
    intro p q u; simp only [opp, Vec.sq, Vec.dot, Vec.add, Vec.smul]; ring
  rw [e, h.aa, rho_a h, rho_sq h]
  have := Real.sin_sq_add_cos_sq (Real.arctan t)
  linarith

theorem cone_list_ne {P x y a : Vec} (h : Frame x y a) (t : ℝ) :
    ∀ e ∈ coneLoop P a x y (Real.cos (Real.arctan t)) (Real.sin (Real.arctan t)) 4 0 ++ [(P, a)], e.2.sq ≠ 0 := by
  intro e he
  rcases List.mem_append.1 he with he | he
  · obtain ⟨th, rfl⟩ := coneLoop_mem he
    exact ne_of_one (cone_normal h t th)
  · simp only [List.mem_cons, List.not_mem_nil, or_false] at he
    subst he; exact ne_of_one h.aa

theorem cone_planes {P a : Vec} (ha : a.sq = 1) (t : ℝ) (pos : Option Bool) : ∃ x y, Frame x y a ∧ coneToPlanes P a t pos =
    some ((coneLoop P a x y (Real.cos (Real.arctan (factor pos t))) (Real.sin (Real.arctan (factor pos t))) 4 0 ++ [(P, a)]).map unitPl) := by
  obtain ⟨x, y, e, hf⟩ := ortoAxis_eq ha
  refine ⟨x, y, hf, ?_⟩
  rw [coneToPlanes, e, Option.bind_some]
  exact partPlanes_eq (cone_list_ne hf _)

theorem sin_arctan_eq (t : ℝ) : Real.sin (Real.arctan t) = t * Real.cos (Real.arctan t) := by
  have h := cos_arctan_pos t
  rw [← Real.tan_mul_cos h.ne', Real.tan_arctan]

/-- inside one sheet: all planes of a cone with tangent `t` are positive -/
theorem cone_on {P a x y q : Vec} {t : ℝ} (hf : Frame x y a) (hz : 0 < (q.sub P).dot a)
    (h : (q.sub P).dot x ^ 2 + (q.sub P).dot y ^ 2 < (t * (q.sub P).dot a) ^ 2) (ht : 0 < t) :
    ∀ e ∈ coneLoop P a x y (Real.cos (Real.arctan t)) (Real.sin (Real.arctan t)) 4 0 ++ [(P, a)], 0 < e.2.dot (q.sub e.1) := by
  intro e he
  rcases List.mem_append.1 he with he | he
  · obtain ⟨th, rfl⟩ := coneLoop_mem he
    rw [cone_dot, sin_arctan_eq]
    have := abs_lt.1 (abs_lt_of_sq_lt_sq (lt_of_le_of_lt (rho_le x y (q.sub P) th) h) (by positivity))
    have hc := cos_arctan_pos t
    nlinarith [mul_pos hc (sub_pos.2 this.2)]
  · simp only [List.mem_cons, List.not_mem_nil, or_false] at he
    subst he; rw [dot_comm]; exact hz

/-- inside the other sheet: all planes are negative -/
theorem cone_off {P a x y q : Vec} {t : ℝ} (hf : Frame x y a) (hz : (q.sub P).dot a < 0)
    (h : (q.sub P).dot x ^ 2 + (q.sub P).dot y ^ 2 < (t * (q.sub P).dot a) ^ 2) (ht : 0 < t) :
    ∀ e ∈ coneLoop P a x y (Real.cos (Real.arctan t)) (Real.sin (Real.arctan t)) 4 0 ++ [(P, a)], e.2.dot (q.sub e.1) < 0 := by
  intro e he
  rcases List.mem_append.1 he with he | he
  · obtain ⟨th, rfl⟩ := coneLoop_mem he
    rw [cone_dot, sin_arctan_eq]
    rw [← neg_sq (t * _)] at h
    have h0 : 0 ≤ -(t * (q.sub P).dot a) := by nlinarith
    have := abs_lt.1 (abs_lt_of_sq_lt_sq (lt_of_le_of_lt (rho_le x y (q.sub P) th) h) h0)
    have hc := cos_arctan_pos t
    nlinarith [mul_pos hc (sub_pos.2 this.1)]
  · simp only [List.mem_cons, List.not_mem_nil, or_false] at he
    subst he; rw [dot_comm]; exact hz

theorem map_off {l : List (Vec × Vec)} (hne : ∀ e ∈ l, e.2.sq ≠ 0) {q : Vec} (h : ∀ e ∈ l, e.2.dot (q.sub e.1) < 0) : ∀ p ∈ l.map unitPl, ¬ p.On q := by
  intro p hp
  obtain ⟨e, he, rfl⟩ := List.mem_map.1 hp
  rw [unitPl_on (hne e he) q]
  exact not_lt.2 (h e he).le

theorem inCone_frame {P a x y q : Vec} {t : ℝ} (hf : Frame x y a) (h : InCone P a t q) :
    (q.sub P).dot x ^ 2 + (q.sub P).dot y ^ 2 < (t * (q.sub P).dot a) ^ 2 := by
  obtain ⟨s, w, hd, h⟩ := h
  obtain ⟨e1, e2⟩ := hf.decomp hd
  rw [e2, hf.aa] at h
  rw [e1]; nlinarith

theorem sheet_around {P a q : Vec} {t : ℝ} (ha : a.sq = 1) (ht : 0 < t) (h : (sheetRegion P a t).neg q) :
    ∃ ps, coneToPlanes P a t (some false) = some ps ∧ ∀ p ∈ ps, p.On q := by
  obtain ⟨x, y, hf, e⟩ := cone_planes (P := P) ha t (some false)
  refine ⟨_, e, map_on (cone_list_ne hf _) (cone_on hf ?_ (inCone_frame hf h.1) ht)⟩
  rw [dot_comm]; exact h.2

theorem cone_around {P a q : Vec} {t : ℝ} (ha : a.sq = 1) (ht : 0 < t) (h : (coneRegion P a t).neg q) :
    ∃ ps, coneToPlanes P a t (some false) = some ps ∧ ((∀ p ∈ ps, p.On q) ∨ ∀ p ∈ ps, ¬ p.On q) := by
  obtain ⟨x, y, hf, e⟩ := cone_planes (P := P) ha t (some false)
  have hi := inCone_frame hf h
  refine ⟨_, e, ?_⟩
  rcases lt_trichotomy 0 ((q.sub P).dot a) with hz | hz | hz
  · exact .inl (map_on (cone_list_ne hf _) (cone_on hf hz hi ht))
  · rw [← hz] at hi
    nlinarith [sq_nonneg ((q.sub P).dot x), sq_nonneg ((q.sub P).dot y)]
  · exact .inr (map_off (cone_list_ne hf _) (cone_off hf hz hi ht))

/-! ### planes inside of a cone -/

theorem four_angles : Real.cos 0 = 1 ∧ Real.sin 0 = 0 ∧ Real.cos (0 + 2 * Real.pi / 4) = 0 ∧ Real.sin (0 + 2 * Real.pi / 4) = 1 ∧
    Real.cos (0 + 2 * Real.pi / 4 + 2 * Real.pi / 4) = -1 ∧ Real.sin (0 + 2 * Real.pi / 4 + 2 * Real.pi / 4) = 0 ∧
    Real.cos (0 + 2 * Real.pi / 4 + 2 * Real.pi / 4 + 2 * Real.pi / 4) = 0 ∧ Real.sin (0 + 2 * Real.pi / 4 + 2 * Real.pi / 4 + 2 * Real.pi / 4) = -1 := by
  have e1 : 0 + 2 * Real.pi / 4 = Real.pi / 2 := by ring
  have e2 : 0 + 2 * Real.pi / 4 + 2 * Real.pi / 4 = Real.pi := by ring
  have e3 : 0 + 2 * Real.pi / 4 + 2 * Real.pi / 4 + 2 * Real.pi / 4 = Real.pi / 2 + Real.pi := by ring
  rw [e3, e2, e1]
  refine ⟨Real.cos_zero, Real.sin_zero, Real.cos_pi_div_two, Real.sin_pi_div_two, Real.cos_pi, Real.sin_pi, ?_, ?_⟩
  · rw [Real.cos_add_pi, Real.cos_pi_div_two, neg_zero]
  · rw [Real.sin_add_pi, Real.sin_pi_div_two]

/-- what the five planes say -/
theorem cone_list_iff (P a x y q : Vec) (t : ℝ) (R : ℝ → Prop) (hR : ∀ k u : ℝ, 0 < k → (R (k * u) ↔ R u)) :
    (∀ e ∈ coneLoop P a x y (Real.cos (Real.arctan t)) (Real.sin (Real.arctan t)) 4 0 ++ [(P, a)], R (e.2.dot (q.sub e.1))) →
      R (t * (q.sub P).dot a - (q.sub P).dot x) ∧ R (t * (q.sub P).dot a - (q.sub P).dot y) ∧ R (t * (q.sub P).dot a + (q.sub P).dot x) ∧
        R (t * (q.sub P).dot a + (q.sub P).dot y) ∧ R ((q.sub P).dot a) := by
  intro h
  obtain ⟨c0, s0, c1, s1, c2, s2, c3, s3⟩ := four_angles
  have hc := cos_arctan_pos t
  have key : ∀ th, R ((opp ((Vec.smul (Real.sin (Real.arctan t)) (opp a)).add (Vec.smul (Real.cos (Real.arctan t)) (rhoAt x y th)))).dot (q.sub P)) →
      R (t * (q.sub P).dot a - (Real.cos th * (q.sub P).dot x + Real.sin th * (q.sub P).dot y)) := by
    intro th hh
    rw [cone_dot, sin_arctan_eq, rho_dot] at hh
    refine (hR _ _ hc).1 ?_
    convert hh using 1
    ring
  have h1 := key 0 (h (P, _) (List.mem_append_left _ (.head _)))
  have h2 := key (0 + 2 * Real.pi / 4) (h (P, _) (List.mem_append_left _ (.tail _ (.head _))))
  have h3 := key (0 + 2 * Real.pi / 4 + 2 * Real.pi / 4) (h (P, _) (List.mem_append_left _ (.tail _ (.tail _ (.head _)))))
  have h4 := key (0 + 2 * Real.pi / 4 + 2 * Real.pi / 4 + 2 * Real.pi / 4) (h (P, _) (List.mem_append_left _ (.tail _ (.tail _ (.tail _ (.head _))))))
  have h5 := h (P, a) (by simp)
  rw [c0, s0] at h1; rw [c1, s1] at h2; rw [c2, s2] at h3; rw [c3, s3] at h4
  refine ⟨?_, ?_, ?_, ?_, by rw [dot_comm]; exact h5⟩
  · convert h1 using 1; ring
  · convert h2 using 1; ring
  · convert h3 using 1; ring
  · convert h4 using 1; ring

theorem inscribed_sq {u w z t : ℝ} (ht : 0 < t) (h1 : |u| ≤ |t * 0.70710678 * z|) (h2 : |w| ≤ |t * 0.70710678 * z|) : u ^ 2 + w ^ 2 ≤ t ^ 2 * z ^ 2 := by
  have a1 := sq_le_sq.2 h1
  have a2 := sq_le_sq.2 h2
  nlinarith [sq_nonneg (t * z)]

theorem not_outCone {P a x y q : Vec} {t : ℝ} (hf : Frame x y a) (h : (q.sub P).dot x ^ 2 + (q.sub P).dot y ^ 2 ≤ t ^ 2 * (q.sub P).dot a ^ 2) :
    ¬ OutCone P a t q := by
  rintro ⟨s, w, hd, hh⟩
  obtain ⟨e1, e2⟩ := hf.decomp hd
  rw [e2, hf.aa] at hh
  rw [e1] at h; linarith

theorem cone_within {P a q : Vec} {t : ℝ} (ha : a.sq = 1) (ht : 0 < t) :
    ∃ ps, coneToPlanes P a t (some true) = some ps ∧ ((∀ p ∈ ps, p.On q) → ¬ (sheetRegion P a t).pos q ∧ ¬ (coneRegion P a t).pos q) ∧
      ((∀ p ∈ ps, ¬ p.On q) → ¬ (coneRegion P a t).pos q) := by
  obtain ⟨x, y, hf, e⟩ := cone_planes (P := P) ha t (some true)
  refine ⟨_, e, fun h => ?_, fun h => ?_⟩
  · have h' : ∀ e ∈ coneLoop P a x y (Real.cos (Real.arctan (t * 0.70710678))) (Real.sin (Real.arctan (t * 0.70710678))) 4 0 ++ [(P, a)], 0 < e.2.dot (q.sub e.1) :=
      fun e he => (unitPl_on (cone_list_ne hf _ e he) q).1 (h _ (List.mem_map_of_mem he))
    obtain ⟨k1, k2, k3, k4, k5⟩ := cone_list_iff P a x y q _ (fun u => 0 < u) (fun k u hk => mul_pos_iff_of_pos_left hk) h'
    have hp : (0:ℝ) < t * 0.70710678 * (q.sub P).dot a := by positivity
    have := not_outCone hf (inscribed_sq (u := (q.sub P).dot x) (w := (q.sub P).dot y) (z := (q.sub P).dot a) ht
      (by rw [abs_of_pos hp]; exact abs_le.2 ⟨by linarith, by linarith⟩) (by rw [abs_of_pos hp]; exact abs_le.2 ⟨by linarith, by linarith⟩))
    refine ⟨?_, this⟩
    rintro (h1 | h1)
    · exact this h1
    · rw [dot_comm] at h1; linarith
  · have h' : ∀ e ∈ coneLoop P a x y (Real.cos (Real.arctan (t * 0.70710678))) (Real.sin (Real.arctan (t * 0.70710678))) 4 0 ++ [(P, a)], e.2.dot (q.sub e.1) ≤ 0 :=
      fun e he => not_lt.1 fun hh => h _ (List.mem_map_of_mem he) ((unitPl_on (cone_list_ne hf _ e he) q).2 hh)
    obtain ⟨k1, k2, k3, k4, k5⟩ := cone_list_iff P a x y q _ (fun u => u ≤ 0) (fun k u hk => ⟨fun h => by nlinarith, fun h => by nlinarith⟩) h'
    have hp : t * 0.70710678 * (q.sub P).dot a ≤ 0 := by nlinarith
    exact not_outCone hf (inscribed_sq (u := (q.sub P).dot x) (w := (q.sub P).dot y) (z := (q.sub P).dot a) ht
      (by rw [abs_of_nonpos hp]; exact abs_le.2 ⟨by linarith, by linarith⟩) (by rw [abs_of_nonpos hp]; exact abs_le.2 ⟨by linarith, by linarith⟩))

end Geouned.Shape
