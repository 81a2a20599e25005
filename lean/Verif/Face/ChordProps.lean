import Verif.Face.ChordModel
import Verif.Face.TorusVProps
/-!
# C93: the additional plane of a concave cylinder or cone face

The faces joined to a face cover the angles `u1` to `u2` of its surface. The plane is given by a point and a normal; its side is chosen by the center of mass of the face
(`signPlane`), an average of points of the face.
-/
namespace Geouned.Face

open Geouned.Geom

/-- three orthonormal vectors, right-handed -/
def Ortho (e1 e2 e3 : Vec) : Prop :=
  e1.dot e1 = 1 ∧ e2.dot e2 = 1 ∧ e3.dot e3 = 1 ∧ e1.dot e2 = 0 ∧ e1.dot e3 = 0 ∧ e2.dot e3 = 0 ∧ e1.cross e2 = e3

/-- the sum of points with weights -/
def weighted : List (ℝ × Vec) → Vec
  | [] => ⟨0, 0, 0⟩
  | (a, p) :: rest => (Vec.smul a p).add (weighted rest)

/-- `q` is an average of points that satisfy `S`, with a point of positive weight that satisfies `T` -/
def Average (S T : Vec → Prop) (q : Vec) : Prop :=
  ∃ l : List (ℝ × Vec), q = weighted l ∧ (l.map (·.1)).sum = 1 ∧ (∀ x ∈ l, 0 ≤ x.1 ∧ S x.2) ∧ ∃ x ∈ l, 0 < x.1 ∧ T x.2

theorem weighted_dot (n : Vec) : ∀ l : List (ℝ × Vec), n.dot (weighted l) = (l.map (fun x => x.1 * n.dot x.2)).sum
  | [] => by simp [weighted, Vec.dot]
  | (a, p) :: rest => by
    rw [weighted, List.map_cons, List.sum_cons, ← weighted_dot n rest]
    simp only [Vec.dot, Vec.add, Vec.smul]
    ring

theorem weighted_value (n pos : Vec) (l : List (ℝ × Vec)) (h : (l.map (·.1)).sum = 1) :
    n.dot ((weighted l).sub pos) = (l.map (fun x => x.1 * n.dot (x.2.sub pos))).sum := by
  have e : ∀ q : Vec, n.dot (q.sub pos) = n.dot q - n.dot pos := by
    intro q
    simp only [Vec.dot, Vec.sub]
    ring
  rw [e, weighted_dot]
  have : ∀ l : List (ℝ × Vec), (l.map (fun x => x.1 * n.dot (x.2.sub pos))).sum = (l.map (fun x => x.1 * n.dot x.2)).sum - (l.map (·.1)).sum * n.dot pos := by
    intro l
    induction l with
    | nil => simp
    | cons x l ih =>
      rw [List.map_cons, List.sum_cons, List.map_cons, List.sum_cons, List.map_cons, List.sum_cons, ih, e]
      ring
  rw [this l, h]
  ring

theorem sum_nonneg_of {l : List (ℝ × Vec)} {g : Vec → ℝ} (h : ∀ x ∈ l, 0 ≤ x.1 ∧ 0 ≤ g x.2) : 0 ≤ (l.map (fun x => x.1 * g x.2)).sum := by
  induction l with
  | nil => simp
  | cons x l ih =>
    rw [List.map_cons, List.sum_cons]
    have := h x List.mem_cons_self
    have := ih (fun y hy => h y (List.mem_cons_of_mem _ hy))
    nlinarith

theorem sum_neg_of {l : List (ℝ × Vec)} {g : Vec → ℝ} (h : ∀ x ∈ l, 0 ≤ x.1 ∧ g x.2 ≤ 0) (hx : ∃ x ∈ l, 0 < x.1 ∧ g x.2 < 0) :
    (l.map (fun x => x.1 * g x.2)).sum < 0 := by
  induction l with
  | nil => obtain ⟨x, hx, _⟩ := hx; cases hx
  | cons y l ih =>
    rw [List.map_cons, List.sum_cons]
    have h1 := h y List.mem_cons_self
    have h2 : ∀ z ∈ l, 0 ≤ z.1 ∧ g z.2 ≤ 0 := fun z hz => h z (List.mem_cons_of_mem _ hz)
    obtain ⟨x, hxm, x1, x2⟩ := hx
    rcases List.mem_cons.mp hxm with rfl | hxm
    · have h3 : (l.map (fun x => x.1 * g x.2)).sum ≤ 0 := by
        have := sum_nonneg_of (l := l) (g := fun p => - g p) (fun z hz => ⟨(h2 z hz).1, by linarith [(h2 z hz).2]⟩)
        have e : ∀ m : List (ℝ × Vec), (m.map (fun x => x.1 * -g x.2)).sum = -(m.map (fun x => x.1 * g x.2)).sum := by
          intro m
          induction m with
          | nil => simp
          | cons a m ihm =>
            rw [List.map_cons, List.sum_cons, List.map_cons, List.sum_cons, ihm]
            ring
        rw [e] at this
        linarith
      have h4 : x.1 * g x.2 < 0 := mul_neg_of_pos_of_neg x1 x2
      linarith
    · have h3 := ih h2 ⟨x, hxm, x1, x2⟩
      have h4 : y.1 * g y.2 ≤ 0 := mul_nonpos_of_nonneg_of_nonpos h1.1 h1.2
      linarith

/-- the frame of a cylinder or cone, as that of a torus -/
theorem ortho_frame {e1 e2 e3 : Vec} (h : Ortho e1 e2 e3) (c : Vec) (R r : ℝ) : Frame ⟨c, e1, e2, e3, R, r⟩ :=
  ⟨h.1, h.2.1, h.2.2.1, h.2.2.2.1, h.2.2.2.2.1, h.2.2.2.2.2.1, h.2.2.2.2.2.2⟩

theorem cos_sign {m h u : ℝ} (hh1 : h < Real.pi) :
    (m - h ≤ u → u ≤ m + h → Real.cos h ≤ Real.cos (u - m)) ∧ (0 < h → m - h < u → u < m + h → Real.cos h < Real.cos (u - m)) ∧
      (0 < h → m + h < u → u < m - h + 2 * Real.pi → Real.cos (u - m) < Real.cos h) := by
  refine ⟨fun a b => cos_ge_of_abs_le (abs_le.mpr ⟨by linarith, by linarith⟩) hh1, fun _ a b => ?_, fun h0 a b => ?_⟩
  · rw [← Real.cos_abs (u - m)]
    exact Real.cos_lt_cos_of_nonneg_of_le_pi (abs_nonneg _) hh1.le (abs_lt.mpr ⟨by linarith, by linarith⟩)
  · rcases le_total (u - m) Real.pi with hle | hge
    · exact Real.cos_lt_cos_of_nonneg_of_le_pi h0.le hle (by linarith)
    · rw [← Real.cos_two_pi_sub (u - m)]
      exact Real.cos_lt_cos_of_nonneg_of_le_pi h0.le (by linarith) (by linarith)

/-- cylinder: if a plane is given, all the points of the faces (angles `u1` to `u2`, any height) are on the side chosen, and all the other points of the cylinder
strictly on the other side -/
theorem C93_cylinder (f : CylFace) (u1 v1 u2 v2 : ℝ) (com pos n : Vec) (hf : Ortho f.e1 f.e2 f.axis) (hr : 0 < f.rad) (hu : u1 < u2) (hu2 : u2 < u1 + 2 * Real.pi)
    (hcom : Average (fun p => ∃ u v, u1 ≤ u ∧ u ≤ u2 ∧ p = f.valueAt u v) (fun p => ∃ u v, u1 < u ∧ u < u2 ∧ p = f.valueAt u v) com)
    (hp : genPlaneCyl f u1 v1 u2 v2 = some (pos, n)) :
    (∀ u v, u1 ≤ u → u ≤ u2 → 0 ≤ signPlane com pos n * n.dot ((f.valueAt u v).sub pos)) ∧
      ∀ u v, u2 < u → u < u1 + 2 * Real.pi → signPlane com pos n * n.dot ((f.valueAt u v).sub pos) < 0 := by
  obtain ⟨m, h, rfl, rfl⟩ : ∃ m h, u1 = m - h ∧ u2 = m + h := ⟨(u1 + u2) / 2, (u2 - u1) / 2, by ring, by ring⟩
  have hh0 : 0 < h := by linarith
  have hh1 : h < Real.pi := by linarith
  have hsin : 0 < Real.sin h := Real.sin_pos_of_pos_of_lt_pi hh0 hh1
  let t : Torus := ⟨f.c, f.e1, f.e2, f.axis, f.rad, 0⟩
  have hF : Frame t := ortho_frame hf _ _ _
  have hval : ∀ u v, f.valueAt u v = f.c.add (comb t (f.rad * Real.cos u) (f.rad * Real.sin u) v) := fun u v => rfl
  have hsub : ∀ u v u' v', (f.valueAt u v).sub (f.valueAt u' v') =
      comb t (f.rad * Real.cos u - f.rad * Real.cos u') (f.rad * Real.sin u - f.rad * Real.sin u') (v - v') := by
    intro u v u' v'
    rw [hval, hval, ← comb_sub]
    simp only [Vec.sub, Vec.add, Vec.mk.injEq]
    refine ⟨?_, ?_, ?_⟩ <;> ring
  unfold genPlaneCyl at hp
  split at hp
  · cases hp
  · split at hp
    · cases hp
    · simp only [Option.some.injEq, Prod.mk.injEq] at hp
      obtain ⟨rfl, rfl⟩ := hp
      have hneg : ∀ a b : Vec, a.cross b = Vec.smul (-1) (b.cross a) := by
        intro a b
        simp only [Vec.cross, Vec.smul, Vec.mk.injEq]
        refine ⟨?_, ?_, ?_⟩ <;> ring
      have hax : f.axis = Vec.smul 1 t.e3 := by
        simp [t, Vec.smul]
      have hn : ((f.valueAt (m + h) v2).sub (f.valueAt (m - h) v1)).cross f.axis =
          comb t (2 * f.rad * Real.sin h * Real.cos m) (2 * f.rad * Real.sin h * Real.sin m) 0 := by
        rw [hsub, hneg, hax, axis_cross hF, smul_comb, Real.cos_add, Real.cos_sub, Real.sin_add, Real.sin_sub]
        congr 1 <;> ring
      have hdot : ∀ u v, (((f.valueAt (m + h) v2).sub (f.valueAt (m - h) v1)).cross f.axis).dot ((f.valueAt u v).sub (f.valueAt (m - h) v1)) =
          2 * f.rad ^ 2 * Real.sin h * (Real.cos (u - m) - Real.cos h) := by
        intro u v
        rw [hn, hsub, comb_dot hF, Real.cos_sub m, Real.sin_sub m, Real.cos_sub u]
        linear_combination (-(2 * f.rad ^ 2 * Real.sin h * Real.cos h)) * Real.sin_sq_add_cos_sq m
      have hk : 0 < 2 * f.rad ^ 2 * Real.sin h := by positivity
      have hsign : signPlane com (f.valueAt (m - h) v1) (((f.valueAt (m + h) v2).sub (f.valueAt (m - h) v1)).cross f.axis) = 1 := by
        unfold signPlane
        rw [if_pos]
        obtain ⟨l, rfl, h1, h2, _⟩ := hcom
        rw [weighted_value _ _ _ h1]
        refine sum_nonneg_of (g := fun p => (((f.valueAt (m + h) v2).sub (f.valueAt (m - h) v1)).cross f.axis).dot (p.sub (f.valueAt (m - h) v1)))
          (fun x hx => ⟨(h2 x hx).1, ?_⟩)
        obtain ⟨u, v, a1, a2, he⟩ := (h2 x hx).2
        rw [he, hdot]
        have := (cos_sign (u := u) hh1).1 a1 a2
        exact mul_nonneg hk.le (by linarith)
      rw [hsign]
      constructor
      · intro u v a1 a2
        rw [hdot, one_mul]
        have := (cos_sign (u := u) hh1).1 a1 a2
        exact mul_nonneg hk.le (by linarith)
      · intro u v a1 a2
        rw [hdot, one_mul]
        have := (cos_sign (u := u) hh1).2.2 hh0 a1 a2
        exact mul_neg_of_pos_of_neg hk (by linarith)

/-- cone: likewise, for the sheet of the face (`0 < w`) -/
theorem C93_cone (f : ConeFace) (u1 w1 u2 w2 : ℝ) (com pos n : Vec) (hf : Ortho f.e1 f.e2 f.axis) (ha : 0 < f.semi) (ha2 : f.semi < Real.pi / 2) (hw1 : 0 < w1)
    (hw2 : 0 < w2) (hu : u1 < u2) (hu2 : u2 < u1 + 2 * Real.pi)
    (hcom : Average (fun p => ∃ u w, u1 ≤ u ∧ u ≤ u2 ∧ 0 < w ∧ p = f.valueAt u w) (fun p => ∃ u w, u1 < u ∧ u < u2 ∧ 0 < w ∧ p = f.valueAt u w) com)
    (hp : genPlaneCone f u1 w1 u2 w2 = some (pos, n)) :
    (∀ u w, 0 < w → u1 ≤ u → u ≤ u2 → 0 ≤ signPlane com pos n * n.dot ((f.valueAt u w).sub pos)) ∧
      ∀ u w, 0 < w → u2 < u → u < u1 + 2 * Real.pi → signPlane com pos n * n.dot ((f.valueAt u w).sub pos) < 0 := by
  obtain ⟨m, h, rfl, rfl⟩ : ∃ m h, u1 = m - h ∧ u2 = m + h := ⟨(u1 + u2) / 2, (u2 - u1) / 2, by ring, by ring⟩
  have hh0 : 0 < h := by linarith
  have hh1 : h < Real.pi := by linarith
  have hsin : 0 < Real.sin h := Real.sin_pos_of_pos_of_lt_pi hh0 hh1
  have hsa : 0 < Real.sin f.semi := Real.sin_pos_of_pos_of_lt_pi ha (by linarith [Real.pi_pos])
  have hca : 0 < Real.cos f.semi := Real.cos_pos_of_mem_Ioo ⟨by linarith, ha2⟩
  generalize hS : Real.sin f.semi = S at hsa
  generalize hC : Real.cos f.semi = C at hca
  let t : Torus := ⟨f.apex, f.e1, f.e2, f.axis, 0, 0⟩
  have hF : Frame t := ortho_frame hf _ _ _
  have hval : ∀ u w, f.valueAt u w = f.apex.add (comb t (w * S * Real.cos u) (w * S * Real.sin u) (w * C)) := by
    intro u w
    rw [← hS, ← hC]
    rfl
  have hsub : ∀ u w u' w', (f.valueAt u w).sub (f.valueAt u' w') =
      comb t (w * S * Real.cos u - w' * S * Real.cos u') (w * S * Real.sin u - w' * S * Real.sin u') (w * C - w' * C) := by
    intro u v u' v'
    rw [hval, hval, ← comb_sub]
    simp only [Vec.sub, Vec.add, Vec.mk.injEq]
    refine ⟨?_, ?_, ?_⟩ <;> ring
  have hsubA : ∀ u w, f.apex.sub (f.valueAt u w) = comb t (-(w * S * Real.cos u)) (-(w * S * Real.sin u)) (-(w * C)) := by
    intro u w
    have : comb t (-(w * S * Real.cos u)) (-(w * S * Real.sin u)) (-(w * C)) = Vec.smul (-1) (comb t (w * S * Real.cos u) (w * S * Real.sin u) (w * C)) := by
      rw [smul_comb]; congr 1 <;> ring
    rw [hval, this]
    simp only [Vec.sub, Vec.add, Vec.smul, Vec.mk.injEq]
    refine ⟨?_, ?_, ?_⟩ <;> ring
  have hcross : ∀ a b g a' b' g' : ℝ, (comb t a b g).cross (comb t a' b' g') = comb t (b * g' - g * b') (g * a' - a * g') (a * b' - b * a') := by
    intro a b g a' b' g'
    have e1 := axis_cross hF 1 1 0 0
    have e2 := axis_cross hF 1 0 1 0
    obtain ⟨_, _, _, _, _, _, hand⟩ := hF
    have x1 := congrArg Vec.x e1
    have y1 := congrArg Vec.y e1
    have z1 := congrArg Vec.z e1
    have x2 := congrArg Vec.x e2
    have y2 := congrArg Vec.y e2
    have z2 := congrArg Vec.z e2
    have x3 := congrArg Vec.x hand
    have y3 := congrArg Vec.y hand
    have z3 := congrArg Vec.z hand
    simp only [comb, Vec.cross, Vec.add, Vec.smul, Vec.mk.injEq] at *
    refine ⟨?_, ?_, ?_⟩
    · linear_combination (a * b' - b * a') * x3 + (g * a' - a * g') * x1 + (g * b' - b * g') * x2
    · linear_combination (a * b' - b * a') * y3 + (g * a' - a * g') * y1 + (g * b' - b * g') * y2
    · linear_combination (a * b' - b * a') * z3 + (g * a' - a * g') * z1 + (g * b' - b * g') * z2
  unfold genPlaneCone at hp
  split at hp
  · cases hp
  · simp only [Option.some.injEq, Prod.mk.injEq] at hp
    obtain ⟨rfl, rfl⟩ := hp
    have hdot : ∀ u w, (((f.valueAt (m + h) w2).sub (f.valueAt (m - h) w1)).cross (f.apex.sub (f.valueAt (m - h) w1))).dot
        ((f.valueAt u w).sub (f.valueAt (m - h) w1)) = -(2 * (w * w1 * w2) * S ^ 2 * C * Real.sin h * (Real.cos (u - m) - Real.cos h)) := by
      intro u w
      rw [hsub, hsubA, hsub, hcross, comb_dot hF, Real.cos_add, Real.sin_add, Real.cos_sub m, Real.sin_sub m, Real.cos_sub u]
      linear_combination (2 * (w * w1 * w2) * S ^ 2 * C * Real.sin h * Real.cos h) * Real.sin_sq_add_cos_sq m
    have hk : ∀ w, 0 < w → 0 < 2 * (w * w1 * w2) * S ^ 2 * C * Real.sin h := fun w hw => by positivity
    have hsign : signPlane com (f.valueAt (m - h) w1) (((f.valueAt (m + h) w2).sub (f.valueAt (m - h) w1)).cross (f.apex.sub (f.valueAt (m - h) w1))) = -1 := by
      unfold signPlane
      rw [if_neg]
      rw [ge_iff_le, not_le]
      obtain ⟨l, rfl, h1, h2, x, hx, x1, x2⟩ := hcom
      rw [weighted_value _ _ _ h1]
      refine sum_neg_of (g := fun p => (((f.valueAt (m + h) w2).sub (f.valueAt (m - h) w1)).cross (f.apex.sub (f.valueAt (m - h) w1))).dot
        (p.sub (f.valueAt (m - h) w1))) (fun x hx => ⟨(h2 x hx).1, ?_⟩) ⟨x, hx, x1, ?_⟩
      · obtain ⟨u, w, a1, a2, hw, he⟩ := (h2 x hx).2
        rw [he, hdot]
        have := (cos_sign (u := u) hh1).1 a1 a2
        have := mul_nonneg (hk w hw).le (by linarith : 0 ≤ Real.cos (u - m) - Real.cos h)
        linarith
      · obtain ⟨u, w, a1, a2, hw, he⟩ := x2
        rw [he, hdot]
        have := (cos_sign (u := u) hh1).2.1 hh0 a1 a2
        have := mul_pos (hk w hw) (by linarith : 0 < Real.cos (u - m) - Real.cos h)
        linarith
    rw [hsign]
    constructor
    · intro u w hw a1 a2
      rw [hdot]
      have := (cos_sign (u := u) hh1).1 a1 a2
      have := mul_nonneg (hk w hw).le (by linarith : 0 ≤ Real.cos (u - m) - Real.cos h)
      linarith
    · intro u w hw a1 a2
      rw [hdot]
      have := (cos_sign (u := u) hh1).2.2 hh0 a1 a2
      have := mul_neg_of_pos_of_neg (hk w hw) (by linarith : Real.cos (u - m) - Real.cos h < 0)
      linarith

/-- non-vacuity: the cylinder of radius 2 around the z axis, a face of half a turn: a plane is given and the hypotheses hold -/
example : ∃ (f : CylFace) (com pos n : Vec), Ortho f.e1 f.e2 f.axis ∧ 0 < f.rad ∧
    Average (fun p => ∃ u v, 0 ≤ u ∧ u ≤ Real.pi ∧ p = f.valueAt u v) (fun p => ∃ u v, 0 < u ∧ u < Real.pi ∧ p = f.valueAt u v) com ∧
      genPlaneCyl f 0 0 Real.pi 1 = some (pos, n) := by
  have hpi := Real.pi_pos
  let f : CylFace := ⟨⟨0, 0, 0⟩, ⟨1, 0, 0⟩, ⟨0, 1, 0⟩, ⟨0, 0, 1⟩, 2⟩
  have e1 : ((f.valueAt 0 0).sub (f.valueAt Real.pi 1)).sq = 17 := by
    simp [f, CylFace.valueAt, Vec.sub, Vec.add, Vec.smul, Vec.sq, Vec.dot]; norm_num
  have e2 : (((f.valueAt Real.pi 1).sub (f.valueAt 0 0)).cross f.axis).sq = 16 := by
    simp [f, CylFace.valueAt, Vec.sub, Vec.add, Vec.smul, Vec.sq, Vec.dot, Vec.cross]; norm_num
  refine ⟨f, f.valueAt (Real.pi / 2) 0, f.valueAt 0 0, ((f.valueAt Real.pi 1).sub (f.valueAt 0 0)).cross f.axis, ⟨?_, ?_, ?_, ?_, ?_, ?_, ?_⟩, by norm_num [f], ?_, ?_⟩
  iterate 7 (simp [f, Vec.dot, Vec.cross])
  · exact ⟨[(1, f.valueAt (Real.pi / 2) 0)], by simp [weighted, Vec.add, Vec.smul, f], by simp,
      fun x hx => by rw [List.mem_singleton] at hx; subst hx; exact ⟨by norm_num, Real.pi / 2, 0, by linarith, by linarith, rfl⟩,
      _, List.mem_singleton.mpr rfl, by norm_num, Real.pi / 2, 0, by linarith, by linarith, rfl⟩
  · unfold genPlaneCyl
    rw [if_neg, if_neg]
    · unfold length
      have e2' := e2
      rw [e2']
      rw [show (16 : ℝ) = 4 ^ 2 by norm_num, Real.sqrt_sq (by norm_num)]
      norm_num
    · unfold length
      have e1' := e1
      rw [e1']
      rw [not_le]
      exact Real.lt_sqrt_of_sq_lt (by norm_num)

/-- non-vacuity: a cone of 45° around the z axis, a face of half a turn -/
example : ∃ (f : ConeFace) (com pos n : Vec), Ortho f.e1 f.e2 f.axis ∧ 0 < f.semi ∧ f.semi < Real.pi / 2 ∧
    Average (fun p => ∃ u w, 0 ≤ u ∧ u ≤ Real.pi ∧ 0 < w ∧ p = f.valueAt u w) (fun p => ∃ u w, 0 < u ∧ u < Real.pi ∧ 0 < w ∧ p = f.valueAt u w) com ∧
      genPlaneCone f 0 1 Real.pi 2 = some (pos, n) := by
  have hpi := Real.pi_pos
  let f : ConeFace := ⟨⟨0, 0, 0⟩, ⟨1, 0, 0⟩, ⟨0, 1, 0⟩, ⟨0, 0, 1⟩, Real.pi / 4⟩
  have hq : Real.sqrt 2 ^ 2 = 2 := Real.sq_sqrt (by norm_num)
  have e1 : ((f.valueAt 0 1).sub (f.valueAt Real.pi 2)).sq = 5 := by
    simp [f, ConeFace.valueAt, Vec.sub, Vec.add, Vec.smul, Vec.sq, Vec.dot]
    nlinarith
  refine ⟨f, f.valueAt (Real.pi / 2) 1, f.valueAt 0 1, ((f.valueAt Real.pi 2).sub (f.valueAt 0 1)).cross (f.apex.sub (f.valueAt 0 1)), ⟨?_, ?_, ?_, ?_, ?_, ?_, ?_⟩, by positivity, by simp only [f]; linarith, ?_, ?_⟩
  iterate 7 (simp [f, Vec.dot, Vec.cross])
  · exact ⟨[(1, f.valueAt (Real.pi / 2) 1)], by simp [weighted, Vec.add, Vec.smul, f], by simp,
      fun x hx => by rw [List.mem_singleton] at hx; subst hx; exact ⟨by norm_num, Real.pi / 2, 1, by linarith, by linarith, by norm_num, rfl⟩,
      _, List.mem_singleton.mpr rfl, by norm_num, Real.pi / 2, 1, by linarith, by linarith, by norm_num, rfl⟩
  · unfold genPlaneCone
    rw [if_neg]
    unfold length
    have e1' := e1
    rw [e1', not_le]
    exact Real.lt_sqrt_of_sq_lt (by norm_num)

end Geouned.Face
