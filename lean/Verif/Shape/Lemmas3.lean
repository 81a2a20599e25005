import Verif.Shape.Lemmas2
/-!
# Lemmas for C115: tori and paraboloids
-/
namespace Geouned.Shape
open Geouned.Geom Geouned.RSurf

/-! ## Tori -/

/-- heights and distances, with a unit axis -/
theorem decomp_unit {v P q w : Vec} {t : ℝ} (hv : v.sq = 1) (hd : Decomp P v q t w) : (q.sub P).dot v = t ∧ w.sq = (q.sub P).sq - t ^ 2 := by
  obtain ⟨x, y, -, hf⟩ := ortoAxis_eq hv
  obtain ⟨e1, e2⟩ := hf.decomp hd
  refine ⟨e1, ?_⟩
  rw [e2, hf.parseval (q.sub P), e1]; ring

/-- the numbers of a torus of circular section -/
structure TorNum (X Y Z Ra R : ℝ) : Prop where
  axial : X ^ 2 < R ^ 2
  y : Y ^ 2 < (Ra + R) ^ 2
  z : Z ^ 2 < (Ra + R) ^ 2
  pos : 0 < Ra + R
  hole : 0 < (Ra - R) * 0.70710678 → (Ra - R) * 0.70710678 < Y ∨ (Ra - R) * 0.70710678 < -Y ∨ (Ra - R) * 0.70710678 < Z ∨ (Ra - R) * 0.70710678 < -Z

theorem torNum {X Y Z Ra R : ℝ} (hR : 0 < R) (h : X ^ 2 / R ^ 2 + (Real.sqrt (Y ^ 2 + Z ^ 2) - Ra) ^ 2 / R ^ 2 < 1) : TorNum X Y Z Ra R := by
  have hR2 : 0 < R ^ 2 := by positivity
  rw [← add_div, div_lt_one hR2] at h
  set s := Real.sqrt (Y ^ 2 + Z ^ 2) with hs
  have hs0 : 0 ≤ s := Real.sqrt_nonneg _
  have hss : s ^ 2 = Y ^ 2 + Z ^ 2 := Real.sq_sqrt (by positivity)
  have h1 : (s - Ra) ^ 2 < R ^ 2 := by nlinarith [sq_nonneg X]
  have h2 := abs_lt.1 (abs_lt_of_sq_lt_sq h1 hR.le)
  have h3 : s ^ 2 < (Ra + R) ^ 2 := by
    have : s < Ra + R := by linarith
    nlinarith
  refine ⟨by nlinarith [sq_nonneg (s - Ra)], by nlinarith [sq_nonneg Z], by nlinarith [sq_nonneg Y], by linarith, fun h0 => ?_⟩
  by_contra hc
  push Not at hc
  obtain ⟨c1, c2, c3, c4⟩ := hc
  have hd : 0 < Ra - R := by
    by_contra hcon
    nlinarith
  have hY : Y ^ 2 ≤ ((Ra - R) * 0.70710678) ^ 2 := by nlinarith
  have hZ : Z ^ 2 ≤ ((Ra - R) * 0.70710678) ^ 2 := by nlinarith
  have h4 : (Ra - R) ^ 2 < s ^ 2 := by nlinarith
  nlinarith [sq_nonneg (Ra - R)]

theorem hole_ne {P u w : Vec} {d : ℝ} (hu : u.sq = 1) (hw : w.sq = 1) : ∀ e ∈ holePlanes P u w d, e.2.sq ≠ 0 := by
  intro e he
  simp only [holePlanes, List.mem_cons, List.not_mem_nil, or_false] at he
  rcases he with rfl | rfl | rfl | rfl <;> simp only [opp_sq, hu, hw] <;> exact one_ne_zero

theorem hole_on {P u w q : Vec} {d : ℝ} (hu : u.sq = 1) (hw : w.sq = 1)
    (h : d < (q.sub P).dot u ∨ d < -(q.sub P).dot u ∨ d < (q.sub P).dot w ∨ d < -(q.sub P).dot w) : ∃ e ∈ holePlanes P u w d, 0 < e.2.dot (q.sub e.1) := by
  have k : ∀ x : Vec, x.sq = 1 → x.dot (q.sub (P.add (Vec.smul d x))) = (q.sub P).dot x - d ∧ (opp x).dot (q.sub (P.sub (Vec.smul d x))) = -(q.sub P).dot x - d := by
    intro x hx
    have e : x.dot x = 1 := hx
    rw [sub_add, sub_sub, opp_dot, dot_sub, dot_add, dot_smul, e, dot_comm x]
    constructor <;> ring
  rcases h with h | h | h | h
  · exact ⟨_, .head _, by rw [(k u hu).1]; linarith⟩
  · exact ⟨_, .tail _ (.head _), by rw [(k u hu).2]; linarith⟩
  · exact ⟨_, .tail _ (.tail _ (.head _)), by rw [(k w hw).1]; linarith⟩
  · exact ⟨_, .tail _ (.tail _ (.tail _ (.head _))), by rw [(k w hw).2]; linarith⟩

theorem map_some {l : List (Vec × Vec)} (hne : ∀ e ∈ l, e.2.sq ≠ 0) {q : Vec} (h : ∃ e ∈ l, 0 < e.2.dot (q.sub e.1)) : ∃ p ∈ l.map unitPl, p.On q := by
  obtain ⟨e, he, h⟩ := h
  exact ⟨_, List.mem_map_of_mem he, (unitPl_on (hne e he) q).2 h⟩

/-- the hole, if there is one -/
theorem holes {P u w : Vec} {d : ℝ} (hu : u.sq = 1) (hw : w.sq = 1) : ∃ i, partPlanes (open Classical in if 0 < d then holePlanes P u w d else []) = some i ∧
    ∀ q : Vec, (0 < d → d < (q.sub P).dot u ∨ d < -(q.sub P).dot u ∨ d < (q.sub P).dot w ∨ d < -(q.sub P).dot w) → i ≠ [] → ∃ p ∈ i, p.On q := by
  by_cases h : 0 < d
  · rw [if_pos h]
    exact ⟨_, partPlanes_eq (hole_ne hu hw), fun q hq _ => map_some (hole_ne hu hw) (hole_on hu hw (hq h))⟩
  · rw [if_neg h]
    exact ⟨[], rfl, fun _ _ hne => absurd rfl hne⟩

theorem tor_x {v : Vec} (h : v = ⟨1, 0, 0⟩ ∨ v = ⟨-1, 0, 0⟩) : v.sq = 1 ∧ (∀ r : Vec, r.dot v ^ 2 = r.x ^ 2) ∧ |(|v.dot vX| - 1)| < 1 / 10 ^ 5 := by
  rcases h with rfl | rfl <;> refine ⟨by norm_num [Vec.sq, Vec.dot], fun r => by simp [Vec.dot], ?_⟩ <;> norm_num [Vec.dot, vX]
theorem tor_y {v : Vec} (h : v = ⟨0, 1, 0⟩ ∨ v = ⟨0, -1, 0⟩) : v.sq = 1 ∧ (∀ r : Vec, r.dot v ^ 2 = r.y ^ 2) ∧ |(|v.dot vY| - 1)| < 1 / 10 ^ 5 ∧
    ¬ |(|v.dot vX| - 1)| < 1 / 10 ^ 5 := by
  rcases h with rfl | rfl <;> refine ⟨by norm_num [Vec.sq, Vec.dot], fun r => by simp [Vec.dot], ?_, ?_⟩ <;> norm_num [Vec.dot, vX, vY]
theorem tor_z {v : Vec} (h : v = ⟨0, 0, 1⟩ ∨ v = ⟨0, 0, -1⟩) : v.sq = 1 ∧ (∀ r : Vec, r.dot v ^ 2 = r.z ^ 2) ∧ |(|v.dot vZ| - 1)| < 1 / 10 ^ 5 ∧
    ¬ |(|v.dot vX| - 1)| < 1 / 10 ^ 5 ∧ ¬ |(|v.dot vY| - 1)| < 1 / 10 ^ 5 := by
  rcases h with rfl | rfl <;> refine ⟨by norm_num [Vec.sq, Vec.dot], fun r => by simp [Vec.dot], ?_, ?_, ?_⟩ <;> norm_num [Vec.dot, vX, vY, vZ]

/-- the planes of a torus exist for an axis along a coordinate axis -/
theorem torus_planes {P v : Vec} (Ra Rb Rc : ℝ) (pos : Option Bool)
    (hv : v = ⟨1, 0, 0⟩ ∨ v = ⟨-1, 0, 0⟩ ∨ v = ⟨0, 1, 0⟩ ∨ v = ⟨0, -1, 0⟩ ∨ v = ⟨0, 0, 1⟩ ∨ v = ⟨0, 0, -1⟩) :
    ∃ e i, torusToPlanes P v Ra Rb Rc pos = some (e, i) ∧ e ≠ [] := by
  have hc : (v = ⟨1, 0, 0⟩ ∨ v = ⟨-1, 0, 0⟩) ∨ (v = ⟨0, 1, 0⟩ ∨ v = ⟨0, -1, 0⟩) ∨ (v = ⟨0, 0, 1⟩ ∨ v = ⟨0, 0, -1⟩) := by tauto
  rcases hc with h | h | h
  · obtain ⟨-, -, h1⟩ := tor_x h
    obtain ⟨i, hi, -⟩ := holes (P := P) (d := (torusDists Ra Rb pos).2) vY_sq vZ_sq
    refine ⟨(sixPlanes P Rc (torusDists Ra Rb pos).1 (torusDists Ra Rb pos).1).map unitPl, i, ?_, by simp [sixPlanes]⟩
    rw [torusToPlanes, if_pos h1, hi, partPlanes_eq (six_ne _ _ _ _)]; rfl
  · obtain ⟨-, -, h1, h2⟩ := tor_y h
    obtain ⟨i, hi, -⟩ := holes (P := P) (d := (torusDists Ra Rb pos).2) vX_sq vZ_sq
    refine ⟨(sixPlanes P (torusDists Ra Rb pos).1 Rc (torusDists Ra Rb pos).1).map unitPl, i, ?_, by simp [sixPlanes]⟩
    rw [torusToPlanes, if_neg h2, if_pos h1, hi, partPlanes_eq (six_ne _ _ _ _)]; rfl
  · obtain ⟨-, -, h1, h2, h3⟩ := tor_z h
    obtain ⟨i, hi, -⟩ := holes (P := P) (d := (torusDists Ra Rb pos).2) vX_sq vY_sq
    refine ⟨(sixPlanes P (torusDists Ra Rb pos).1 (torusDists Ra Rb pos).1 Rc).map unitPl, i, ?_, by simp [sixPlanes]⟩
    rw [torusToPlanes, if_neg h2, if_neg h3, if_pos h1, hi, partPlanes_eq (six_ne _ _ _ _)]; rfl

theorem torus_around {P v q : Vec} {Ra R : ℝ} (hR : 0 < R)
    (hv : v = ⟨1, 0, 0⟩ ∨ v = ⟨-1, 0, 0⟩ ∨ v = ⟨0, 1, 0⟩ ∨ v = ⟨0, -1, 0⟩ ∨ v = ⟨0, 0, 1⟩ ∨ v = ⟨0, 0, -1⟩) (h : (ellTorRegion P v Ra R R).neg q) :
    ∃ e i, torusToPlanes P v Ra R R (some false) = some (e, i) ∧ (∀ p ∈ e, p.On q) ∧ (i ≠ [] → ∃ p ∈ i, p.On q) := by
  obtain ⟨t, w, hd, h⟩ := h
  have hc : (v = ⟨1, 0, 0⟩ ∨ v = ⟨-1, 0, 0⟩) ∨ (v = ⟨0, 1, 0⟩ ∨ v = ⟨0, -1, 0⟩) ∨ (v = ⟨0, 0, 1⟩ ∨ v = ⟨0, 0, -1⟩) := by tauto
  rcases hc with hv | hv | hv
  · obtain ⟨h0, hr, h1⟩ := tor_x hv
    obtain ⟨e1, e2⟩ := decomp_unit h0 hd
    have k := hr (q.sub P)
    rw [e1] at k
    rw [k, sq_eq (q.sub P)] at e2
    rw [show (q.sub P).x ^ 2 + (q.sub P).y ^ 2 + (q.sub P).z ^ 2 - (q.sub P).x ^ 2 = (q.sub P).y ^ 2 + (q.sub P).z ^ 2 by ring] at e2
    rw [e2, h0, mul_one, k] at h
    have T := torNum hR h
    obtain ⟨i, hi, hq⟩ := holes (P := P) (d := (torusDists Ra R (some false)).2) vY_sq vZ_sq
    refine ⟨_, i, ?_, map_on (six_ne P R (Ra + R) (Ra + R)) (six_on T.axial T.y T.z hR T.pos T.pos), hq q (by rw [dot_vY, dot_vZ]; exact T.hole)⟩
    rw [torusToPlanes, if_pos h1]; rw [hi, partPlanes_eq (six_ne _ _ _ _)]; rfl
  · obtain ⟨h0, hr, h1, h2⟩ := tor_y hv
    obtain ⟨e1, e2⟩ := decomp_unit h0 hd
    have k := hr (q.sub P)
    rw [e1] at k
    rw [k, sq_eq (q.sub P)] at e2
    rw [show (q.sub P).x ^ 2 + (q.sub P).y ^ 2 + (q.sub P).z ^ 2 - (q.sub P).y ^ 2 = (q.sub P).x ^ 2 + (q.sub P).z ^ 2 by ring] at e2
    rw [e2, h0, mul_one, k] at h
    have T := torNum hR h
    obtain ⟨i, hi, hq⟩ := holes (P := P) (d := (torusDists Ra R (some false)).2) vX_sq vZ_sq
    refine ⟨_, i, ?_, map_on (six_ne P (Ra + R) R (Ra + R)) (six_on T.y T.axial T.z T.pos hR T.pos), hq q (by rw [dot_vX, dot_vZ]; exact T.hole)⟩
    rw [torusToPlanes, if_neg h2, if_pos h1]; rw [hi, partPlanes_eq (six_ne _ _ _ _)]; rfl
  · obtain ⟨h0, hr, h1, h2, h3⟩ := tor_z hv
    obtain ⟨e1, e2⟩ := decomp_unit h0 hd
    have k := hr (q.sub P)
    rw [e1] at k
    rw [k, sq_eq (q.sub P)] at e2
    rw [show (q.sub P).x ^ 2 + (q.sub P).y ^ 2 + (q.sub P).z ^ 2 - (q.sub P).z ^ 2 = (q.sub P).x ^ 2 + (q.sub P).y ^ 2 by ring] at e2
    rw [e2, h0, mul_one, k] at h
    have T := torNum hR h
    obtain ⟨i, hi, hq⟩ := holes (P := P) (d := (torusDists Ra R (some false)).2) vX_sq vY_sq
    refine ⟨_, i, ?_, map_on (six_ne P (Ra + R) (Ra + R) R) (six_on T.y T.z T.axial T.pos T.pos hR), hq q (by rw [dot_vX, dot_vY]; exact T.hole)⟩
    rw [torusToPlanes, if_neg h2, if_neg h3, if_pos h1]; rw [hi, partPlanes_eq (six_ne _ _ _ _)]; rfl

/-! ## Paraboloids -/

theorem cross_id (x a : Vec) : (x.cross a).cross x = (Vec.smul x.sq a).sub (Vec.smul (x.dot a) x) ∧
    (x.cross a).cross a = (Vec.smul (x.dot a) a).sub (Vec.smul a.sq x) := by
  constructor <;> ext <;> simp only [Vec.cross, Vec.sub, Vec.smul, Vec.sq, Vec.dot] <;> ring

theorem Frame.yx {x y a : Vec} (h : Frame x y a) : y.cross x = a ∧ y.cross a = opp x := by
  rw [h.hand, (cross_id x a).1, (cross_id x a).2, h.xx, h.xa, h.aa]
  constructor <;> ext <;> simp [Vec.sub, Vec.smul, opp]

/-- the normal of a plane of the paraboloid -/
theorem para_normal {x y a : Vec} (h : Frame x y a) (f xp phi : ℝ) :
    ((Vec.smul (Real.cos phi) y).sub (Vec.smul (Real.sin phi) x)).cross ((Vec.smul (2 * f) (rhoAt x y phi)).add (Vec.smul xp a)) =
      (Vec.smul (2 * f) a).sub (Vec.smul xp (rhoAt x y phi)) := by
  have e : ∀ c s : ℝ, ((Vec.smul c y).sub (Vec.smul s x)).cross ((Vec.smul (2 * f) ((Vec.smul c x).add (Vec.smul s y))).add (Vec.smul xp a)) =
      (Vec.smul (2 * f * (c ^ 2 + s ^ 2)) (y.cross x)).add (Vec.smul xp ((Vec.smul c (y.cross a)).sub (Vec.smul s (x.cross a)))) := by
    intro c s
    ext <;> simp only [Vec.cross, Vec.sub, Vec.smul, Vec.add] <;> ring
  rw [rhoAt, e, h.yx.1, h.yx.2, ← h.hand, add_comm (Real.cos phi ^ 2), Real.sin_sq_add_cos_sq]
  ext <;> simp only [Vec.sub, Vec.smul, Vec.add, opp] <;> ring

theorem para_normal_sq {x y a : Vec} (h : Frame x y a) (f xp phi : ℝ) : ((Vec.smul (2 * f) a).sub (Vec.smul xp (rhoAt x y phi))).sq = 4 * f ^ 2 + xp ^ 2 := by
  have : ((Vec.smul (2 * f) a).sub (Vec.smul xp (rhoAt x y phi))).sq = 4 * f ^ 2 * a.sq - 4 * f * xp * (rhoAt x y phi).dot a + xp ^ 2 * (rhoAt x y phi).sq := by
    simp only [Vec.sq, Vec.dot, Vec.sub, Vec.smul]; ring
  rw [this, h.aa, rho_a h, rho_sq h]; ring

/-- the plane is positive inside of the paraboloid -/
theorem para_plane {P x y a q : Vec} {f : ℝ} (hf : Frame x y a) (h0 : 0 < f) (xp phi : ℝ)
    (h : (q.sub P).dot x ^ 2 + (q.sub P).dot y ^ 2 < 4 * f * (q.sub P).dot a) :
    0 < ((Vec.smul (2 * f) a).sub (Vec.smul xp (rhoAt x y phi))).dot (q.sub ((P.add (Vec.smul xp (rhoAt x y phi))).add (Vec.smul (0.25 * xp * xp / f) a))) := by
  have hr := rho_le x y (q.sub P) phi
  have e1 : ∀ u : Vec, u.dot (q.sub ((P.add (Vec.smul xp (rhoAt x y phi))).add (Vec.smul (0.25 * xp * xp / f) a))) =
      u.dot (q.sub P) - xp * u.dot (rhoAt x y phi) - 0.25 * xp * xp / f * u.dot a := by
    intro u
    rw [sub_add, sub_add, dot_sub u (Vec.sub _ _), dot_sub u (q.sub P), dot_smul, dot_smul]
  rw [sub_dot, smul_dot, smul_dot, e1, e1, rho_a hf, dot_comm a (rhoAt x y phi), rho_a hf, ← Vec.sq, ← Vec.sq, hf.aa, rho_sq hf, dot_comm a]
  have e : 2 * f * (0.25 * xp * xp / f) = xp ^ 2 / 2 := by field_simp; norm_num
  nlinarith [sq_nonneg ((rhoAt x y phi).dot (q.sub P) - xp)]

theorem ring_spec {P x y a : Vec} {f : ℝ} (hf : Frame x y a) (h0 : 0 < f) (xp : ℝ) : ∀ (n : Nat) (phi : ℝ),
    ∃ l, parabolaRing P a x y f xp (0.25 * xp * xp / f) n phi = some l ∧ ∀ e ∈ l, e.2.sq ≠ 0 ∧
      ∀ q : Vec, (q.sub P).dot x ^ 2 + (q.sub P).dot y ^ 2 < 4 * f * (q.sub P).dot a → 0 < e.2.dot (q.sub e.1)
  | 0, _ => ⟨[], rfl, by simp⟩
  | n + 1, phi => by
    obtain ⟨l, e, hl⟩ := ring_spec (P := P) hf h0 xp n (phi + 2 * Real.pi / 4)
    have hn : ((Vec.smul (2 * f) a).sub (Vec.smul xp (rhoAt x y phi))).sq ≠ 0 := by
      rw [para_normal_sq hf]; positivity
    refine ⟨((P.add (Vec.smul xp (rhoAt x y phi))).add (Vec.smul (0.25 * xp * xp / f) a),
      Vec.smul (1 / ((Vec.smul (2 * f) a).sub (Vec.smul xp (rhoAt x y phi))).len) ((Vec.smul (2 * f) a).sub (Vec.smul xp (rhoAt x y phi)))) :: l, ?_, ?_⟩
    · rw [parabolaRing]
      have := para_normal hf f xp phi
      unfold rhoAt at this
      simp only [this]
      rw [normalize_ne (by unfold rhoAt at hn; exact hn), Option.bind_some, e]
      rfl
    · intro e he
      rcases List.mem_cons.1 he with rfl | he
      · refine ⟨ne_of_one (normalize_sq (normalize_ne hn)), fun q hq => ?_⟩
        have := para_plane hf h0 xp phi hq
        have hl := len_pos hn
        show 0 < (Vec.smul (1 / ((Vec.smul (2 * f) a).sub (Vec.smul xp (rhoAt x y phi))).len) ((Vec.smul (2 * f) a).sub (Vec.smul xp (rhoAt x y phi)))).dot _
        rw [smul_dot]
        exact mul_pos (by positivity) this
      · exact hl e he

theorem loop_spec {P x y a : Vec} {f : ℝ} (hf : Frame x y a) (h0 : 0 < f) (b : ℝ) : ∀ (n : Nat) (xp phi : ℝ),
    ∃ l, parabolaLoop P a x y f b n xp phi = some l ∧ ∀ e ∈ l, e.2.sq ≠ 0 ∧
      ∀ q : Vec, (q.sub P).dot x ^ 2 + (q.sub P).dot y ^ 2 < 4 * f * (q.sub P).dot a → 0 < e.2.dot (q.sub e.1)
  | 0, _, _ => ⟨[], rfl, by simp⟩
  | n + 1, xp, phi => by
    obtain ⟨l, e, hl⟩ := ring_spec (P := P) hf h0 xp 4 phi
    obtain ⟨l', e', hl'⟩ := loop_spec (P := P) hf h0 b n (xp / b) (phi + 2 * Real.pi / 4 + 2 * Real.pi / 4 + 2 * Real.pi / 4 + 2 * Real.pi / 4)
    refine ⟨l ++ l', by rw [parabolaLoop, e, Option.bind_some, e']; rfl, fun e he => ?_⟩
    rcases List.mem_append.1 he with he | he
    · exact hl e he
    · exact hl' e he

theorem para_planes {P a : Vec} {f : ℝ} (ha : a.sq = 1) (h0 : 0 < f) :
    ∃ ps, parabolaToPlanes P a f = some ps ∧ ps ≠ [] ∧ ∀ q, (paraRegion P a f).neg q → ∀ p ∈ ps, p.On q := by
  obtain ⟨x, y, e, hf⟩ := ortoAxis_eq ha
  obtain ⟨l, e', hl⟩ := loop_spec (P := P) hf h0 (1 - Real.sqrt (2 * 0.22)) 8 ((1 - Real.sqrt (2 * 0.22)) ^ 7 * Real.sqrt (4 * f * 750000)) 0
  have hne : ∀ e ∈ (P, a) :: l, e.2.sq ≠ 0 := by
    intro e he
    rcases List.mem_cons.1 he with rfl | he
    · exact ne_of_one ha
    · exact (hl e he).1
  refine ⟨((P, a) :: l).map unitPl, ?_, by simp, fun q hq => map_on hne ?_⟩
  · have n1 : ¬ 4 * f * 750000 < 0 := by
      have : 0 < 4 * f * 750000 := by positivity
      exact not_lt.2 this.le
    rw [parabolaToPlanes]
    simp only [if_neg n1, if_neg h0.ne', normalize_unit ha, Option.bind_some, e, e', partPlanes_eq hne]
  · obtain ⟨t, w, hd, h⟩ := hq
    obtain ⟨e1, e2⟩ := hf.decomp hd
    rw [e2, ← e1] at h
    intro e he
    rcases List.mem_cons.1 he with rfl | he
    · show 0 < a.dot (q.sub P)
      rw [dot_comm]
      have : 0 < 4 * f * (q.sub P).dot a := lt_of_le_of_lt (by positivity) h
      exact (pos_iff_pos_of_mul_pos this).1 (by positivity)
    · exact (hl e he).2 q h

end Geouned.Shape
