import Verif.RSurf.CardLemmas
namespace Geouned.RSurf
open Geouned.Geom

/-- A card X, Y or Z with two points that the reader takes for a cylinder, or cannot handle: equal radii (up to 1e-12), a point on the axis, points at the same height. -/
def BadPoints (mn : String) (args : List ℝ) : Prop :=
  (mn = "X" ∨ mn = "Y" ∨ mn = "Z") ∧ ∃ x1 r1 x2 r2, args = [x1, r1, x2, r2] ∧ (|r1 - r2| ≤ 1 / 10 ^ 12 ∨ r1 = 0 ∨ r2 = 0 ∨ x1 = x2)

theorem good_points {off : Vec → Prop} {e : Vec} {args : List ℝ} {r : Region} {hgt rad : Vec → ℝ} (he : e.sq = 1) (hh : ∀ p, p.dot e = hgt p)
    (hr : ∀ p, rad p = Real.sqrt (p.sq - p.dot e ^ 2)) (hb : ∀ x1 r1 x2 r2, args = [x1, r1, x2, r2] → 1 / 10 ^ 12 < |r1 - r2| ∧ r1 ≠ 0 ∧ r2 ≠ 0 ∧ x1 ≠ x2)
    (h : pointCard hgt rad args = some r) :
    ∃ s bp bR, pointsMade e (Vec.smul (-1) e) args = some (.surf s bp bR) ∧ s ≠ .bad ∧ Agrees off s r := by
  unfold pointCard at h
  split at h
  · rename_i x1 r1
    simp only [Option.some.injEq] at h
    subst h
    refine ⟨_, _, _, rfl, by simp, agrees_fun (k := 10) (by norm_num) fun p => ?_⟩
    rw [← hh p]
    simp only [inout, mm, Vec.dot, Vec.smul, Option.some.injEq]; ring
  · rename_i x1 r1 x2 r2
    obtain ⟨b1, b2, b3, b4⟩ := hb _ _ _ _ rfl
    rw [if_neg b4] at h
    split at h
    · rename_i hrr
      obtain ⟨p1, p2, _⟩ := hrr
      have q1 : 0 < r1 := lt_of_le_of_ne p1 (Ne.symm b2)
      have q2 : 0 < r2 := lt_of_le_of_ne p2 (Ne.symm b3)
      simp only [Option.some.injEq] at h
      subst h
      have hx : x2 - x1 ≠ 0 := sub_ne_zero.2 (Ne.symm b4)
      have hne : r2 - r1 ≠ 0 := by
        intro hc
        rw [show r1 - r2 = -(r2 - r1) by ring, hc] at b1
        norm_num at b1
      set t := (r2 - r1) / (x2 - x1) with ht
      have ht0 : t ≠ 0 := div_ne_zero hne hx
      set x := x1 - r1 / t with hxd
      have e1 : x1 - x = r1 / t := by rw [hxd]; ring
      have e2 : x2 - x = r2 / t := by
        have : t * (x2 - x1) = r2 - r1 := by rw [ht]; field_simp
        have : x2 - x = (x2 - x1) + r1 / t := by rw [hxd]; ring
        rw [this, eq_div_iff ht0, add_mul, div_mul_cancel₀ _ ht0]
        linarith
      have hprod : 0 < (x1 - x) * (x2 - x) := by
        rw [e1, e2, div_mul_div_comm]
        have : 0 < t * t := mul_self_pos.2 ht0
        positivity
      have hsgn : (0 < x1 - x) ↔ 0 < t := by
        rw [e1]
        constructor
        · intro hc
          by_contra hn
          have : r1 / t ≤ 0 := div_nonpos_of_nonneg_of_nonpos q1.le (not_lt.1 hn)
          linarith
        · intro hc; positivity
      have hmade : pointsMade e (Vec.smul (-1) e) [x1, r1, x2, r2] =
          some (.surf (.cone (Vec.smul 10 (Vec.smul x e)) (if 0 < x1 - x then e else Vec.smul (-1) e) |t| false) true false) := by
        simp only [pointsMade, if_pos b1, div?_ne hx, div?_ne ht0, Option.bind_eq_bind, Option.bind_some, ← ht, ← hxd, if_pos hprod]
      refine ⟨_, _, _, hmade, by simp, fun p _ => ?_⟩
      have hl : lineRadius x1 r1 x2 r2 (hgt p) = t * (hgt p - x) := by
        simp only [lineRadius, ← ht]
        have : t * (x1 - x) = r1 := by rw [e1]; field_simp
        linear_combination -this
      set ρ2 := p.sq - p.dot e ^ 2 with hρ
      have hρ0 : 0 ≤ ρ2 := by
        have := dot_sq_le p e
        rw [he, mul_one] at this
        rw [hρ]; linarith
      have hrad := hr p
      have hd : ((mm p).sub (Vec.smul 10 (Vec.smul x e))).dot e = 10 * (hgt p - x) := by
        rw [← hh p]
        simp only [mm, Vec.sq, Vec.dot, Vec.sub, Vec.smul] at *
        linear_combination -10 * x * he
      have hq : ((mm p).sub (Vec.smul 10 (Vec.smul x e))).sq - (10 * (hgt p - x)) ^ 2 = 100 * ρ2 := by
        rw [hρ, hh p]
        have := hh p
        simp only [mm, Vec.sq, Vec.dot, Vec.sub, Vec.smul] at *
        linear_combination 100 * x ^ 2 * he - 200 * x * this
      have hvsq : (if 0 < x1 - x then e else Vec.smul (-1) e).sq = 1 := by
        split
        · exact he
        · rw [sq_smul]; linarith
      have hdv : ((mm p).sub (Vec.smul 10 (Vec.smul x e))).dot (if 0 < x1 - x then e else Vec.smul (-1) e) = (if 0 < x1 - x then 1 else -1) * (10 * (hgt p - x)) := by
        split
        · rw [hd]; ring
        · rw [show ∀ d : Vec, d.dot (Vec.smul (-1) e) = -d.dot e from fun d => by simp only [Vec.dot, Vec.smul]; ring, hd]; ring
      have hg : (if 0 < x1 - x then (1 : ℝ) else -1) * (10 * (hgt p - x)) * |t| = 10 * (t * (hgt p - x)) := by
        by_cases hc : 0 < x1 - x
        · rw [if_pos hc, abs_of_pos (hsgn.1 hc)]; ring
        · rw [if_neg hc, abs_of_neg (lt_of_le_of_ne (not_lt.1 (fun h' => hc (hsgn.2 h'))) ht0)]; ring
      have hdv2 : ((mm p).sub (Vec.smul 10 (Vec.smul x e))).dot (if 0 < x1 - x then e else Vec.smul (-1) e) ^ 2 = (10 * (hgt p - x)) ^ 2 := by
        rw [hdv]; split <;> ring
      have ht1 : 0 < |t| := abs_pos.2 ht0
      set g := ((mm p).sub (Vec.smul 10 (Vec.smul x e))).dot (if 0 < x1 - x then e else Vec.smul (-1) e) with hgd
      have hgt' : g * |t| = 10 * (t * (hgt p - x)) := by rw [hdv]; exact hg
      constructor
      · intro hp
        have hp' : lineRadius x1 r1 x2 r2 (hgt p) < rad p := hp
        rw [hl, hrad] at hp'
        by_cases hneg : t * (hgt p - x) < 0
        · refine cone_out hvsq ht1 (Or.inr ⟨rfl, ?_⟩)
          rw [← hgd]
          by_contra hc
          have : 0 ≤ g * |t| := mul_nonneg (not_lt.1 hc) ht1.le
          linarith
        · refine cone_out hvsq ht1 (Or.inl ?_)
          rw [← hgd, hdv2, hq, sq_abs]
          rw [Real.lt_sqrt (not_lt.1 hneg)] at hp'
          nlinarith
      · intro hp
        have hp' : rad p < lineRadius x1 r1 x2 r2 (hgt p) := hp
        rw [hl, hrad] at hp'
        have hpos : 0 < t * (hgt p - x) := lt_of_le_of_lt (Real.sqrt_nonneg _) hp'
        refine cone_in hvsq ht1 (fun _ => ?_) ?_
        · rw [← hgd]
          by_contra hc
          have : g * |t| ≤ 0 := mul_nonpos_of_nonpos_of_nonneg (not_lt.1 hc) ht1.le
          linarith
        · rw [← hgd, hdv2, hq, sq_abs]
          rw [Real.sqrt_lt' hpos] at hp'
          nlinarith
    · cases h
  · cases h

theorem made_X (l : List ℝ) : makeSurf "X" l = pointsMade vX nX l := by cases l <;> rfl
theorem made_Y (l : List ℝ) : makeSurf "Y" l = pointsMade vY nY l := by cases l <;> rfl
theorem made_Z (l : List ℝ) : makeSurf "Z" l = pointsMade vZ nZ l := by cases l <;> rfl

theorem good_pointCards {mn : String} {args : List ℝ} {r : Region} (hb : ¬ BadPoints mn args) (h : pointCards mn args = some r) : Good mn args r := by
  have hb' : (mn = "X" ∨ mn = "Y" ∨ mn = "Z") → ∀ x1 r1 x2 r2, args = [x1, r1, x2, r2] → 1 / 10 ^ 12 < |r1 - r2| ∧ r1 ≠ 0 ∧ r2 ≠ 0 ∧ x1 ≠ x2 := by
    intro hm x1 r1 x2 r2 ha
    refine ⟨?_, ?_, ?_, ?_⟩
    · by_contra hc; exact hb ⟨hm, _, _, _, _, ha, Or.inl (not_lt.1 hc)⟩
    · intro hc; exact hb ⟨hm, _, _, _, _, ha, Or.inr (Or.inl hc)⟩
    · intro hc; exact hb ⟨hm, _, _, _, _, ha, Or.inr (Or.inr (Or.inl hc))⟩
    · intro hc; exact hb ⟨hm, _, _, _, _, ha, Or.inr (Or.inr (Or.inr hc))⟩
  unfold pointCards at h
  split at h
  · unfold Good
    rw [made_X, nX_eq]
    refine good_points (by norm_num [vX, Vec.sq, Vec.dot]) (fun p => ?_) (fun p => ?_) (hb' (Or.inl rfl)) h <;> simp only [Vec.sq, Vec.dot, vX] <;> ring_nf
  · unfold Good
    rw [made_Y, nY_eq]
    refine good_points (by norm_num [vY, Vec.sq, Vec.dot]) (fun p => ?_) (fun p => ?_) (hb' (Or.inr (Or.inl rfl))) h <;> simp only [Vec.sq, Vec.dot, vY] <;> ring_nf
  · unfold Good
    rw [made_Z, nZ_eq]
    refine good_points (by norm_num [vZ, Vec.sq, Vec.dot]) (fun p => ?_) (fun p => ?_) (hb' (Or.inr (Or.inr rfl))) h <;> simp only [Vec.sq, Vec.dot, vZ] <;> ring_nf
  · cases h

/-! ### macrobodies -/

theorem sub_mm (p P : Vec) : (mm p).sub (Vec.smul 10 P) = Vec.smul 10 (p.sub P) := by ext <;> simp only [mm, Vec.sub, Vec.smul] <;> ring
theorem mm_lin {p P : Vec} {t a b : ℝ} {u v w : Vec} (h : p.sub P = ((Vec.smul t u).add (Vec.smul a v)).add (Vec.smul b w)) :
    (mm p).sub (Vec.smul 10 P) = ((Vec.smul t (Vec.smul 10 u)).add (Vec.smul a (Vec.smul 10 v))).add (Vec.smul b (Vec.smul 10 w)) := by
  rw [sub_mm, h]; ext <;> simp only [Vec.add, Vec.smul] <;> ring

theorem orth_scale {a b c : Vec} (h : Orth3 a b c) : Orth3 (Vec.smul 10 a) (Vec.smul 10 b) (Vec.smul 10 c) := by
  obtain ⟨h1, h2, h3, h4, h5, h6⟩ := h
  have d : ∀ x y : Vec, (Vec.smul 10 x).dot (Vec.smul 10 y) = 100 * x.dot y := fun x y => by simp only [Vec.dot, Vec.smul]; ring
  refine ⟨by rw [d, h1]; ring, by rw [d, h2]; ring, by rw [d, h3]; ring, ?_, ?_, ?_⟩ <;> rw [sq_smul] <;> positivity

theorem agrees_box {off : Vec → Prop} {P v1 v2 v3 : Vec} (h : Orth3 v1 v2 v3) :
    Agrees off (.box (Vec.smul 10 P) (Vec.smul 10 v1) (Vec.smul 10 v2) (Vec.smul 10 v3)) (boxRegion P v1 v2 v3) := by
  intro p _
  constructor
  · rintro ⟨a, b, c, hd, hc⟩
    exact box_out (orth_scale h) ⟨a, b, c, mm_lin hd, hc⟩
  · rintro ⟨a, b, c, hd, hc⟩
    exact box_in (orth_scale h) ⟨a, b, c, mm_lin hd, hc⟩

theorem good_box {mn : String} {args : List ℝ} {r : Region} (h : boxCards mn args = some r) : Good mn args r := by
  unfold boxCards at h
  split at h
  · split at h
    · rename_i ho
      simp only [Option.some.injEq] at h
      subst h
      exact ⟨_, _, _, rfl, by simp, agrees_box ho⟩
    · cases h
  · rename_i xmin xmax ymin ymax zmin zmax
    split at h
    · rename_i ho
      obtain ⟨hx, hy, hz⟩ := ho
      simp only [Option.some.injEq] at h
      subst h
      have gx : 0 < xmax - xmin := sub_pos.2 hx
      have gy : 0 < ymax - ymin := sub_pos.2 hy
      have gz : 0 < zmax - zmin := sub_pos.2 hz
      have ho : Orth3 ⟨xmax - xmin, 0, 0⟩ ⟨0, ymax - ymin, 0⟩ ⟨0, 0, zmax - zmin⟩ := by
        refine ⟨?_, ?_, ?_, ?_, ?_, ?_⟩ <;> simp only [Vec.dot, Vec.sq] <;> ring_nf <;> nlinarith
      have hag := agrees_box (off := offFacets "RPP" [xmin, xmax, ymin, ymax, zmin, zmax]) (P := ⟨xmin, ymin, zmin⟩) ho
      refine ⟨_, _, _, rfl, by simp, fun p hp => ?_⟩
      have hrep : p.sub ⟨xmin, ymin, zmin⟩ = ((Vec.smul ((p.x - xmin) / (xmax - xmin)) ⟨xmax - xmin, 0, 0⟩).add (Vec.smul ((p.y - ymin) / (ymax - ymin)) ⟨0, ymax - ymin, 0⟩)).add
          (Vec.smul ((p.z - zmin) / (zmax - zmin)) ⟨0, 0, zmax - zmin⟩) := by
        ext <;> simp only [Vec.sub, Vec.add, Vec.smul] <;> field_simp <;> ring
      constructor
      · intro hc
        refine (hag p hp).1 ⟨_, _, _, hrep, ?_⟩
        rcases hc with hc | hc | hc | hc | hc | hc
        · exact Or.inl (div_neg_of_neg_of_pos (by linarith) gx)
        · exact Or.inr (Or.inl ((one_lt_div gx).2 (by linarith)))
        · exact Or.inr (Or.inr (Or.inl (div_neg_of_neg_of_pos (by linarith) gy)))
        · exact Or.inr (Or.inr (Or.inr (Or.inl ((one_lt_div gy).2 (by linarith)))))
        · exact Or.inr (Or.inr (Or.inr (Or.inr (Or.inl (div_neg_of_neg_of_pos (by linarith) gz)))))
        · exact Or.inr (Or.inr (Or.inr (Or.inr (Or.inr ((one_lt_div gz).2 (by linarith))))))
      · rintro ⟨h1, h2, h3, h4, h5, h6⟩
        exact (hag p hp).2 ⟨_, _, _, hrep, div_pos (by linarith) gx, (div_lt_one gx).2 (by linarith), div_pos (by linarith) gy, (div_lt_one gy).2 (by linarith),
          div_pos (by linarith) gz, (div_lt_one gz).2 (by linarith)⟩
    · cases h
  · cases h

theorem decomp_mm {P v p w : Vec} {t : ℝ} (h : Decomp P v p t w) : Decomp (Vec.smul 10 P) (Vec.smul 10 v) (mm p) t (Vec.smul 10 w) := by
  obtain ⟨h1, h2⟩ := h
  refine ⟨?_, ?_⟩
  · rw [sub_mm, h1]; ext <;> simp only [Vec.add, Vec.smul] <;> ring
  · simp only [Vec.dot, Vec.smul] at *
    linear_combination 100 * h2

theorem trc_mm {P v p : Vec} {R1 R2 : ℝ} :
    ((trcRegion P v R1 R2).pos p → (trcRegion (Vec.smul 10 P) (Vec.smul 10 v) (R1 * 10) (R2 * 10)).pos (mm p)) ∧
    ((trcRegion P v R1 R2).neg p → (trcRegion (Vec.smul 10 P) (Vec.smul 10 v) (R1 * 10) (R2 * 10)).neg (mm p)) := by
  have e : ∀ t : ℝ, (R1 * 10 + t * (R2 * 10 - R1 * 10)) ^ 2 = 100 * (R1 + t * (R2 - R1)) ^ 2 := fun t => by ring
  have ew : ∀ w : Vec, (Vec.smul 10 w).sq = 100 * w.sq := fun w => by rw [sq_smul]; norm_num
  constructor
  · rintro ⟨t, w, hd, hc⟩
    exact ⟨t, _, decomp_mm hd, by rw [e, ew]; exact hc.imp_right (Or.imp_right fun h => by linarith)⟩
  · rintro ⟨t, w, hd, h0, h1, hc⟩
    exact ⟨t, _, decomp_mm hd, h0, h1, by rw [e, ew]; linarith⟩

theorem gram3 (a b c : Vec) : a.dot (b.cross c) ^ 2 = a.sq * (b.sq * c.sq - b.dot c ^ 2) - a.dot b * (a.dot b * c.sq - b.dot c * a.dot c) + a.dot c * (a.dot b * b.dot c - b.sq * a.dot c) := by
  simp only [Vec.dot, Vec.cross, Vec.sq]; ring

/-- coordinates of a point along the half axes `M` (unit `M/|M|`) and a unit vector `n` with `(V2 · n)² = r²` -/
theorem rec_agree {P v M V2 p n : Vec} {t a b r : ℝ} (hv : 0 < v.sq) (hM : 0 < M.sq) (hr : 0 < r) (h1 : v.dot M = 0) (h2 : V2.dot v = 0) (h3 : V2.dot M = 0)
    (hn1 : n.dot v = 0) (hn2 : n.dot M = 0) (hn : V2.dot n ^ 2 = r ^ 2)
    (hd : p.sub P = ((Vec.smul t v).add (Vec.smul a M)).add (Vec.smul b V2)) :
    (0 < t ∧ t < 1 ∧ a ^ 2 + b ^ 2 < 1 → surfaceSide (mm p) (recMade P v (Vec.smul (1 / M.len) M) M.len n r) = some false) ∧
    (a ^ 2 + b ^ 2 ≠ 1 → t < 0 ∨ 1 < t ∨ 1 < a ^ 2 + b ^ 2 → surfaceSide (mm p) (recMade P v (Vec.smul (1 / M.len) M) M.len n r) = some true) := by
  have hl := len_pos hM.ne'
  have hD := mm_lin hd
  have hl2 := len_sq M
  have eM : (((mm p).sub (Vec.smul 10 P)).dot (Vec.smul (1 / M.len) M) / (M.len * 10)) ^ 2 = a ^ 2 := by
    have : ((mm p).sub (Vec.smul 10 P)).dot (Vec.smul (1 / M.len) M) = 10 * a * M.len := by
      have e : ((mm p).sub (Vec.smul 10 P)).dot (Vec.smul (1 / M.len) M) = (1 / M.len) * (10 * (a * M.sq)) := by
        rw [hD]
        simp only [Vec.dot, Vec.add, Vec.smul, Vec.sq] at *
        linear_combination (1 / M.len) * 10 * (t * h1 + b * h3)
      rw [e, ← hl2]; field_simp
    rw [this]; field_simp
  have eN : (((mm p).sub (Vec.smul 10 P)).dot n / (r * 10)) ^ 2 = b ^ 2 := by
    have : ((mm p).sub (Vec.smul 10 P)).dot n = 10 * b * V2.dot n := by
      rw [hD]
      simp only [Vec.dot, Vec.add, Vec.smul, Vec.sq] at *
      linear_combination 10 * t * hn1 + 10 * a * hn2
    rw [this, div_pow, mul_pow, hn]; field_simp
  have et : (Vec.smul 10 v).dot ((mm p).sub (Vec.smul 10 P)) = t * (Vec.smul 10 v).sq := by
    rw [hD]
    simp only [Vec.dot, Vec.add, Vec.smul, Vec.sq] at *
    linear_combination 100 * a * h1 + 100 * b * h2
  have hv' : 0 < (Vec.smul 10 v).sq := by rw [sq_smul]; positivity
  have r10 : r * 10 ≠ 0 := by positivity
  have M10 : M.len * 10 ≠ 0 := by positivity
  unfold recMade
  split
  · have := ecyl_side (p := mm p) hv' M10 r10 eN eM et
    rw [add_comm (b ^ 2)] at this
    exact this
  · exact ecyl_side (p := mm p) hv' r10 M10 eM eN et

theorem good_can {mn : String} {args : List ℝ} {r : Region} (h : canCards mn args = some r) : Good mn args r := by
  unfold canCards at h
  split at h
  · split at h
    · rename_i ho
      obtain ⟨hv, hr⟩ := ho
      simp only [Option.some.injEq] at h
      subst h
      refine ⟨_, _, _, rfl, by simp, fun p _ => ⟨fun hp => can_out ?_ ?_ (trc_mm.1 hp), fun hp => can_in ?_ ?_ (trc_mm.2 hp)⟩⟩ <;>
        first | (rw [sq_smul]; positivity) | positivity
    · cases h
  · rename_i x y z a b c a1 b1 c1 a2 b2 c2
    split at h
    · rename_i ho
      obtain ⟨h1, h2, h3, s1, s2, s3⟩ := ho
      simp only [Option.some.injEq] at h
      subst h
      set v : Vec := ⟨a, b, c⟩
      set M : Vec := ⟨a1, b1, c1⟩
      set m : Vec := ⟨a2, b2, c2⟩
      have hm : makeSurf "REC" [x, y, z, a, b, c, a1, b1, c1, a2, b2, c2] = M.normalize.bind fun A => m.normalize.bind fun B => some (.surf (recMade ⟨x, y, z⟩ v A M.len B m.len) true false) := rfl
      rw [normalize_ne s2.ne', normalize_ne s3.ne'] at hm
      have hl := len_pos s3.ne'
      have key := fun (p : Vec) (t u w : ℝ) => rec_agree (P := ⟨x, y, z⟩) (v := v) (M := M) (V2 := m) (p := p) (n := Vec.smul (1 / m.len) m) (t := t) (a := u) (b := w) s1 s2 hl h1
        (by rw [← h3]) (by rw [dot_comm, h2])
        (by rw [dot_smul_left, h3, mul_zero]) (by rw [dot_smul_left, dot_comm, h2, mul_zero])
        (by rw [dot_comm, dot_smul_left, show m.dot m = m.sq from rfl, ← len_sq m]; field_simp)
      refine ⟨_, _, _, hm, by unfold recMade; split <;> simp, fun p hoff => ⟨?_, ?_⟩⟩
      · rintro ⟨t, u, w, hd, hc⟩
        exact (key p t u w hd).2 (hoff t u w hd) hc
      · rintro ⟨t, u, w, hd, hc⟩
        exact (key p t u w hd).1 hc
    · cases h
  · rename_i x y z a b c a1 b1 c1 r
    split at h
    · rename_i ho
      obtain ⟨h1, s1, s2, hr⟩ := ho
      simp only [Option.some.injEq] at h
      subst h
      set v : Vec := ⟨a, b, c⟩
      set M : Vec := ⟨a1, b1, c1⟩
      have hlv := len_pos s1.ne'
      have hlM := len_pos s2.ne'
      have hm : makeSurf "REC" [x, y, z, a, b, c, a1, b1, c1, r] = M.normalize.bind fun A => (div? 1 v.len).bind fun l =>
        some (.surf (recMade ⟨x, y, z⟩ v A M.len (Vec.smul l (v.cross A)) r) true false) := rfl
      rw [normalize_ne s2.ne', div?_ne hlv.ne'] at hm
      set n := Vec.smul (1 / v.len) (v.cross (Vec.smul (1 / M.len) M)) with hn
      have hn1 : n.dot v = 0 := by rw [hn]; simp only [Vec.dot, Vec.smul, Vec.cross]; ring
      have hn2 : n.dot M = 0 := by rw [hn]; simp only [Vec.dot, Vec.smul, Vec.cross]; ring
      have hnV : ∀ V2 : Vec, V2.dot v = 0 → V2.dot M = 0 → V2.sq = r ^ 2 → V2.dot n ^ 2 = r ^ 2 := by
        intro V2 e1 e2 e3
        have : V2.dot n = 1 / v.len * (1 / M.len) * V2.dot (v.cross M) := by rw [hn]; simp only [Vec.dot, Vec.smul, Vec.cross]; ring
        rw [this, mul_pow, gram3, e1, e2, h1, e3, ← len_sq v, ← len_sq M]
        field_simp
        ring
      have key := fun (V2 p : Vec) (t u w : ℝ) (e1 : V2.dot v = 0) (e2 : V2.dot M = 0) (e3 : V2.sq = r ^ 2) =>
        rec_agree (P := ⟨x, y, z⟩) (v := v) (M := M) (V2 := V2) (p := p) (n := n) (t := t) (a := u) (b := w) s1 s2 hr h1 e1 e2 hn1 hn2 (hnV V2 e1 e2 e3)
      refine ⟨_, _, _, hm, by unfold recMade; split <;> simp, fun p hoff => ⟨?_, ?_⟩⟩
      · rintro ⟨V2, e1, e2, e3, t, u, w, hd, hc⟩
        exact (key V2 p t u w e1 e2 e3 hd).2 (hoff V2 e1 e2 e3 t u w hd) hc
      · rintro ⟨V2, e1, e2, e3, t, u, w, hd, hc⟩
        exact (key V2 p t u w e1 e2 e3 hd).1 hc
    · cases h
  · rename_i x y z a b c r1 r2
    split at h
    · rename_i ho
      obtain ⟨hv, h2, h21⟩ := ho
      simp only [Option.some.injEq] at h
      subst h
      have hv' : 0 < (Vec.smul 10 (⟨a, b, c⟩ : Vec)).sq := by rw [sq_smul]; positivity
      have hs : r1 - r2 ≠ 0 := (sub_pos.2 h21).ne'
      refine ⟨_, _, _, rfl, by simp, fun p hoff => ⟨fun hp => tcone_out hv' (by positivity) (by linarith) ?_ (trc_mm.1 hp), fun hp => tcone_in hv' (by positivity) (by linarith) (trc_mm.2 hp)⟩⟩
      intro hap
      have hq : r1 * 10 / (r1 * 10 - r2 * 10) = r1 / (r1 - r2) := by
        rw [← sub_mul, mul_div_mul_right _ _ (by norm_num)]
      rw [hq] at hap
      refine hoff (r1 / (r1 - r2)) ⟨0, 0, 0⟩ ⟨?_, ?_⟩ ?_
      · have hx := congrArg Vec.x hap
        have hy := congrArg Vec.y hap
        have hz := congrArg Vec.z hap
        simp only [mm, Vec.add, Vec.smul] at hx hy hz
        ext <;> simp only [Vec.sub, Vec.add, Vec.smul] <;> linarith
      · simp [Vec.dot]
      · simp only [Vec.sq, Vec.dot]
        have : r1 + r1 / (r1 - r2) * (r2 - r1) = 0 := by field_simp; ring
        rw [this]; norm_num
    · cases h
  · cases h

theorem or_some {a b : Option Region} {r : Region} (h : (a <|> b) = some r) : a = some r ∨ b = some r := by
  cases a
  · exact Or.inr (by simpa using h)
  · exact Or.inl (by simpa using h)

/-- every card with a meaning, other than the point cards that are not handled -/
theorem good_card {mn : String} {args : List ℝ} {r : Region} (hb : ¬ BadPoints mn args) (h : cardMeaning mn args = some r) : Good mn args r := by
  unfold cardMeaning at h
  rcases or_some h with h | h
  · exact good_plane h
  rcases or_some h with h | h
  · exact good_sphere h
  rcases or_some h with h | h
  · exact good_cyl h
  rcases or_some h with h | h
  · exact good_cone h
  rcases or_some h with h | h
  · exact good_torus h
  rcases or_some h with h | h
  · exact good_pointCards hb h
  rcases or_some h with h | h
  · exact good_box h
  · exact good_can h

end Geouned.RSurf
