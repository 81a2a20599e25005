import Verif.RSurf.Model
import Verif.Geom.CardProps
namespace Geouned.RSurf
open Geouned.Geom

theorem side_true {p : Vec} {s : Surf} {x : ℝ} (h : inout p s = some x) (hx : 0 < x) : surfaceSide p s = some true := by
  simp [surfaceSide, h, hx]

theorem side_false {p : Vec} {s : Surf} {x : ℝ} (h : inout p s = some x) (hx : x ≤ 0) : surfaceSide p s = some false := by
  simp [surfaceSide, h, hx]

theorem len_nonneg (a : Vec) : 0 ≤ a.len := Real.sqrt_nonneg _

theorem len_lt {a : Vec} {R : ℝ} (hR : 0 ≤ R) (h : a.sq < R ^ 2) : a.len < R :=
  lt_of_pow_lt_pow_left₀ 2 hR (by rw [len_sq]; exact h)

theorem lt_len {a : Vec} {R : ℝ} (h : R ^ 2 < a.sq) : R < a.len :=
  lt_of_pow_lt_pow_left₀ 2 (len_nonneg a) (by rw [len_sq]; exact h)

theorem div?_ne {a b : ℝ} (h : b ≠ 0) : div? a b = some (a / b) := by simp [div?, h]

theorem normalize_ne {a : Vec} (h : a.sq ≠ 0) : a.normalize = some (Vec.smul (1 / a.len) a) := by
  simp [Vec.normalize, len_ne h]

theorem cross_sq (a b : Vec) : (a.cross b).sq = a.sq * b.sq - a.dot b ^ 2 := by
  simp only [Vec.cross, Vec.sq, Vec.dot]; ring

theorem dot_smul_left (k : ℝ) (a b : Vec) : (Vec.smul k a).dot b = k * a.dot b := by simp only [Vec.smul, Vec.dot]; ring

/-- Cauchy's inequality -/
theorem dot_sq_le (a b : Vec) : a.dot b ^ 2 ≤ a.sq * b.sq := by
  have := sq_nonneg' (a.cross b)
  rw [cross_sq] at this
  linarith

/-! ### angles -/

theorem cos_arctan_pos (t : ℝ) : 0 < Real.cos (Real.arctan t) := Real.cos_arctan_pos t

/-- the angle is less than that of the cone -/
theorem angle_lt {g l t : ℝ} (hl : 0 < l) (hg : 0 < g) (h1 : g ≤ l) (ht : 0 ≤ t) (h : l ^ 2 < (1 + t ^ 2) * g ^ 2) : Real.arccos (g / l) < Real.arctan t := by
  have ha : Real.arctan t = Real.arccos (Real.cos (Real.arctan t)) := by
    rw [Real.arccos_cos (Real.arctan_nonneg.2 ht)]
    have := Real.arctan_lt_pi_div_two t
    have := Real.pi_pos
    linarith
  rw [ha]
  have hs : 0 < Real.sqrt (1 + t ^ 2) := Real.sqrt_pos.2 (by positivity)
  have hlt : Real.cos (Real.arctan t) < g / l := by
    rw [Real.cos_arctan, div_lt_div_iff₀ hs hl, one_mul]
    apply lt_of_pow_lt_pow_left₀ 2 (by positivity)
    rw [mul_pow, Real.sq_sqrt (by positivity)]
    linarith
  have h0 := cos_arctan_pos t
  exact Real.strictAntiOn_arccos ⟨by linarith, Real.cos_le_one _⟩ ⟨by linarith, (div_le_one hl).2 h1⟩ hlt

/-- the angle is more than that of the cone -/
theorem lt_angle {g l t : ℝ} (hl : 0 < l) (h1 : |g| ≤ l) (ht : 0 < t) (h : g ≤ 0 ∨ (1 + t ^ 2) * g ^ 2 < l ^ 2) : Real.arctan t < Real.arccos (g / l) := by
  have ha : Real.arctan t = Real.arccos (Real.cos (Real.arctan t)) := by
    rw [Real.arccos_cos (Real.arctan_nonneg.2 ht.le)]
    have := Real.arctan_lt_pi_div_two t
    have := Real.pi_pos
    linarith
  rw [ha]
  have hs : 0 < Real.sqrt (1 + t ^ 2) := Real.sqrt_pos.2 (by positivity)
  have h0 := cos_arctan_pos t
  have hlt : g / l < Real.cos (Real.arctan t) := by
    by_cases hg : g ≤ 0
    · have : g / l ≤ 0 := div_nonpos_of_nonpos_of_nonneg hg hl.le
      linarith
    · have h' : (1 + t ^ 2) * g ^ 2 < l ^ 2 := h.resolve_left hg
      push Not at hg
      rw [Real.cos_arctan, div_lt_div_iff₀ hl hs, one_mul]
      apply lt_of_pow_lt_pow_left₀ 2 hl.le
      rw [mul_pow, Real.sq_sqrt (by positivity)]
      linarith
  obtain ⟨h2, h3⟩ := abs_le.1 h1
  exact Real.strictAntiOn_arccos ⟨by rw [le_div_iff₀ hl]; linarith, (div_le_one hl).2 h3⟩ ⟨by linarith, Real.cos_le_one _⟩ hlt

theorem clip_id {x : ℝ} (h : |x| ≤ 1) : clip x = x := by
  obtain ⟨h1, h2⟩ := abs_le.1 h
  simp [clip, h1, h2]

theorem abs_dot_le {d v : Vec} (hv : v.sq = 1) : |d.dot v| ≤ d.len := by
  apply abs_le_of_sq_le_sq _ (len_nonneg d)
  rw [len_sq]
  have := dot_sq_le d v
  rw [hv, mul_one] at this
  exact this

theorem abs_div_le {g l : ℝ} (hl : 0 < l) (h : |g| ≤ l) : |g / l| ≤ 1 := by
  rw [abs_div, abs_of_pos hl]
  exact (div_le_one hl).2 h

theorem len_pos {a : Vec} (h : a.sq ≠ 0) : 0 < a.len := lt_of_le_of_ne (len_nonneg a) (Ne.symm (len_ne h))

theorem cone_inout {p P v : Vec} {t : ℝ} {dbl : Bool} (hv : v.sq = 1) (hd : (p.sub P).sq ≠ 0) :
    inout p (.cone P v t dbl) = some (Real.arccos ((if dbl then |(p.sub P).dot v| else (p.sub P).dot v) / (p.sub P).len) - Real.arctan t) := by
  have hl := len_pos hd
  have hle := abs_dot_le (d := p.sub P) hv
  have hc : (Vec.smul (1 / (p.sub P).len) (p.sub P)).dot v = (p.sub P).dot v / (p.sub P).len := by
    rw [dot_smul_left]; field_simp
  simp only [inout, normalize_ne hd, Option.bind_eq_bind, Option.bind_some]
  rw [hc, clip_id (abs_div_le hl hle)]
  cases dbl
  · simp
  · simp [abs_div, abs_of_pos hl]

/-- inside the cone, or inside the sheet -/
theorem cone_in {p P v : Vec} {t : ℝ} {dbl : Bool} (hv : v.sq = 1) (ht : 0 < t) (hn : dbl = false → 0 < (p.sub P).dot v)
    (h : (p.sub P).sq - (p.sub P).dot v ^ 2 < t ^ 2 * (p.sub P).dot v ^ 2) : surfaceSide p (.cone P v t dbl) = some false := by
  have h0 := dot_sq_le (p.sub P) v
  rw [hv, mul_one] at h0
  have hg : (p.sub P).dot v ≠ 0 := by
    intro hc
    rw [hc] at h h0
    nlinarith
  have hd : (p.sub P).sq ≠ 0 := by
    intro hc
    rw [hc] at h0
    have : 0 < (p.sub P).dot v ^ 2 := by positivity
    linarith
  refine side_false (cone_inout hv hd) ?_
  have hle := abs_dot_le (d := p.sub P) hv
  have hl := len_pos hd
  cases dbl
  · have hp := hn rfl
    have := angle_lt hl hp (le_trans (le_abs_self _) hle) ht.le (by rw [len_sq]; linarith)
    simpa using this.le
  · have := angle_lt hl (abs_pos.2 hg) hle ht.le (by rw [len_sq, sq_abs]; linarith)
    simpa using this.le

/-- outside the cone, or outside the sheet -/
theorem cone_out {p P v : Vec} {t : ℝ} {dbl : Bool} (hv : v.sq = 1) (ht : 0 < t)
    (h : t ^ 2 * (p.sub P).dot v ^ 2 < (p.sub P).sq - (p.sub P).dot v ^ 2 ∨ (dbl = false ∧ (p.sub P).dot v < 0)) : surfaceSide p (.cone P v t dbl) = some true := by
  have h0 := dot_sq_le (p.sub P) v
  rw [hv, mul_one] at h0
  have hd : (p.sub P).sq ≠ 0 := by
    intro hc
    rw [hc] at h h0
    rcases h with h | ⟨_, h⟩
    · have : 0 ≤ t ^ 2 * (p.sub P).dot v ^ 2 := by positivity
      have : 0 ≤ (p.sub P).dot v ^ 2 := by positivity
      linarith
    · have : 0 < (p.sub P).dot v ^ 2 := by
        have := h.ne
        positivity
      linarith
  refine side_true (cone_inout hv hd) ?_
  have hle := abs_dot_le (d := p.sub P) hv
  have hl := len_pos hd
  cases dbl
  · have := lt_angle (g := (p.sub P).dot v) hl hle ht (h.elim (fun h => Or.inr (by rw [len_sq]; linarith)) (fun h => Or.inl h.2.le))
    simpa using this
  · have h' := h.resolve_right (by simp)
    have := lt_angle (g := |(p.sub P).dot v|) hl (by rwa [abs_abs]) ht (Or.inr (by rw [len_sq, sq_abs]; linarith))
    simpa using this

/-! ### other surfaces -/

theorem btw_eq (p P v : Vec) : btwPPlanes p P v = if 0 < v.dot (p.sub P) ∧ v.dot (p.sub P) < v.sq then -1 else 1 := by
  have h : v.dot (p.sub (P.add v)) = v.dot (p.sub P) - v.sq := by simp only [Vec.dot, Vec.sub, Vec.add, Vec.sq]; ring
  simp only [btwPPlanes, h, sub_neg]

theorem btw_in {p P v : Vec} (h : 0 < v.dot (p.sub P)) (h' : v.dot (p.sub P) < v.sq) : btwPPlanes p P v = -1 := by rw [btw_eq, if_pos ⟨h, h'⟩]

theorem btw_out {p P v : Vec} (h : v.dot (p.sub P) < 0 ∨ v.sq < v.dot (p.sub P)) : btwPPlanes p P v = 1 := by
  rw [btw_eq, if_neg]
  rintro ⟨a, b⟩
  rcases h with h | h <;> linarith

theorem cyl_in {p P v : Vec} {R : ℝ} (hR : 0 ≤ R) (hv : v.sq = 1) (h : (p.sub P).sq - (p.sub P).dot v ^ 2 < R ^ 2) : surfaceSide p (.cyl P v R) = some false := by
  refine side_false (x := _) rfl ?_
  have := len_lt (a := (p.sub P).cross v) hR (by rw [cross_sq, hv, mul_one]; exact h)
  linarith

theorem cyl_out {p P v : Vec} {R : ℝ} (hv : v.sq = 1) (h : R ^ 2 < (p.sub P).sq - (p.sub P).dot v ^ 2) : surfaceSide p (.cyl P v R) = some true := by
  refine side_true (x := _) rfl ?_
  have := lt_len (a := (p.sub P).cross v) (R := R) (by rw [cross_sq, hv, mul_one]; exact h)
  linarith

theorem sphere_in {p P : Vec} {R : ℝ} (hR : 0 ≤ R) (h : (p.sub P).sq < R ^ 2) : surfaceSide p (.sphere P R) = some false :=
  side_false (x := _) rfl (by have := len_lt hR h; linarith)

theorem sphere_out {p P : Vec} {R : ℝ} (h : R ^ 2 < (p.sub P).sq) : surfaceSide p (.sphere P R) = some true :=
  side_true (x := _) rfl (by have := lt_len h; linarith)

/-- the decomposition along and across the axis -/
theorem decomp_facts {P v p w : Vec} {t : ℝ} (h : Decomp P v p t w) :
    v.dot (p.sub P) = t * v.sq ∧ ((p.sub P).cross v).sq = w.sq * v.sq ∧ (p.sub P).sq = t ^ 2 * v.sq + w.sq := by
  obtain ⟨h1, h2⟩ := h
  rw [h1]
  simp only [Vec.dot, Vec.sq, Vec.cross, Vec.add, Vec.smul] at *
  refine ⟨?_, ?_, ?_⟩
  · linear_combination h2
  · linear_combination -(v.x * w.x + v.y * w.y + v.z * w.z) * h2
  · linear_combination 2 * t * h2

theorem sqrt_eq_len (a : Vec) : a.len = Real.sqrt a.sq := rfl

theorem can_inout {p P v w : Vec} {t R : ℝ} (hv : 0 < v.sq) (h : Decomp P v p t w) :
    inout p (.can P v R) = if Real.sqrt w.sq - R < 0 ∧ btwPPlanes p P v < 0 then some (-1) else some 1 := by
  have hl := len_pos hv.ne'
  obtain ⟨_, h2, _⟩ := decomp_facts h
  have : ((p.sub P).cross v).len / v.len = Real.sqrt w.sq := by
    rw [sqrt_eq_len, h2, Real.sqrt_mul (sq_nonneg' w), ← sqrt_eq_len v]
    field_simp
  simp only [inout, div?_ne hl.ne', Option.bind_eq_bind, Option.bind_some, this]

theorem can_in {p P v : Vec} {R : ℝ} (hv : 0 < v.sq) (hR : 0 < R) (h : (trcRegion P v R R).neg p) : surfaceSide p (.can P v R) = some false := by
  obtain ⟨t, w, hd, h0, h1, hw⟩ := h
  obtain ⟨f1, _, _⟩ := decomp_facts hd
  have hw' : Real.sqrt w.sq < R := by
    rw [Real.sqrt_lt (sq_nonneg' w) hR.le]
    simpa using hw
  refine side_false (x := -1) ?_ (by norm_num)
  rw [can_inout hv hd, btw_in (by rw [f1]; positivity) (by rw [f1]; nlinarith)]
  simp [hw']

theorem can_out {p P v : Vec} {R : ℝ} (hv : 0 < v.sq) (hR : 0 < R) (h : (trcRegion P v R R).pos p) : surfaceSide p (.can P v R) = some true := by
  obtain ⟨t, w, hd, hc⟩ := h
  obtain ⟨f1, _, _⟩ := decomp_facts hd
  refine side_true (x := 1) ?_ (by norm_num)
  rw [can_inout hv hd, if_neg]
  rintro ⟨a, b⟩
  rcases hc with hc | hc | hc
  · rw [btw_out (Or.inl (by rw [f1]; exact mul_neg_of_neg_of_pos hc hv))] at b
    norm_num at b
  · rw [btw_out (Or.inr (by rw [f1]; nlinarith))] at b
    norm_num at b
  · have : R < Real.sqrt w.sq := by
      rw [Real.lt_sqrt hR.le]
      simpa using hc
    linarith

theorem tcone_inout {p P v w : Vec} {t R1 R2 : ℝ} (hv : 0 < v.sq) (h21 : R2 < R1) (h : Decomp P v p t w)
    (hX : (p.sub (P.add (Vec.smul (R1 / (R1 - R2)) v))).sq ≠ 0) :
    inout p (.tcone P v R1 R2) =
      if Real.arccos ((R1 / (R1 - R2) - t) * v.len / (p.sub (P.add (Vec.smul (R1 / (R1 - R2)) v))).len) - Real.arctan ((R1 - R2) / v.len) < 0 ∧ btwPPlanes p P v < 0
      then some (-1) else some 1 := by
  have hl := len_pos hv.ne'
  obtain ⟨h1, h2⟩ := h
  set q := R1 / (R1 - R2)
  set X := p.sub (P.add (Vec.smul q v)) with hXd
  have hXe : X = (Vec.smul (t - q) v).add w := by
    have hx := congrArg Vec.x h1
    have hy := congrArg Vec.y h1
    have hz := congrArg Vec.z h1
    simp only [Vec.sub, Vec.add, Vec.smul] at hx hy hz
    rw [hXd]
    ext <;> simp only [Vec.sub, Vec.add, Vec.smul] <;> linarith
  have hdot : X.dot v = (t - q) * v.sq := by
    rw [hXe]
    simp only [Vec.dot, Vec.sq, Vec.add, Vec.smul] at *
    linear_combination h2
  have hXl := len_pos hX
  have hc : (Vec.smul (1 / X.len) X).dot (Vec.smul (-1) v) / v.len = (q - t) * v.len / X.len := by
    have : (Vec.smul (1 / X.len) X).dot (Vec.smul (-1) v) = -(1 / X.len) * X.dot v := by simp only [Vec.dot, Vec.smul]; ring
    rw [this, hdot, ← len_sq v]
    field_simp
    ring
  have hab : |(q - t) * v.len| ≤ X.len := by
    apply abs_le.2 (abs_le_of_sq_le_sq' _ hXl.le)
    have := dot_sq_le X v
    rw [hdot, ← len_sq v, ← len_sq X] at this
    have h4 : 0 < v.len ^ 2 := by positivity
    have : ((q - t) * v.len) ^ 2 * v.len ^ 2 ≤ X.len ^ 2 * v.len ^ 2 := by nlinarith
    exact le_of_mul_le_mul_right this h4
  have hne : R1 - R2 ≠ 0 := (sub_pos.2 h21).ne'
  have hn : (p.sub (P.add (Vec.smul (R1 / (R1 - R2)) v))).normalize = some (Vec.smul (1 / X.len) X) := normalize_ne hX
  simp only [inout, div?_ne hne, div?_ne hl.ne', hn, Option.bind_eq_bind, Option.bind_some]
  rw [hc, clip_id (abs_div_le hXl hab)]

theorem apex_sq {p P v w : Vec} {t q : ℝ} (h : Decomp P v p t w) : (p.sub (P.add (Vec.smul q v))).sq = (t - q) ^ 2 * v.sq + w.sq := by
  obtain ⟨h1, h2⟩ := h
  have hXe : p.sub (P.add (Vec.smul q v)) = (Vec.smul (t - q) v).add w := by
    have hx := congrArg Vec.x h1
    have hy := congrArg Vec.y h1
    have hz := congrArg Vec.z h1
    simp only [Vec.sub, Vec.add, Vec.smul] at hx hy hz
    ext <;> simp only [Vec.sub, Vec.add, Vec.smul] <;> linarith
  rw [hXe]
  simp only [Vec.dot, Vec.sq, Vec.add, Vec.smul] at *
  linear_combination 2 * (t - q) * h2

theorem tcone_in {p P v : Vec} {R1 R2 : ℝ} (hv : 0 < v.sq) (h2 : 0 < R2) (h21 : R2 < R1) (h : (trcRegion P v R1 R2).neg p) :
    surfaceSide p (.tcone P v R1 R2) = some false := by
  obtain ⟨t, w, hd, h0, h1, hw⟩ := h
  obtain ⟨f1, _, _⟩ := decomp_facts hd
  have hl := len_pos hv.ne'
  have hs : 0 < R1 - R2 := sub_pos.2 h21
  set q := R1 / (R1 - R2) with hq
  have hqR : q * (R1 - R2) = R1 := by rw [hq]; field_simp
  have hqt : 0 < q - t := by
    have : 1 < q := by rw [hq, lt_div_iff₀ hs]; linarith
    linarith
  have hX := apex_sq (q := q) hd
  have hw0 := sq_nonneg' w
  have hX0 : (p.sub (P.add (Vec.smul q v))).sq ≠ 0 := by
    rw [hX]
    have : (t - q) ≠ 0 := by linarith
    positivity
  refine side_false (x := -1) ?_ (by norm_num)
  rw [tcone_inout hv h21 hd hX0, btw_in (by rw [f1]; positivity) (by rw [f1]; nlinarith), if_pos]
  refine ⟨?_, by norm_num⟩
  rw [← hq]
  have hXl := len_pos hX0
  have hrad : R1 + t * (R2 - R1) = (q - t) * (R1 - R2) := by linear_combination -hqR
  rw [hrad] at hw
  have hle : (q - t) * v.len ≤ (p.sub (P.add (Vec.smul q v))).len := by
    apply le_of_sq_le_sq _ hXl.le
    rw [len_sq, hX, mul_pow, len_sq]
    nlinarith
  have := angle_lt (t := (R1 - R2) / v.len) hXl (by positivity) hle (by positivity) (by
    rw [len_sq, hX, mul_pow, div_pow]
    have : (1 + (R1 - R2) ^ 2 / v.len ^ 2) * ((q - t) ^ 2 * v.len ^ 2) = (q - t) ^ 2 * v.len ^ 2 + ((q - t) * (R1 - R2)) ^ 2 := by field_simp
    rw [this, len_sq]
    nlinarith)
  linarith

theorem tcone_out {p P v : Vec} {R1 R2 : ℝ} (hv : 0 < v.sq) (h2 : 0 < R2) (h21 : R2 < R1) (hap : p ≠ P.add (Vec.smul (R1 / (R1 - R2)) v))
    (h : (trcRegion P v R1 R2).pos p) : surfaceSide p (.tcone P v R1 R2) = some true := by
  obtain ⟨t, w, hd, hc⟩ := h
  obtain ⟨f1, _, _⟩ := decomp_facts hd
  have hl := len_pos hv.ne'
  have hs : 0 < R1 - R2 := sub_pos.2 h21
  set q := R1 / (R1 - R2) with hq
  have hqR : q * (R1 - R2) = R1 := by rw [hq]; field_simp
  have hX := apex_sq (q := q) hd
  have hw0 := sq_nonneg' w
  have hX0 : (p.sub (P.add (Vec.smul q v))).sq ≠ 0 := by
    intro hz
    apply hap
    simp only [Vec.sq, Vec.dot] at hz
    have hx : (p.sub (P.add (Vec.smul q v))).x = 0 := by nlinarith [mul_self_nonneg (p.sub (P.add (Vec.smul q v))).x, mul_self_nonneg (p.sub (P.add (Vec.smul q v))).y, mul_self_nonneg (p.sub (P.add (Vec.smul q v))).z]
    have hy : (p.sub (P.add (Vec.smul q v))).y = 0 := by nlinarith [mul_self_nonneg (p.sub (P.add (Vec.smul q v))).x, mul_self_nonneg (p.sub (P.add (Vec.smul q v))).y, mul_self_nonneg (p.sub (P.add (Vec.smul q v))).z]
    have hz' : (p.sub (P.add (Vec.smul q v))).z = 0 := by nlinarith [mul_self_nonneg (p.sub (P.add (Vec.smul q v))).x, mul_self_nonneg (p.sub (P.add (Vec.smul q v))).y, mul_self_nonneg (p.sub (P.add (Vec.smul q v))).z]
    simp only [Vec.sub] at hx hy hz'
    ext <;> linarith
  refine side_true (x := 1) ?_ (by norm_num)
  rw [tcone_inout hv h21 hd hX0, if_neg]
  rintro ⟨a, b⟩
  by_cases ht : t < 0
  · rw [btw_out (Or.inl (by rw [f1]; exact mul_neg_of_neg_of_pos ht hv))] at b
    norm_num at b
  by_cases ht1 : 1 < t
  · rw [btw_out (Or.inr (by rw [f1]; nlinarith))] at b
    norm_num at b
  have hc' := (hc.resolve_left ht).resolve_left ht1
  rw [← hq] at a
  push Not at ht ht1
  have hXl := len_pos hX0
  have hqt : 0 < q - t := by
    have : 1 < q := by rw [hq, lt_div_iff₀ hs]; linarith
    linarith
  have hrad : R1 + t * (R2 - R1) = (q - t) * (R1 - R2) := by linear_combination -hqR
  rw [hrad] at hc'
  have hle : (q - t) * v.len ≤ (p.sub (P.add (Vec.smul q v))).len := by
    apply le_of_sq_le_sq _ hXl.le
    rw [len_sq, hX, mul_pow, len_sq]
    nlinarith
  have := lt_angle (g := (q - t) * v.len) (t := (R1 - R2) / v.len) hXl (by rw [abs_of_pos (by positivity)]; exact hle) (by positivity) (Or.inr (by
    rw [len_sq, hX, mul_pow, div_pow]
    have : (1 + (R1 - R2) ^ 2 / v.len ^ 2) * ((q - t) ^ 2 * v.len ^ 2) = (q - t) ^ 2 * v.len ^ 2 + ((q - t) * (R1 - R2)) ^ 2 := by field_simp
    rw [this, len_sq]
    nlinarith))
  linarith

theorem box_in {p P v1 v2 v3 : Vec} (ho : Orth3 v1 v2 v3) (h : (boxRegion P v1 v2 v3).neg p) : surfaceSide p (.box P v1 v2 v3) = some false := by
  obtain ⟨o1, o2, o3, s1, s2, s3⟩ := ho
  obtain ⟨a, b, c, hd, a0, a1, b0, b1, c0, c1⟩ := h
  have e1 : v1.dot (p.sub P) = a * v1.sq := by
    rw [hd]; simp only [Vec.dot, Vec.sq, Vec.add, Vec.smul] at *; linear_combination b * o1 + c * o3
  have e2 : v2.dot (p.sub P) = b * v2.sq := by
    rw [hd]; simp only [Vec.dot, Vec.sq, Vec.add, Vec.smul] at *; linear_combination a * o1 + c * o2
  have e3 : v3.dot (p.sub P) = c * v3.sq := by
    rw [hd]; simp only [Vec.dot, Vec.sq, Vec.add, Vec.smul] at *; linear_combination a * o3 + b * o2
  have q1 := btw_in (p := p) (P := P) (v := v1) (by rw [e1]; positivity) (by rw [e1]; nlinarith)
  have q2 := btw_in (p := p) (P := P) (v := v2) (by rw [e2]; positivity) (by rw [e2]; nlinarith)
  have q3 := btw_in (p := p) (P := P) (v := v3) (by rw [e3]; positivity) (by rw [e3]; nlinarith)
  refine side_false (x := -1) ?_ (by norm_num)
  have : ¬ (0 : ℝ) < -1 := by norm_num
  simp only [inout, q1, q2, q3, if_neg this]

theorem box_out {p P v1 v2 v3 : Vec} (ho : Orth3 v1 v2 v3) (h : (boxRegion P v1 v2 v3).pos p) : surfaceSide p (.box P v1 v2 v3) = some true := by
  obtain ⟨o1, o2, o3, s1, s2, s3⟩ := ho
  obtain ⟨a, b, c, hd, hc⟩ := h
  have e1 : v1.dot (p.sub P) = a * v1.sq := by
    rw [hd]; simp only [Vec.dot, Vec.sq, Vec.add, Vec.smul] at *; linear_combination b * o1 + c * o3
  have e2 : v2.dot (p.sub P) = b * v2.sq := by
    rw [hd]; simp only [Vec.dot, Vec.sq, Vec.add, Vec.smul] at *; linear_combination a * o1 + c * o2
  have e3 : v3.dot (p.sub P) = c * v3.sq := by
    rw [hd]; simp only [Vec.dot, Vec.sq, Vec.add, Vec.smul] at *; linear_combination a * o3 + b * o2
  refine side_true (x := 1) ?_ (by norm_num)
  have two : ∀ v : Vec, btwPPlanes p P v = -1 ∨ btwPPlanes p P v = 1 := fun v => by rw [btw_eq]; split <;> simp
  have key : btwPPlanes p P v1 = 1 ∨ btwPPlanes p P v2 = 1 ∨ btwPPlanes p P v3 = 1 := by
    rcases hc with hc | hc | hc | hc | hc | hc
    · exact Or.inl (btw_out (Or.inl (by rw [e1]; exact mul_neg_of_neg_of_pos hc s1)))
    · exact Or.inl (btw_out (Or.inr (by rw [e1]; nlinarith)))
    · exact Or.inr (Or.inl (btw_out (Or.inl (by rw [e2]; exact mul_neg_of_neg_of_pos hc s2))))
    · exact Or.inr (Or.inl (btw_out (Or.inr (by rw [e2]; nlinarith))))
    · exact Or.inr (Or.inr (btw_out (Or.inl (by rw [e3]; exact mul_neg_of_neg_of_pos hc s3))))
    · exact Or.inr (Or.inr (btw_out (Or.inr (by rw [e3]; nlinarith))))
  have n1 : ¬ (0 : ℝ) < -1 := by norm_num
  have p1 : (0 : ℝ) < 1 := by norm_num
  rcases two v1 with q1 | q1
  · rcases two v2 with q2 | q2
    · rcases two v3 with q3 | q3
      · rw [q1, q2, q3] at key; norm_num at key
      · simp only [inout, q1, q2, q3, if_neg n1]
    · simp only [inout, q1, q2, if_neg n1, if_pos p1]
  · simp only [inout, q1, if_pos p1]

/-- elliptical can, in terms of its unit axes -/
theorem ecyl_inout {p P v a0 a1 : Vec} {r0 r1 : ℝ} (h0 : r0 ≠ 0) (h1 : r1 ≠ 0) :
    inout p (.ecyl P v r0 r1 a0 a1 true) =
      if ((p.sub P).dot a1 / r1) ^ 2 + ((p.sub P).dot a0 / r0) ^ 2 - 1 < 0 then some (btwPPlanes p P v)
      else some (((p.sub P).dot a1 / r1) ^ 2 + ((p.sub P).dot a0 / r0) ^ 2 - 1) := by
  simp [inout, div?_ne h0, div?_ne h1]

theorem ecyl_side {p P v a0 a1 : Vec} {r0 r1 t x y : ℝ} (hv : 0 < v.sq) (h0 : r0 ≠ 0) (h1 : r1 ≠ 0) (ex : ((p.sub P).dot a1 / r1) ^ 2 = x ^ 2)
    (ey : ((p.sub P).dot a0 / r0) ^ 2 = y ^ 2) (et : v.dot (p.sub P) = t * v.sq) :
    (0 < t ∧ t < 1 ∧ x ^ 2 + y ^ 2 < 1 → surfaceSide p (.ecyl P v r0 r1 a0 a1 true) = some false) ∧
    (x ^ 2 + y ^ 2 ≠ 1 → t < 0 ∨ 1 < t ∨ 1 < x ^ 2 + y ^ 2 → surfaceSide p (.ecyl P v r0 r1 a0 a1 true) = some true) := by
  have e := ecyl_inout (p := p) (P := P) (v := v) (a0 := a0) (a1 := a1) h0 h1
  rw [ex, ey] at e
  constructor
  · rintro ⟨t0, t1, hlt⟩
    rw [if_pos (by linarith), btw_in (by rw [et]; positivity) (by rw [et]; nlinarith)] at e
    exact side_false e (by norm_num)
  · intro hne h
    by_cases hlt : x ^ 2 + y ^ 2 - 1 < 0
    · rw [if_pos hlt, btw_out] at e
      · exact side_true e (by norm_num)
      · rw [et]
        rcases h with h | h | h
        · exact Or.inl (mul_neg_of_neg_of_pos h hv)
        · exact Or.inr (by nlinarith)
        · linarith
    · rw [if_neg hlt] at e
      refine side_true e (lt_of_le_of_ne (by linarith) fun hc => hne (by linarith))

theorem torus_inout {p P v : Vec} {Ra Rb Rc : ℝ} (hv : v.sq = 1) (hb : Rb ≠ 0) (hc : Rc ≠ 0) :
    inout p (.torus P v Ra Rb Rc) = some (((p.sub P).dot v / Rb) ^ 2 + ((Real.sqrt ((p.sub P).sq - (p.sub P).dot v ^ 2) - Ra) / Rc) ^ 2 - 1) := by
  have : ((p.sub P).sub (Vec.smul ((p.sub P).dot v) v)).sq = (p.sub P).sq - (p.sub P).dot v ^ 2 := by
    simp only [Vec.sq, Vec.dot, Vec.sub, Vec.smul] at *
    linear_combination ((p.x - P.x) * v.x + (p.y - P.y) * v.y + (p.z - P.z) * v.z) ^ 2 * hv
  simp only [inout, div?_ne hb, div?_ne hc, Option.bind_eq_bind, Option.bind_some, Vec.len, this]

/-- the plane through three points of the reader is that of the writer (C38) -/
theorem threePlane_eq (p1 p2 p3 : Vec) : threePlane p1 p2 p3 = (pointsToCoeffs p1 p2 p3).map fun ad => .plane ad.1 (ad.2 * 10) := by
  unfold threePlane pointsToCoeffs
  simp only
  split
  · rename_i h
    simp [div?, h]
  · rename_i h
    simp only [div?, h, Option.bind_eq_bind, if_false, Option.bind_some, Vec.normalize, Option.map_some]

end Geouned.RSurf
