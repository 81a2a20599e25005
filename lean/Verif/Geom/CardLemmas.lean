import Verif.Geom.Card
import Verif.Geom.QuadricProps
import Verif.Geom.SurfProps
namespace Geouned.Geom

theorem normalize_unit {a : Vec} (h : a.sq = 1) : a.normalize = some a := by
  unfold Vec.normalize
  rw [unit_len h]
  norm_num
  ext <;> simp [Vec.smul]

/-- height over the base point, along the axis -/
def height (c a p : Vec) : ℝ := a.dot (p.sub c)
/-- squared distance to the axis, for a unit axis -/
def axDist (c a p : Vec) : ℝ := (p.sub c).sq - height c a p ^ 2

theorem distSq_axis {c a : Vec} (h : a.sq = 1) (p : Vec) (t : ℝ) :
    distSq p (onAxis c a t) = axDist c a p + (t - height c a p) ^ 2 := by
  simp only [Vec.sq, Vec.dot] at h
  simp only [distSq, onAxis, axDist, height, Vec.sub, Vec.add, Vec.smul, Vec.sq, Vec.dot]
  linear_combination (t ^ 2) * h

theorem inCyl_unit {c a : Vec} (h : a.sq = 1) (r : ℝ) (p : Vec) : InCyl c a r p ↔ axDist c a p - r ^ 2 < 0 := by
  constructor
  · rintro ⟨t, ht⟩
    rw [distSq_axis h] at ht
    nlinarith [sq_nonneg (t - height c a p)]
  · intro h0
    refine ⟨height c a p, ?_⟩
    rw [distSq_axis h]
    simp; linarith

theorem outCyl_unit {c a : Vec} (h : a.sq = 1) (r : ℝ) (p : Vec) : OutCyl c a r p ↔ 0 < axDist c a p - r ^ 2 := by
  constructor
  · intro h0
    have := h0 (height c a p)
    rw [distSq_axis h] at this
    simp at this; linarith
  · intro h0 t
    rw [distSq_axis h]
    nlinarith [sq_nonneg (t - height c a p)]

theorem decomp_unit {c a : Vec} (h : a.sq = 1) (p : Vec) (t : ℝ) (w : Vec) :
    Decomp c a p t w ↔ t = height c a p ∧ w = (p.sub c).sub (Vec.smul t a) := by
  constructor
  · rintro ⟨h1, h2⟩
    have hw : w = (p.sub c).sub (Vec.smul t a) := by rw [h1]; ext <;> simp [Vec.add, Vec.sub]
    refine ⟨?_, hw⟩
    rw [hw] at h2
    have : a.dot ((p.sub c).sub (Vec.smul t a)) = height c a p - t * a.sq := by
      simp only [height, Vec.dot, Vec.sub, Vec.smul, Vec.sq]; ring
    rw [this, h] at h2
    linarith
  · rintro ⟨h1, h2⟩
    refine ⟨?_, ?_⟩
    · rw [h2]; ext <;> simp [Vec.add, Vec.sub]
    · have : a.dot w = height c a p - t * a.sq := by
        rw [h2]; simp only [height, Vec.dot, Vec.sub, Vec.smul, Vec.sq]; ring
      rw [this, h, h1]; ring

theorem offset_sq {c a : Vec} (h : a.sq = 1) (p : Vec) :
    ((p.sub c).sub (Vec.smul (height c a p) a)).sq = axDist c a p := by
  have : ((p.sub c).sub (Vec.smul (height c a p) a)).sq =
      (p.sub c).sq - 2 * height c a p * height c a p + height c a p ^ 2 * a.sq := by
    simp only [height, Vec.dot, Vec.sub, Vec.smul, Vec.sq]; ring
  rw [this, h, axDist]; ring

theorem axDist_nonneg {c a : Vec} (h : a.sq = 1) (p : Vec) : 0 ≤ axDist c a p := by
  rw [← offset_sq h]; exact sq_nonneg' _

theorem inCone_unit {c a : Vec} (h : a.sq = 1) (k : ℝ) (p : Vec) :
    InCone c a k p ↔ axDist c a p - k ^ 2 * height c a p ^ 2 < 0 := by
  constructor
  · rintro ⟨t, w, hd, hlt⟩
    obtain ⟨h1, h2⟩ := (decomp_unit h p t w).1 hd
    subst h1
    rw [h2, offset_sq h, h] at hlt
    linarith
  · intro h0
    refine ⟨_, _, (decomp_unit h p _ _).2 ⟨rfl, rfl⟩, ?_⟩
    rw [offset_sq h, h]; linarith

theorem outCone_unit {c a : Vec} (h : a.sq = 1) (k : ℝ) (p : Vec) :
    OutCone c a k p ↔ 0 < axDist c a p - k ^ 2 * height c a p ^ 2 := by
  constructor
  · rintro ⟨t, w, hd, hlt⟩
    obtain ⟨h1, h2⟩ := (decomp_unit h p t w).1 hd
    subst h1
    rw [h2, offset_sq h, h] at hlt
    linarith
  · intro h0
    refine ⟨_, _, (decomp_unit h p _ _).2 ⟨rfl, rfl⟩, ?_⟩
    rw [offset_sq h, h]; linarith

theorem tor_neg_unit {c a : Vec} (h : a.sq = 1) (R r : ℝ) (p : Vec) :
    (torRegion c a R r).neg p ↔ height c a p ^ 2 + (Real.sqrt (axDist c a p) - R) ^ 2 - r ^ 2 < 0 := by
  constructor
  · rintro ⟨t, w, hd, hlt⟩
    obtain ⟨h1, h2⟩ := (decomp_unit h p t w).1 hd
    subst h1
    rw [h2, offset_sq h, h] at hlt
    linarith
  · intro h0
    refine ⟨_, _, (decomp_unit h p _ _).2 ⟨rfl, rfl⟩, ?_⟩
    rw [offset_sq h, h]; linarith

theorem tor_pos_unit {c a : Vec} (h : a.sq = 1) (R r : ℝ) (p : Vec) :
    (torRegion c a R r).pos p ↔ 0 < height c a p ^ 2 + (Real.sqrt (axDist c a p) - R) ^ 2 - r ^ 2 := by
  constructor
  · rintro ⟨t, w, hd, hlt⟩
    obtain ⟨h1, h2⟩ := (decomp_unit h p t w).1 hd
    subst h1
    rw [h2, offset_sq h, h] at hlt
    linarith
  · intro h0
    refine ⟨_, _, (decomp_unit h p _ _).2 ⟨rfl, rfl⟩, ?_⟩
    rw [offset_sq h, h]; linarith

theorem same_of_fun {s : Region} {f g : Vec → ℝ} {k : ℝ} (hk : 0 < k) (h1 : ∀ p, s.neg p ↔ f p < 0)
    (h2 : ∀ p, s.pos p ↔ 0 < f p) (h : ∀ p, f p = k * g (Vec.smul (1 / 10) p)) : SameInCm s (.ofFun g) := by
  intro p
  rw [h1, h2, h]
  simp only [Region.ofFun]
  refine ⟨?_, ?_⟩
  · constructor
    · intro h; by_contra hc; push Not at hc; nlinarith [mul_nonneg hk.le hc]
    · intro h; exact mul_neg_of_pos_of_neg hk h
  · constructor
    · intro h; by_contra hc; push Not at hc; nlinarith [mul_nonneg hk.le (neg_nonneg.2 hc)]
    · intro h; exact mul_pos hk h

theorem height_cm (c a p : Vec) : height (Vec.smul (1 / 10) c) a (Vec.smul (1 / 10) p) = 1 / 10 * height c a p := by
  simp only [height, Vec.dot, Vec.sub, Vec.smul]; ring
theorem axDist_cm (c a p : Vec) : axDist (Vec.smul (1 / 10) c) a (Vec.smul (1 / 10) p) = 1 / 100 * axDist c a p := by
  simp only [axDist, height, Vec.dot, Vec.sub, Vec.smul, Vec.sq]; ring

theorem cyl_cm {c a : Vec} (h : a.sq = 1) (r : ℝ) :
    SameInCm (cylRegion c a r) (cylRegion (Vec.smul (1 / 10) c) a (r * (1 / 10))) := by
  intro p
  simp only [cylRegion]
  rw [inCyl_unit h, inCyl_unit h, outCyl_unit h, outCyl_unit h, axDist_cm]
  constructor <;> constructor <;> intro h <;> nlinarith

theorem cone_cm {c a : Vec} (h : a.sq = 1) (k : ℝ) :
    SameInCm (coneRegion c a k) (coneRegion (Vec.smul (1 / 10) c) a k) := by
  intro p
  simp only [coneRegion]
  rw [inCone_unit h, inCone_unit h, outCone_unit h, outCone_unit h, axDist_cm, height_cm]
  constructor <;> constructor <;> intro h <;> nlinarith

theorem decomp_smul {c a p w : Vec} {t k : ℝ} (hk : k ≠ 0) : Decomp c (Vec.smul k a) p t w ↔ Decomp c a p (t * k) w := by
  unfold Decomp
  have e1 : Vec.smul t (Vec.smul k a) = Vec.smul (t * k) a := by ext <;> simp only [Vec.smul] <;> ring
  have e2 : (Vec.smul k a).dot w = k * a.dot w := by simp only [Vec.smul, Vec.dot]; ring
  rw [e1, e2]
  constructor
  · rintro ⟨h1, h2⟩; exact ⟨h1, by simpa [hk] using h2⟩
  · rintro ⟨h1, h2⟩; exact ⟨h1, by rw [h2, mul_zero]⟩

theorem sq_smul (k : ℝ) (a : Vec) : (Vec.smul k a).sq = k ^ 2 * a.sq := by simp only [Vec.smul, Vec.sq, Vec.dot]; ring

theorem inCone_smul {c a p : Vec} {k t : ℝ} (hk : k ≠ 0) : InCone c (Vec.smul k a) t p ↔ InCone c a t p := by
  constructor
  · rintro ⟨s, w, hd, hlt⟩
    refine ⟨s * k, w, (decomp_smul hk).1 hd, ?_⟩
    rw [sq_smul] at hlt
    calc _ < _ := hlt
      _ = _ := by ring
  · rintro ⟨s, w, hd, hlt⟩
    refine ⟨s / k, w, (decomp_smul hk).2 (by rwa [div_mul_cancel₀ _ hk]), ?_⟩
    rw [sq_smul]
    calc _ < _ := hlt
      _ = _ := by field_simp

theorem outCone_smul {c a p : Vec} {k t : ℝ} (hk : k ≠ 0) : OutCone c (Vec.smul k a) t p ↔ OutCone c a t p := by
  constructor
  · rintro ⟨s, w, hd, hlt⟩
    refine ⟨s * k, w, (decomp_smul hk).1 hd, ?_⟩
    rw [sq_smul] at hlt
    calc _ = _ := by ring
      _ < _ := hlt
  · rintro ⟨s, w, hd, hlt⟩
    refine ⟨s / k, w, (decomp_smul hk).2 (by rwa [div_mul_cancel₀ _ hk]), ?_⟩
    rw [sq_smul]
    calc _ = _ := by field_simp
      _ < _ := hlt

theorem getAngle_smul {a : Vec} (b : Vec) {k : ℝ} (hk : 0 < k) : getAngle (Vec.smul k a) b = getAngle a b := by
  have hl : (Vec.smul k a).len = k * a.len := by
    unfold Vec.len; rw [sq_smul, Real.sqrt_mul (sq_nonneg k), Real.sqrt_sq hk.le]
  have hd : (Vec.smul k a).dot b = k * a.dot b := by simp only [Vec.smul, Vec.dot]; ring
  unfold getAngle
  rw [hl, hd, mul_assoc, mul_div_mul_left _ _ hk.ne']

theorem isParallel_smul {a : Vec} (b : Vec) {k : ℝ} (hk : 0 < k) (t : ℝ) :
    isParallel (Vec.smul k a) b t ↔ isParallel a b t := by
  unfold isParallel; rw [getAngle_smul b hk]
theorem isOpposite_smul {a : Vec} (b : Vec) {k : ℝ} (hk : 0 < k) (t : ℝ) :
    isOpposite (Vec.smul k a) b t ↔ isOpposite a b t := by
  unfold isOpposite; rw [getAngle_smul _ hk]

theorem isParallel_self {a : Vec} (h : a.sq = 1) {t : ℝ} (ht : 0 < t) : isParallel a a t := by
  left
  unfold getAngle
  have : a.dot a = 1 := h
  rw [unit_len h, this]; norm_num; exact ht
theorem isParallel_neg {a : Vec} (h : a.sq = 1) {t : ℝ} (ht : 0 < t) : isParallel a.neg a t := by
  right
  unfold isSameValue getAngle
  have : a.neg.dot a = -1 := by
    have : a.neg.dot a = -a.sq := by simp only [Vec.neg, Vec.dot, Vec.sq]; ring
    rw [this, h]
  rw [neg_len, unit_len h, this]
  norm_num
  rw [abs_of_pos Real.pi_pos, sub_self, abs_zero]; exact ht

theorem vX_sq : vX.sq = 1 := by norm_num [vX, Vec.sq, Vec.dot]
theorem vY_sq : vY.sq = 1 := by norm_num [vY, Vec.sq, Vec.dot]
theorem vZ_sq : vZ.sq = 1 := by norm_num [vZ, Vec.sq, Vec.dot]

/-- an axis which the code does not take for X is slanted -/
theorem slanted_of_not {a : Vec} (h : a.sq = 1) {t : ℝ} (ht : 0 < t) (hn : ¬ isParallel a vX t) : Slanted a := by
  by_contra hc
  unfold Slanted at hc
  push Not at hc
  apply hn
  have hx : a.x * a.x = 1 := by
    simp only [Vec.sq, Vec.dot] at h; rw [hc.1, hc.2] at h; linarith
  rcases mul_self_eq_one_iff.1 hx with h1 | h1
  · have : a = vX := by ext <;> simp [vX, h1, hc.1, hc.2]
    rw [this]; exact isParallel_self vX_sq ht
  · have : a = vX.neg := by ext <;> simp [vX, Vec.neg, h1, hc.1, hc.2]
    rw [this]; exact isParallel_neg vX_sq ht

theorem slanted_smul {a : Vec} {k : ℝ} (hk : k ≠ 0) (h : Slanted a) : Slanted (Vec.smul k a) := by
  rcases h with h | h
  · left; simp [Vec.smul, hk, h]
  · right; simp [Vec.smul, hk, h]

theorem sheet_same (t : Tol) {e : Vec} (he : e.sq = 1) (h1 : t.angle ≤ 1) :
    sheetOf t (Vec.smul (1 / 10) e) e = 1 := by
  unfold sheetOf
  rw [if_neg]
  rw [isOpposite_smul _ (by norm_num)]
  exact isOpposite_self he h1

theorem sheet_opp (t : Tol) {e : Vec} (he : e.sq = 1) (h0 : 0 < t.angle) :
    sheetOf t (Vec.smul (1 / 10) e.neg) e = -1 := by
  unfold sheetOf
  rw [if_pos]
  rw [isOpposite_smul _ (by norm_num), isOpposite_comm]
  exact isOpposite_neg he h0

theorem sameInCm_trans_iff {s r : Region} {c : Region} (h : SameInCm s c) (h2 : ∀ p, (c.neg p ↔ r.neg p) ∧ (c.pos p ↔ r.pos p)) :
    SameInCm s r := fun p => ⟨(h p).1.trans (h2 _).1, (h p).2.trans (h2 _).2⟩

theorem threePoint_cm (p1 p2 p3 a : Vec) (d : ℝ) :
    ThreePoint p1 p2 p3 a d ↔ ThreePoint (Vec.smul (1 / 10) p1) (Vec.smul (1 / 10) p2) (Vec.smul (1 / 10) p3) a (d / 10) := by
  have e : ∀ p, a.dot (Vec.smul (1 / 10) p) = a.dot p / 10 := by
    intro p; simp only [Vec.dot, Vec.smul]; ring
  unfold ThreePoint
  rw [e, e, e]
  have e0 : d / 10 = 0 ↔ d = 0 := by constructor <;> intro h <;> linarith
  have e1 : ∀ x, x / 10 = d / 10 ↔ x = d := by intro x; constructor <;> intro h <;> linarith
  have e2 : 0 ≤ d / 10 ↔ 0 ≤ d := by constructor <;> intro h <;> linarith
  rw [e0, e1, e1, e1, e2]

theorem threePointRegion_cm (p1 p2 p3 : Vec) : SameInCm (threePointRegion p1 p2 p3)
    (threePointRegion (Vec.smul (1 / 10) p1) (Vec.smul (1 / 10) p2) (Vec.smul (1 / 10) p3)) := by
  intro p
  have e : ∀ a p, Vec.dot a (Vec.smul (1 / 10) p) = a.dot p / 10 := by
    intro a p; simp only [Vec.dot, Vec.smul]; ring
  simp only [threePointRegion]
  constructor
  · constructor
    · rintro ⟨a, d, h, hlt⟩; exact ⟨a, d / 10, (threePoint_cm ..).1 h, by rw [e]; linarith⟩
    · rintro ⟨a, d, h, hlt⟩
      refine ⟨a, d * 10, (threePoint_cm ..).2 (by rwa [mul_div_assoc, div_self (by norm_num), mul_one]), ?_⟩
      rw [e] at hlt; linarith
  · constructor
    · rintro ⟨a, d, h, hlt⟩; exact ⟨a, d / 10, (threePoint_cm ..).1 h, by rw [e]; linarith⟩
    · rintro ⟨a, d, h, hlt⟩
      refine ⟨a, d * 10, (threePoint_cm ..).2 (by rwa [mul_div_assoc, div_self (by norm_num), mul_one]), ?_⟩
      rw [e] at hlt; linarith

theorem signedMajor_cm (s : TorP) : s.signedMajor (s.major * (1 / 10)) = s.signedMajor s.major / 10 := by
  unfold TorP.signedMajor
  split <;> ring

/-- the common torus argument: `h2` is the height, `d2` the squared distance to the axis, at the point in cm -/
theorem tor_cm {c a : Vec} (ha : a.sq = 1) (R : ℝ) {r : ℝ} (hr : 0 < r) (h2 d2 : Vec → ℝ)
    (hh : ∀ p, h2 (Vec.smul (1 / 10) p) = 1 / 100 * height c a p ^ 2)
    (hd : ∀ p, d2 (Vec.smul (1 / 10) p) = 1 / 100 * axDist c a p) :
    SameInCm (torRegion c a R r) (.ofFun fun p => h2 p / (r * (1 / 10)) ^ 2 +
      (Real.sqrt (d2 p) - R / 10) ^ 2 / (r * (1 / 10)) ^ 2 - 1) := by
  apply same_of_fun (k := r ^ 2) (by positivity) (tor_neg_unit ha R r) (tor_pos_unit ha R r)
  intro p
  have hs : Real.sqrt (1 / 100 * axDist c a p) = Real.sqrt (axDist c a p) / 10 := by
    rw [show (1 / 100 : ℝ) * axDist c a p = axDist c a p / 10 ^ 2 by ring, Real.sqrt_div' _ (by norm_num),
      Real.sqrt_sq (by norm_num)]
  simp only [hh, hd, hs]
  field_simp
  ring

end Geouned.Geom
