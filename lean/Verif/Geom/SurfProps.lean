import Verif.Geom.Surf
import Mathlib.Analysis.Complex.Trigonometric
import Mathlib.Analysis.Real.Pi.Bounds
/-!
# Properties C39 (same-surface tests are symmetric) and C46 (surfaces identified for every tolerance are one surface)
-/
namespace Geouned.Geom

theorem dot_comm (a b : Vec) : a.dot b = b.dot a := by simp only [Vec.dot]; ring
theorem getAngle_comm (a b : Vec) : getAngle a b = getAngle b a := by
  unfold getAngle; rw [dot_comm, mul_comm]
theorem neg_len (a : Vec) : a.neg.len = a.len := by
  simp only [Vec.len, Vec.sq, Vec.dot, Vec.neg]; congr 1; ring
theorem isOpposite_comm (a b : Vec) (t : ℝ) : isOpposite a b t ↔ isOpposite b a t := by
  have : getAngle a b.neg = getAngle b a.neg := by
    unfold getAngle; rw [neg_len, neg_len, mul_comm a.len]
    congr 2; simp only [Vec.dot, Vec.neg]; ring
  unfold isOpposite; rw [this]
theorem isParallel_comm (a b : Vec) (t : ℝ) : isParallel a b t ↔ isParallel b a t := by
  unfold isParallel; rw [getAngle_comm]
theorem isSameValue_comm (a b t : ℝ) : isSameValue a b t ↔ isSameValue b a t := by
  unfold isSameValue; rw [abs_sub_comm]
theorem isEqual_comm (a b : Vec) (t : ℝ) : a.isEqual b t ↔ b.isEqual a t := by
  have : (a.sub b).len = (b.sub a).len := by
    simp only [Vec.len, Vec.sq, Vec.dot, Vec.sub]; congr 1; ring
  unfold Vec.isEqual; rw [this]

/-- C39, full statement: none of the five comparisons depends on the order -/
def C39_statement : Prop := ∀ t : Tol,
  (∀ a b, isSamePlane t a b ↔ isSamePlane t b a) ∧ (∀ a b, isSameCyl t a b ↔ isSameCyl t b a) ∧
  (∀ a b, isSameCone t a b ↔ isSameCone t b a) ∧ (∀ a b, isSameSph t a b ↔ isSameSph t b a) ∧
  (∀ a b, isSameTor t a b ↔ isSameTor t b a)

/-- C39 for spheres, cones and tori: every tolerance setting. -/
theorem C39_sphere_cone_torus_partial (t : Tol) :
    (∀ a b, isSameSph t a b ↔ isSameSph t b a) ∧ (∀ a b, isSameCone t a b ↔ isSameCone t b a) ∧
    (∀ a b, isSameTor t a b ↔ isSameTor t b a) := by
  refine ⟨fun a b => ?_, fun a b => ?_, fun a b => ?_⟩
  · simp only [isSameSph]
    rw [isSameValue_comm, isEqual_comm, max_comm b.radius, max_comm b.center.len]
  · simp only [isSameCone]
    rw [isSameValue_comm, isEqual_comm, isParallel_comm, max_comm a.apex.len]
  · simp only [isSameTor]
    rw [isSameValue_comm a.major, isSameValue_comm a.minor, isEqual_comm, isParallel_comm, dot_comm, max_comm a.major,
      max_comm a.minor, max_comm a.center.len]

/-- C39 for planes with absolute tolerances. -/
theorem C39_plane_partial (t : Tol) (h : t.relativeTol = false) (a b : PlaneP) : isSamePlane t a b ↔ isSamePlane t b a := by
  simp only [isSamePlane, Tol.scaled, h]
  rw [isParallel_comm]
  by_cases ho : isOpposite a.axis b.axis t.pln_angle
  · rw [if_pos ho, if_pos ((isOpposite_comm _ _ _).1 ho)]
    have : a.axis.dot a.pos - -b.axis.dot b.pos = b.axis.dot b.pos - -a.axis.dot a.pos := by ring
    rw [this]
  · rw [if_neg ho, if_neg (fun hc => ho ((isOpposite_comm _ _ _).2 hc)), abs_sub_comm]

/-- C39 for cylinders whose axes are the same vector or opposite vectors. -/
theorem C39_cylinder_partial (t : Tol) (a b : CylP) (h : b.axis = a.axis ∨ b.axis = a.axis.neg) :
    isSameCyl t a b ↔ isSameCyl t b a := by
  simp only [isSameCyl]
  rw [isParallel_comm]
  have h1 : isInTol (b.radius - a.radius) = isInTol (a.radius - b.radius) := by
    unfold isInTol; funext x y; rw [abs_sub_comm]
  have h2 : (a.axis.cross (a.center.sub b.center)).len = (b.axis.cross (b.center.sub a.center)).len := by
    rcases h with h | h <;> rw [h] <;>
      simp only [Vec.len, Vec.sq, Vec.dot, Vec.sub, Vec.cross, Vec.neg] <;> congr 1 <;> ring
  rw [h1, h2, max_comm b.radius, max_comm a.center.len]

theorem arccos_four_fifths : Real.arccos (4 / 5) < 1 := by
  have h1 : Real.cos 1 < 4 / 5 := by
    have := Real.cos_one_le
    linarith
  have h2 : Real.arccos (4 / 5) < Real.arccos (Real.cos 1) :=
    Real.strictAntiOn_arccos ⟨by linarith [Real.neg_one_le_cos 1], Real.cos_le_one 1⟩ ⟨by norm_num, by norm_num⟩ h1
  rwa [Real.arccos_cos (by norm_num) (by linarith [Real.pi_gt_three])] at h2

theorem vlen_eq {a : Vec} {l : ℝ} (hl : 0 ≤ l) (h : a.sq = l ^ 2) : a.len = l := by
  rw [Vec.len, h, Real.sqrt_sq hl]

/-- C39 is false of the code (1): with relative tolerances the plane test uses only the size of the second plane: a large
plane found near a small one is new, the other way round it is the same. -/
theorem C39_plane_violated : ∃ (t : Tol) (a b : PlaneP), t.relativeTol = true ∧ t.pln_distance = 1 / 10000 ∧
    isSamePlane t a b ∧ ¬ isSamePlane t b a := by
  let t : Tol := ⟨1 / 10000, 1 / 10000, 1, 1, 1, 1, 1, 1, 1, 1, true⟩
  let z : Vec := ⟨0, 0, 1⟩
  let a : PlaneP := { pos := ⟨0, 0, 0⟩, axis := z, dimL1 := 1, dimL2 := 1 }
  let b : PlaneP := { pos := ⟨0, 0, 1 / 1000⟩, axis := z, dimL1 := 1000, dimL2 := 1000 }
  have hz : z.len = 1 := vlen_eq (by norm_num) (by norm_num [z, Vec.sq, Vec.dot])
  have hang : getAngle z z = 0 := by
    unfold getAngle; rw [hz]; norm_num [z, Vec.dot]
  have hnang : getAngle z z.neg = Real.pi := by
    unfold getAngle; rw [neg_len, hz]; norm_num [z, Vec.dot, Vec.neg]
  have hpar : isParallel z z (1 / 10000) := .inl (by rw [hang]; norm_num)
  have hopp : ¬ isOpposite z z (1 / 10000) := by
    unfold isOpposite; rw [hnang, abs_of_pos Real.pi_pos]; linarith [Real.pi_gt_three]
  refine ⟨t, a, b, rfl, rfl, ?_, ?_⟩
  · refine ⟨hpar, ?_⟩
    simp only [a, b, t]
    rw [if_neg hopp]
    right; norm_num [z, Vec.dot, Tol.scaled]
  · rintro ⟨_, h⟩
    simp only [a, b, t] at h
    rw [if_neg hopp] at h
    rcases h with h | h <;> norm_num [z, Vec.dot, Tol.scaled] at h

/-- C39 is false of the code (2): the distance of two cylinder axes is measured with the first axis only, so for axes that
are parallel only within the tolerance the answer depends on the order. -/
theorem C39_cylinder_violated : ∃ (t : Tol) (a b : CylP), t.relativeTol = false ∧ a.axis.sq = 1 ∧ b.axis.sq = 1 ∧
    isSameCyl t a b ∧ ¬ isSameCyl t b a := by
  let t : Tol := ⟨1, 1, 1, 1, 1, 1, 1, 1, 1, 1, false⟩
  let a : CylP := ⟨⟨0, 0, 0⟩, ⟨0, 0, 1⟩, 5⟩
  let b : CylP := ⟨⟨0, 0, 10⟩, ⟨3 / 5, 0, 4 / 5⟩, 5⟩
  have ha : a.axis.len = 1 := vlen_eq (by norm_num) (by norm_num [a, Vec.sq, Vec.dot])
  have hb : b.axis.len = 1 := vlen_eq (by norm_num) (by norm_num [b, Vec.sq, Vec.dot])
  have hang : getAngle a.axis b.axis = Real.arccos (4 / 5) := by
    unfold getAngle; rw [ha, hb]; congr 1; norm_num [a, b, Vec.dot]
  have hpar : isParallel a.axis b.axis 1 :=
    .inl (by rw [hang, abs_of_nonneg (Real.arccos_nonneg _)]; exact arccos_four_fifths)
  have hrad : isInTol (0 : ℝ) 1 ((1 / 2) * 1) := .inr (by norm_num)
  have e0 : b.radius - a.radius = 0 := by norm_num [a, b]
  have e0' : a.radius - b.radius = 0 := by norm_num [a, b]
  refine ⟨t, a, b, rfl, by norm_num [a, Vec.sq, Vec.dot], by norm_num [b, Vec.sq, Vec.dot], ?_, ?_⟩
  · refine ⟨by rw [e0]; exact hrad, hpar, ?_⟩
    right
    have : (a.axis.cross (a.center.sub b.center)).len = 0 :=
      vlen_eq le_rfl (by norm_num [a, b, Vec.cross, Vec.sub, Vec.sq, Vec.dot])
    rw [this]; norm_num [t, Tol.scaled]
  · have : (b.axis.cross (b.center.sub a.center)).len = 6 :=
      vlen_eq (by norm_num) (by norm_num [a, b, Vec.cross, Vec.sub, Vec.sq, Vec.dot])
    rintro ⟨_, _, h⟩
    rw [this] at h
    rcases h with h | h <;> norm_num [t, Tol.scaled] at h

theorem C39_violated : ¬ C39_statement := by
  intro h
  obtain ⟨t, a, b, _, _, h1, h2⟩ := C39_plane_violated
  exact h2 (((h t).1 a b).1 h1)

/-! ### C46 -/

/-- an absolute tolerance setting with every tolerance equal to `e` -/
def absTol (e : ℝ) : Tol := ⟨e, e, e, e, e, e, e, e, e, e, false⟩

theorem angle_cases {a b : Vec} (h : ∀ e > 0, isParallel a b e) : getAngle a b = 0 ∨ getAngle a b = Real.pi := by
  by_contra hc
  push Not at hc
  have h0 := Real.arccos_nonneg (a.dot b / (a.len * b.len))
  change 0 ≤ getAngle a b at h0
  have h1 : 0 < getAngle a b := lt_of_le_of_ne h0 (Ne.symm hc.1)
  have h2 : 0 < |getAngle a b - Real.pi| := abs_pos.2 (sub_ne_zero.2 hc.2)
  have := h (min (getAngle a b) |getAngle a b - Real.pi|) (lt_min h1 h2)
  unfold isParallel isSameValue at this
  rw [abs_of_pos h1] at this
  rcases this with h | h
  · exact absurd (lt_of_lt_of_le h (min_le_left _ _)) (lt_irrefl _)
  · exact absurd (lt_of_lt_of_le h (min_le_right _ _)) (lt_irrefl _)

theorem unit_len {a : Vec} (h : a.sq = 1) : a.len = 1 := vlen_eq (by norm_num) (by rw [h]; norm_num)

theorem unit_eq_of_dot {a b : Vec} (ha : a.sq = 1) (hb : b.sq = 1) (h : 1 ≤ a.dot b) : b = a := by
  have : (a.sub b).sq = 2 - 2 * a.dot b := by
    simp only [Vec.sq, Vec.dot, Vec.sub] at *; linarith
  have h0 := sq_nonneg' (a.sub b)
  have hz : (a.sub b).sq = 0 := by linarith
  simp only [Vec.sq, Vec.dot, Vec.sub] at hz
  have x := mul_self_nonneg (a.x - b.x)
  have y := mul_self_nonneg (a.y - b.y)
  have z := mul_self_nonneg (a.z - b.z)
  have hx := mul_self_eq_zero.1 (show (a.x - b.x) * (a.x - b.x) = 0 by linarith)
  have hy := mul_self_eq_zero.1 (show (a.y - b.y) * (a.y - b.y) = 0 by linarith)
  have hz := mul_self_eq_zero.1 (show (a.z - b.z) * (a.z - b.z) = 0 by linarith)
  ext <;> linarith

/-- unit vectors that are parallel for every tolerance are equal or opposite -/
theorem parallel_unit {a b : Vec} (ha : a.sq = 1) (hb : b.sq = 1) (h : ∀ e > 0, isParallel a b e) :
    (b = a ∧ getAngle a b = 0) ∨ (b = a.neg ∧ getAngle a b = Real.pi) := by
  have hd : a.dot b / (a.len * b.len) = a.dot b := by rw [unit_len ha, unit_len hb]; simp
  rcases angle_cases h with h0 | h0
  · refine .inl ⟨?_, h0⟩
    unfold getAngle at h0
    rw [hd, Real.arccos_eq_zero] at h0
    exact unit_eq_of_dot ha hb h0
  · refine .inr ⟨?_, h0⟩
    unfold getAngle at h0
    rw [hd, Real.arccos_eq_pi] at h0
    have h1 : 1 ≤ a.neg.dot b := by simp only [Vec.dot, Vec.neg] at *; linarith
    exact unit_eq_of_dot (by rw [← ha]; simp only [Vec.sq, Vec.dot, Vec.neg]; ring) hb h1

theorem small_zero {x : ℝ} (hx : 0 ≤ x) (h : ∀ e > 0, x ≤ e) : x = 0 := by
  by_contra hc
  have : 0 < x := lt_of_le_of_ne hx (Ne.symm hc)
  have := h (x / 2) (by linarith)
  linarith

theorem isInTol_le {v t : ℝ} (ht : 0 < t) (h : isInTol v t ((1 / 2) * t)) : |v| ≤ t := by
  rcases h with h | h <;> linarith

theorem isEqual_all {a b : Vec} (h : ∀ e > 0, a.isEqual b e) : a = b := by
  have : (a.sub b).len = 0 := small_zero (Real.sqrt_nonneg _) h
  have hz : (a.sub b).sq = 0 := by rw [← len_sq, this]; norm_num
  simp only [Vec.sq, Vec.dot, Vec.sub] at hz
  have x := mul_self_nonneg (a.x - b.x)
  have y := mul_self_nonneg (a.y - b.y)
  have z := mul_self_nonneg (a.z - b.z)
  have hx := mul_self_eq_zero.1 (show (a.x - b.x) * (a.x - b.x) = 0 by linarith)
  have hy := mul_self_eq_zero.1 (show (a.y - b.y) * (a.y - b.y) = 0 by linarith)
  have hz := mul_self_eq_zero.1 (show (a.z - b.z) * (a.z - b.z) = 0 by linarith)
  ext <;> linarith

/-- the negative side of a plane -/
def PlaneP.neg (s : PlaneP) (p : Vec) : Prop := s.axis.dot (p.sub s.pos) < 0
def PlaneP.positive (s : PlaneP) (p : Vec) : Prop := 0 < s.axis.dot (p.sub s.pos)

theorem isOpposite_self {a : Vec} (ha : a.sq = 1) {e : ℝ} (he : e ≤ 1) : ¬ isOpposite a a e := by
  unfold isOpposite getAngle
  rw [neg_len, unit_len ha]
  have : a.dot a.neg = -1 := by
    have : a.dot a.neg = - a.sq := by simp only [Vec.dot, Vec.neg, Vec.sq]; ring
    rw [this, ha]
  rw [this]
  norm_num
  rw [abs_of_pos Real.pi_pos]
  linarith [Real.pi_gt_three]

theorem isOpposite_neg {a : Vec} (ha : a.sq = 1) {e : ℝ} (he : 0 < e) : isOpposite a a.neg e := by
  unfold isOpposite getAngle
  rw [neg_len, neg_len, unit_len ha]
  have : a.dot a.neg.neg = 1 := by
    have : a.dot a.neg.neg = a.sq := by simp only [Vec.dot, Vec.neg, Vec.sq]; ring
    rw [this, ha]
  rw [this]
  norm_num
  exact he

/-- C46, planes: planes identified however small the tolerances are one plane, with the same sides, or with exchanged
sides when (and only when) the code sees their axes as opposite. -/
theorem C46_same_plane (s1 s2 : PlaneP) (h1 : s1.axis.sq = 1) (h2 : s2.axis.sq = 1)
    (h : ∀ e > 0, isSamePlane (absTol e) s1 s2) :
    (∀ e, 0 < e → e ≤ 1 → (¬ isOpposite s1.axis s2.axis e ∧ ∀ p, (s1.neg p ↔ s2.neg p) ∧ (s1.positive p ↔ s2.positive p)) ∨
      (isOpposite s1.axis s2.axis e ∧ ∀ p, (s1.neg p ↔ s2.positive p) ∧ (s1.positive p ↔ s2.neg p))) := by
  intro e he he1
  have hpar : ∀ e > 0, isParallel s1.axis s2.axis e := fun e he => (h e he).1
  have exp : ∀ (s : PlaneP) p, s.axis.dot (p.sub s.pos) = s.axis.dot p - s.axis.dot s.pos := by
    intro s p; simp only [Vec.dot, Vec.sub]; ring
  rcases parallel_unit h1 h2 hpar with ⟨hax, _⟩ | ⟨hax, _⟩
  · left
    rw [hax]
    refine ⟨isOpposite_self h1 he1, ?_⟩
    have hd : s1.axis.dot s1.pos = s2.axis.dot s2.pos := by
      have : |s1.axis.dot s1.pos - s2.axis.dot s2.pos| = 0 := by
        apply small_zero (abs_nonneg _)
        intro e he
        have h3 := (h (min e 1) (lt_min he one_pos)).2
        have hno : ¬ isOpposite s1.axis s2.axis (absTol (min e 1)).pln_angle := by
          rw [hax]; exact isOpposite_self h1 (min_le_right _ _)
        simp only [if_neg hno] at h3
        have h4 := isInTol_le (lt_min he one_pos) h3
        rw [abs_abs] at h4
        exact h4.trans (min_le_left _ _)
      have := abs_eq_zero.1 this
      linarith
    intro p
    unfold PlaneP.neg PlaneP.positive
    rw [exp s1, exp s2, hd, hax]
    exact ⟨Iff.rfl, Iff.rfl⟩
  · right
    rw [hax]
    refine ⟨isOpposite_neg h1 he, ?_⟩
    have hd : s1.axis.dot s1.pos = -(s2.axis.dot s2.pos) := by
      have : |s1.axis.dot s1.pos - -(s2.axis.dot s2.pos)| = 0 := by
        apply small_zero (abs_nonneg _)
        intro e he
        have h3 := (h e he).2
        have hno : isOpposite s1.axis s2.axis (absTol e).pln_angle := by
          rw [hax]; exact isOpposite_neg h1 he
        simp only [if_pos hno] at h3
        have h4 := isInTol_le he h3
        rw [abs_abs] at h4
        exact h4
      have := abs_eq_zero.1 this
      linarith
    intro p
    unfold PlaneP.neg PlaneP.positive
    have hn : s1.axis.neg.dot p = -(s1.axis.dot p) := by simp only [Vec.dot, Vec.neg]; ring
    rw [exp s1, exp s2, hd, hax, hn]
    constructor <;> constructor <;> intro h <;> linarith

/-- C46, cylinders. -/
theorem C46_same_cylinder (s1 s2 : CylP) (h1 : s1.axis.sq = 1) (h2 : s2.axis.sq = 1)
    (h : ∀ e > 0, isSameCyl (absTol e) s1 s2) (p : Vec) :
    (InCyl s1.center s1.axis s1.radius p ↔ InCyl s2.center s2.axis s2.radius p) ∧
    (OutCyl s1.center s1.axis s1.radius p ↔ OutCyl s2.center s2.axis s2.radius p) := by
  have hr : s2.radius = s1.radius := by
    have : |s2.radius - s1.radius| = 0 := by
      apply small_zero (abs_nonneg _)
      intro e he
      exact isInTol_le he (h e he).1
    have := abs_eq_zero.1 this
    linarith
  have hpar : ∀ e > 0, isParallel s1.axis s2.axis e := fun e he => (h e he).2.1
  have hcr : (s1.axis.cross (s1.center.sub s2.center)).len = 0 := by
    apply small_zero (Real.sqrt_nonneg _)
    intro e he
    have := isInTol_le he (h e he).2.2
    exact (le_abs_self _).trans this
  have hcsq : (s1.axis.cross (s1.center.sub s2.center)).sq = 0 := by rw [← len_sq, hcr]; norm_num
  -- the centres differ by a multiple of the axis
  obtain ⟨k, hk⟩ : ∃ k, s2.center = onAxis s1.center s1.axis k := by
    refine ⟨-(s1.axis.dot (s1.center.sub s2.center)), ?_⟩
    set w := s1.center.sub s2.center with hw
    have hx : (s1.axis.cross w).x = 0 ∧ (s1.axis.cross w).y = 0 ∧ (s1.axis.cross w).z = 0 := by
      simp only [Vec.sq, Vec.dot] at hcsq
      have a := mul_self_nonneg (s1.axis.cross w).x
      have b := mul_self_nonneg (s1.axis.cross w).y
      have c := mul_self_nonneg (s1.axis.cross w).z
      exact ⟨mul_self_eq_zero.1 (by linarith), mul_self_eq_zero.1 (by linarith), mul_self_eq_zero.1 (by linarith)⟩
    obtain ⟨hx, hy, hz⟩ := hx
    simp only [Vec.cross] at hx hy hz
    simp only [Vec.sq, Vec.dot] at h1
    have wx : w.x = s1.center.x - s2.center.x := rfl
    have wy : w.y = s1.center.y - s2.center.y := rfl
    have wz : w.z = s1.center.z - s2.center.z := rfl
    have gx : w.x = (s1.axis.dot w) * s1.axis.x := by
      simp only [Vec.dot]; linear_combination (-w.x) * h1 + s1.axis.z * hy - s1.axis.y * hz
    have gy : w.y = (s1.axis.dot w) * s1.axis.y := by
      simp only [Vec.dot]; linear_combination (-w.y) * h1 - s1.axis.z * hx + s1.axis.x * hz
    have gz : w.z = (s1.axis.dot w) * s1.axis.z := by
      simp only [Vec.dot]; linear_combination (-w.z) * h1 + s1.axis.y * hx - s1.axis.x * hy
    ext <;> simp only [onAxis, Vec.add, Vec.smul] <;> linarith
  have haxis : ∃ sg : ℝ, sg * sg = 1 ∧ s2.axis = Vec.smul sg s1.axis := by
    rcases parallel_unit h1 h2 hpar with ⟨ha, _⟩ | ⟨ha, _⟩
    · exact ⟨1, by norm_num, by rw [ha]; ext <;> simp [Vec.smul]⟩
    · exact ⟨-1, by norm_num, by rw [ha]; ext <;> simp [Vec.smul, Vec.neg]⟩
  obtain ⟨sg, hsg, hax⟩ := haxis
  have hpt : ∀ t, onAxis s2.center s2.axis t = onAxis s1.center s1.axis (k + sg * t) := by
    intro t; rw [hk, hax]; ext <;> simp only [onAxis, Vec.add, Vec.smul] <;> ring
  have hpt' : ∀ t, onAxis s1.center s1.axis t = onAxis s2.center s2.axis (sg * (t - k)) := by
    intro t
    rw [hpt]
    congr 1
    linear_combination (k - t) * hsg
  constructor
  · constructor
    · rintro ⟨t, ht⟩; exact ⟨sg * (t - k), by rw [← hpt', hr]; exact ht⟩
    · rintro ⟨t, ht⟩; exact ⟨k + sg * t, by rw [← hpt, ← hr]; exact ht⟩
  · constructor
    · intro ht t; rw [hpt, hr]; exact ht _
    · intro ht t; rw [hpt', ← hr]; exact ht _

/-- C46, spheres: same centre and radius. -/
theorem C46_same_sphere (s1 s2 : SphP) (h : ∀ e > 0, isSameSph (absTol e) s1 s2) :
    s1.center = s2.center ∧ s1.radius = s2.radius := by
  have key : ∀ e > 0, |s1.radius - s2.radius| < e ∧ s1.center.isEqual s2.center e := fun e he => h e he
  refine ⟨isEqual_all (fun e he => (key e he).2), ?_⟩
  have := abs_eq_zero.1 (small_zero (abs_nonneg _) (fun e he => (key e he).1.le))
  linarith

/-- C46, tori: same centre, axis and radii. -/
theorem C46_same_torus (s1 s2 : TorP) (h1 : s1.axis.sq = 1) (h2 : s2.axis.sq = 1)
    (h : ∀ e > 0, isSameTor (absTol e) s1 s2) :
    s2.axis = s1.axis ∧ s1.center = s2.center ∧ s1.major = s2.major ∧ s1.minor = s2.minor := by
  have key : ∀ e > 0, isParallel s1.axis s2.axis e ∧ ¬ s1.axis.dot s2.axis < 0 ∧ |s1.major - s2.major| < e ∧
      |s1.minor - s2.minor| < e ∧ s1.center.isEqual s2.center e := fun e he => h e he
  refine ⟨?_, isEqual_all (fun e he => (key e he).2.2.2.2), ?_, ?_⟩
  · rcases parallel_unit h1 h2 (fun e he => (key e he).1) with ⟨ha, _⟩ | ⟨ha, _⟩
    · exact ha
    · exfalso
      apply (key 1 one_pos).2.1
      rw [ha]
      simp only [Vec.sq, Vec.dot] at h1
      simp only [Vec.dot, Vec.neg]
      linarith
  · have := abs_eq_zero.1 (small_zero (abs_nonneg _) (fun e he => (key e he).2.2.1.le)); linarith
  · have := abs_eq_zero.1 (small_zero (abs_nonneg _) (fun e he => (key e he).2.2.2.1.le)); linarith

/-- C46, cones: same apex and half-angle and, as double cones, the same regions (the axes may be opposite). -/
theorem C46_same_cone_partial (s1 s2 : ConeP) (h1 : s1.axis.sq = 1) (h2 : s2.axis.sq = 1)
    (h : ∀ e > 0, isSameCone (absTol e) s1 s2) :
    s1.apex = s2.apex ∧ s1.semiAngle = s2.semiAngle ∧ (s2.axis = s1.axis ∨ s2.axis = s1.axis.neg) ∧
    ∀ k p, (InCone s1.apex s1.axis k p ↔ InCone s2.apex s2.axis k p) := by
  have key : ∀ e > 0, |s1.semiAngle - s2.semiAngle| < e ∧ isParallel s1.axis s2.axis e ∧ s1.apex.isEqual s2.apex e := fun e he => h e he
  have hapex := isEqual_all (fun e he => (key e he).2.2)
  have hax : s2.axis = s1.axis ∨ s2.axis = s1.axis.neg := by
    rcases parallel_unit h1 h2 (fun e he => (key e he).2.1) with ⟨ha, _⟩ | ⟨ha, _⟩
    · exact .inl ha
    · exact .inr ha
  refine ⟨hapex, ?_, hax, ?_⟩
  · have := abs_eq_zero.1 (small_zero (abs_nonneg _) (fun e he => (key e he).1.le)); linarith
  · intro k p
    rw [hapex]
    rcases hax with ha | ha
    · rw [ha]
    · rw [ha]
      have hs : s1.axis.neg.sq = s1.axis.sq := by simp only [Vec.sq, Vec.dot, Vec.neg]; ring
      constructor
      · rintro ⟨t, w, ⟨hd, ho⟩, hlt⟩
        refine ⟨-t, w, ⟨?_, ?_⟩, ?_⟩
        · rw [hd]; ext <;> simp [Vec.add, Vec.smul, Vec.neg]
        · simp only [Vec.dot, Vec.neg] at *; linarith
        · rw [hs, neg_sq]; exact hlt
      · rintro ⟨t, w, ⟨hd, ho⟩, hlt⟩
        refine ⟨-t, w, ⟨?_, ?_⟩, ?_⟩
        · rw [hd]; ext <;> simp [Vec.add, Vec.smul, Vec.neg]
        · simp only [Vec.dot, Vec.neg] at *; linarith
        · rw [hs] at hlt; rw [neg_sq]; exact hlt

/-- inside the sheet of a cone on the side its axis points to -/
def InSheet (c a : Vec) (k : ℝ) (p : Vec) : Prop := InCone c a k p ∧ 0 < a.dot (p.sub c)

/-- C46 is false of the code for the one-sheet cones that are written (K cards with a sheet number): two cones with
opposite axes are always identified, and their sheets are disjoint. -/
theorem C46_same_cone_violated : ∃ s1 s2 : ConeP, s1.axis.sq = 1 ∧ s2.axis.sq = 1 ∧
    (∀ e > 0, isSameCone (absTol e) s1 s2) ∧
    ∃ p, InSheet s1.apex s1.axis (Real.tan s1.semiAngle) p ∧ ¬ InSheet s2.apex s2.axis (Real.tan s2.semiAngle) p := by
  let z : Vec := ⟨0, 0, 1⟩
  have hz : z.sq = 1 := by norm_num [z, Vec.sq, Vec.dot]
  refine ⟨⟨⟨0, 0, 0⟩, z, Real.pi / 4⟩, ⟨⟨0, 0, 0⟩, z.neg, Real.pi / 4⟩, hz,
    by norm_num [z, Vec.neg, Vec.sq, Vec.dot], ?_, ⟨0, 0, 1⟩, ⟨⟨1, ⟨0, 0, 0⟩, ⟨?_, ?_⟩, ?_⟩, ?_⟩, ?_⟩
  · intro e he
    have hpar : isParallel z z.neg e := by
      right
      unfold isSameValue getAngle
      rw [neg_len, unit_len hz]
      have : z.dot z.neg = -1 := by norm_num [z, Vec.neg, Vec.dot]
      rw [this]
      norm_num
      rw [abs_of_pos Real.pi_pos, sub_self, abs_zero]; exact he
    refine ⟨by unfold isSameValue; simpa [absTol] using he, hpar, ?_⟩
    unfold Vec.isEqual
    have : ((⟨0, 0, 0⟩ : Vec).sub ⟨0, 0, 0⟩).len = 0 := vlen_eq le_rfl (by norm_num [Vec.sub, Vec.sq, Vec.dot])
    rw [this]; exact he.le
  · ext <;> simp [Vec.sub, Vec.add, Vec.smul, z]
  · simp [Vec.dot]
  · rw [Real.tan_pi_div_four]; norm_num [z, Vec.sq, Vec.dot]
  · norm_num [z, Vec.dot, Vec.sub]
  · rintro ⟨_, h⟩; norm_num [z, Vec.dot, Vec.sub, Vec.neg] at h

/-- non-vacuity of C46: two descriptions of one cylinder -/
example : ∀ e > 0, isSameCyl (absTol e) ⟨⟨0, 0, 0⟩, ⟨0, 0, 1⟩, 2⟩ ⟨⟨0, 0, 7⟩, ⟨0, 0, 1⟩, 2⟩ := by
  intro e he
  have hz : (⟨0, 0, 1⟩ : Vec).sq = 1 := by norm_num [Vec.sq, Vec.dot]
  have hpar : isParallel ⟨0, 0, 1⟩ ⟨0, 0, 1⟩ e := by
    left; unfold getAngle; rw [unit_len hz]
    have : (⟨0, 0, 1⟩ : Vec).dot ⟨0, 0, 1⟩ = 1 := by norm_num [Vec.dot]
    rw [this]; norm_num; exact he
  refine ⟨.inr (by norm_num [absTol, Tol.scaled]; exact he), hpar, ?_⟩
  right
  have : ((⟨0, 0, 1⟩ : Vec).cross ((⟨0, 0, 0⟩ : Vec).sub ⟨0, 0, 7⟩)).len = 0 :=
    vlen_eq le_rfl (by norm_num [Vec.cross, Vec.sub, Vec.sq, Vec.dot])
  rw [this]; norm_num [absTol, Tol.scaled]; exact he

end Geouned.Geom
