import Verif.RSurf.QuadProps
/-!
# C74, continued: hyperboloids, ellipsoids, paraboloids, cards with negated coefficients
-/
namespace Geouned.RSurf
open Geouned.Geom

/-- the numbers of a circular hyperboloid that the code does not take for a cylinder or a cone -/
def HypNumbers (l0 l1 K : ℝ) : Prop :=
  l0 ≤ -(1 / 10 ^ 5) ∧ 1 / 10 ^ 5 ≤ l1 ∧ K ≠ 0 ∧ (0 < K ∨ l1 ≤ 10 ^ 6 * -l0) ∧ 1 / 100 ≤ |K| / l1

theorem hyp_read {q : GQ} {w : Fin 3 → Vec} {c : Vec} {l0 l1 K : ℝ} (h : Principal q w c l0 l1 l1 K) (hn : HypNumbers l0 l1 K) {E : Eig} (hE : IsEigh q E) :
    readGQ q E = some (quadScale (.hyp c (E.u 0) (Real.sqrt (|K| / l1)) (Real.sqrt (|K| / -l0)) (E.u 2) (E.u 0) (decide (K < 0)))) ∧
      ∀ p, q.eval p = l0 * crd E c p 0 ^ 2 + l1 * (crd E c p 1 ^ 2 + crd E c p 2 ^ 2) + K := by
  obtain ⟨h0, h1, hK, ht, hr⟩ := hn
  have eps : (0 : ℝ) < 1 / 10 ^ 5 := by norm_num
  have eps' : (1 : ℝ) / 10 ^ 8 ≤ 1 / 10 ^ 5 := by norm_num
  have p1 : 0 < l1 := by linarith
  have p0 : l0 < 0 := by linarith
  have cl : ClearZero l1 := Or.inr (by rw [abs_of_pos p1]; linarith)
  obtain ⟨e0, e1, e2, -, -, hev⟩ := eigh_facts h hE
  obtain ⟨T, hrd, hT⟩ := gq_read h hE (Or.inr (by rw [abs_of_neg p0]; linarith)) cl cl
  have : T = c := eq_of_dots hE.1 (fun i => hT i (by
    fin_cases i
    · simp only [Fin.zero_eta]; rw [e0]; exact p0.ne
    · simp only [Fin.mk_one]; rw [e1]; exact p1.ne'
    · simp only [Fin.reduceFinMk]; rw [e2]; exact p1.ne'))
  subst this
  rw [conic_hyp e0 e1 e2 p0 p1 (by linarith) hK ht hr] at hrd
  refine ⟨by rw [readGQ, hrd]; rfl, fun p => ?_⟩
  rw [hev p, e0, e1, e2]
  simp only [dot_sub, crd]
  ring

/-- the vector whose length the code takes as the distance to the axis: the position is subtracted twice -/
theorem hyp_w_sq {E : Eig} (hu : Orthonormal3 E.u) (c p : Vec) :
    (((mm p).sub (Vec.smul 10 c)).sub ((Vec.smul (10 * crd E c p 0) (E.u 0)).add (Vec.smul 10 c))).sq =
      100 * ((E.u 0).dot c ^ 2 + (crd E c p 1 - (E.u 1).dot c) ^ 2 + (crd E c p 2 - (E.u 2).dot c) ^ 2) := by
  set v := ((mm p).sub (Vec.smul 10 c)).sub ((Vec.smul (10 * crd E c p 0) (E.u 0)).add (Vec.smul 10 c)) with hv
  have hd : ∀ i, (E.u i).dot v = 10 * crd E c p i - 10 * crd E c p 0 * (E.u i).dot (E.u 0) - 10 * (E.u i).dot c := by
    intro i
    rw [hv, dot_sub, dot_add, dot_smul, dot_smul, dot_comm' (E.u i) ((mm p).sub _), mm_crd]
    ring
  have := orth_complete hu v v
  rw [hd, hd, hd, hu 0 0, hu 1 0, hu 2 0] at this
  rw [show v.sq = v.dot v from rfl, this]
  simp
  ring

/-- A circular hyperboloid (two positive coefficients) around the origin, in any direction. -/
theorem C74_hyperboloid_partial (q : GQ) (w : Fin 3 → Vec) (l0 l1 K : ℝ) (h : Principal q w ⟨0, 0, 0⟩ l0 l1 l1 K) (hn : HypNumbers l0 l1 K) (E : Eig) (hE : IsEigh q E) :
    ∃ s, readGQ q E = some s ∧ SidesOf q.eval s := by
  obtain ⟨hr, hev⟩ := hyp_read h hn hE
  refine ⟨_, hr, fun p => ?_⟩
  obtain ⟨h0, h1, hK, -, -⟩ := hn
  have eps : (0 : ℝ) < 1 / 10 ^ 5 := by norm_num
  have p1 : 0 < l1 := by linarith
  have p0 : 0 < -l0 := by linarith
  have hKp : 0 < |K| := abs_pos.mpr hK
  have k1 : 0 < |K| / l1 := div_pos hKp p1
  have k0 : 0 < |K| / -l0 := div_pos hKp p0
  have hio := hyp_quad E ⟨0, 0, 0⟩ p (E.u 0) (E.u 2) (r0 := Real.sqrt (|K| / l1)) (Real.sqrt_pos.mpr k0).ne' 0 (decide (K < 0))
  rw [div_pow, Real.sq_sqrt k0.le] at hio
  have hw := hyp_w_sq hE.1 ⟨0, 0, 0⟩ p
  have z : ∀ i, (E.u i).dot ⟨0, 0, 0⟩ = 0 := fun i => by simp [Vec.dot]
  rw [z, z, z] at hw
  rw [hev p]
  set X := crd E ⟨0, 0, 0⟩ p 0
  set Y := crd E ⟨0, 0, 0⟩ p 1
  set Z := crd E ⟨0, 0, 0⟩ p 2
  set ρ : ℝ := X ^ 2 / (|K| / -l0) + (if decide (K < 0) = true then 1 else -1) with hρ
  have hρK : |K| * ρ = -l0 * X ^ 2 - K := by
    have e1 : |K| * (X ^ 2 / (|K| / -l0)) = -l0 * X ^ 2 := by field_simp
    rw [hρ, mul_add, e1]
    rcases lt_or_gt_of_ne hK with hneg | hpos
    · simp [hneg, abs_of_neg hneg]; ring
    · simp only [hpos.not_gt, decide_false, Bool.false_eq_true, if_false, abs_of_pos hpos]; ring
  by_cases hpos : 0 < ρ
  · rw [if_pos hpos] at hio
    have hsq : (Real.sqrt (|K| / l1) * 10 * Real.sqrt ρ) ^ 2 = 100 * (|K| * ρ / l1) := by
      rw [mul_pow, mul_pow, Real.sq_sqrt k1.le, Real.sq_sqrt hpos.le]; ring
    have hnn : 0 ≤ Real.sqrt (|K| / l1) * 10 * Real.sqrt ρ := by positivity
    have hl : l1 * (|K| * ρ / l1) = -l0 * X ^ 2 - K := by rw [mul_div_cancel₀ _ p1.ne', hρK]
    constructor
    · intro hp
      refine (side_of hio).1 (sub_pos.mpr (lt_len ?_))
      rw [hsq, hw]
      have : l1 * (|K| * ρ / l1) < l1 * (Y ^ 2 + Z ^ 2) := by rw [hl]; linarith
      have := lt_of_mul_lt_mul_left this p1.le
      linarith
    · intro hp
      refine (side_of hio).2 (sub_nonpos.mpr (len_lt hnn ?_).le)
      rw [hsq, hw]
      have : l1 * (Y ^ 2 + Z ^ 2) < l1 * (|K| * ρ / l1) := by rw [hl]; linarith
      have := lt_of_mul_lt_mul_left this p1.le
      linarith
  · rw [if_neg hpos] at hio
    refine ⟨fun _ => (side_of hio).1 one_pos, fun hp => ?_⟩
    exfalso
    have : |K| * ρ ≤ 0 := mul_nonpos_of_nonneg_of_nonpos hKp.le (not_lt.mp hpos)
    have : 0 ≤ l1 * (Y ^ 2 + Z ^ 2) := by positivity
    linarith

/-- the hyperboloid of two sheets `x² + y² + 1 = z²` -/
example : Principal ⟨1, 1, -1, 0, 0, 0, 0, 0, 0, 1⟩ ![⟨0, 0, 1⟩, ⟨1, 0, 0⟩, ⟨0, 1, 0⟩] ⟨0, 0, 0⟩ (-1) 1 1 1 ∧ HypNumbers (-1) 1 1 := by
  refine ⟨⟨?_, by norm_num, by norm_num, fun p => ?_⟩, by norm_num [HypNumbers]⟩
  · intro i j
    fin_cases i <;> fin_cases j <;> simp [Vec.dot]
  · simp only [GQ.eval, Vec.dot, Vec.sub, Matrix.cons_val]
    ring

/-- Every such hyperboloid whose centre is not the origin is misread: a point of the negative side is found on the positive side. -/
theorem C74_hyperboloid_violated (q : GQ) (w : Fin 3 → Vec) (c : Vec) (l0 l1 K : ℝ) (h : Principal q w c l0 l1 l1 K) (hn : HypNumbers l0 l1 K) (hc : c ≠ ⟨0, 0, 0⟩) (E : Eig) (hE : IsEigh q E) :
    ∃ s, readGQ q E = some s ∧ ∃ p, q.eval p < 0 ∧ surfaceSide (mm p) s = some true := by
  obtain ⟨hr, hev⟩ := hyp_read h hn hE
  refine ⟨_, hr, ?_⟩
  obtain ⟨h0, h1, hK, -, -⟩ := hn
  have eps : (0 : ℝ) < 1 / 10 ^ 5 := by norm_num
  have p1 : 0 < l1 := by linarith
  have p0 : 0 < -l0 := by linarith
  have hKp : 0 < |K| := abs_pos.mpr hK
  have k1 : 0 < |K| / l1 := div_pos hKp p1
  have k0 : 0 < |K| / -l0 := div_pos hKp p0
  have hu := hE.1
  have hC : 0 < (E.u 0).dot c ^ 2 + (E.u 1).dot c ^ 2 + (E.u 2).dot c ^ 2 := by
    have e := orth_complete hu c c
    have : c.dot c ≠ 0 := by
      intro hz
      apply hc
      simp only [Vec.dot] at hz
      obtain ⟨x, y, z⟩ := c
      simp only [Vec.mk.injEq]
      refine ⟨?_, ?_, ?_⟩ <;> simp only at hz <;> nlinarith [sq_nonneg x, sq_nonneg y, sq_nonneg z]
    have hp : 0 ≤ (E.u 0).dot c ^ 2 + (E.u 1).dot c ^ 2 + (E.u 2).dot c ^ 2 := by positivity
    exact lt_of_le_of_ne hp (fun hz => this (by rw [e]; linarith))
  set C := (E.u 0).dot c ^ 2 + (E.u 1).dot c ^ 2 + (E.u 2).dot c ^ 2 with hCd
  rcases lt_or_gt_of_ne hK with hneg | hpos
  · -- one sheet: a point of the throat
    obtain ⟨s, hs0, hs1, hs2⟩ : ∃ s, 0 ≤ s ∧ s ^ 2 < |K| / l1 ∧ |K| / l1 < s ^ 2 + C := by
      refine ⟨Real.sqrt (max 0 (|K| / l1 - C / 2)), Real.sqrt_nonneg _, ?_, ?_⟩
      · rw [Real.sq_sqrt (le_max_left _ _)]; exact max_lt k1 (by linarith)
      · rw [Real.sq_sqrt (le_max_left _ _)]; linarith [le_max_right 0 (|K| / l1 - C / 2)]
    obtain ⟨n, hn1, hn2⟩ : ∃ n : ℝ, n ^ 2 = 1 ∧ n * (E.u 1).dot c ≤ 0 := by
      rcases le_total ((E.u 1).dot c) 0 with hle | hle
      · exact ⟨1, by norm_num, by linarith⟩
      · exact ⟨-1, by norm_num, by linarith⟩
    set p := c.add (Vec.smul (n * s) (E.u 1)) with hp
    have c0 : crd E c p 0 = 0 := by rw [crd, hp, dot_add, dot_smul, hu 0 1]; simp
    have c1 : crd E c p 1 = n * s := by rw [crd, hp, dot_add, dot_smul, hu 1 1]; simp
    have c2 : crd E c p 2 = 0 := by rw [crd, hp, dot_add, dot_smul, hu 2 1]; simp
    refine ⟨p, ?_, ?_⟩
    · rw [hev, c0, c1, c2, mul_pow, hn1]
      rw [abs_of_neg hneg, lt_div_iff₀ p1] at hs1
      linarith
    · have hio := hyp_quad E c p (E.u 0) (E.u 2) (r0 := Real.sqrt (|K| / l1)) (Real.sqrt_pos.mpr k0).ne' 0 (decide (K < 0))
      rw [c0, if_pos (by simp [hneg])] at hio
      refine (side_of hio).1 (sub_pos.mpr (lt_len ?_))
      have hw := hyp_w_sq hu c p
      rw [c0] at hw
      rw [hw, c1, c2]
      have e1 : (0 / Real.sqrt (|K| / -l0)) ^ 2 + (if decide (K < 0) = true then (1 : ℝ) else -1) = 1 := by simp [hneg]
      rw [e1, Real.sqrt_one, mul_one, mul_pow, Real.sq_sqrt k1.le, zero_sub, neg_sq]
      have : (n * s - (E.u 1).dot c) ^ 2 = s ^ 2 - 2 * s * (n * (E.u 1).dot c) + (E.u 1).dot c ^ 2 := by
        have : (n * s) ^ 2 = s ^ 2 := by rw [mul_pow, hn1, one_mul]
        linear_combination this
      rw [this]
      have : 0 ≤ s * -(n * (E.u 1).dot c) := mul_nonneg hs0 (by linarith)
      rw [hCd] at hs2
      linarith
  · -- two sheets: a point of the axis, just inside the sheet
    set z := Real.sqrt (|K| / -l0 * (1 + C / (2 * (|K| / l1)))) with hz
    have hzz : z ^ 2 = |K| / -l0 * (1 + C / (2 * (|K| / l1))) := Real.sq_sqrt (by positivity)
    have hCp : 0 < C / (2 * (|K| / l1)) := by positivity
    set p := c.add (Vec.smul z (E.u 0)) with hp
    have c0 : crd E c p 0 = z := by rw [crd, hp, dot_add, dot_smul, hu 0 0]; simp
    have c1 : crd E c p 1 = 0 := by rw [crd, hp, dot_add, dot_smul, hu 1 0]; simp
    have c2 : crd E c p 2 = 0 := by rw [crd, hp, dot_add, dot_smul, hu 2 0]; simp
    refine ⟨p, ?_, ?_⟩
    · rw [hev, c0, c1, c2, hzz]
      have : l0 * (|K| / -l0 * (1 + C / (2 * (|K| / l1)))) = -|K| * (1 + C / (2 * (|K| / l1))) := by
        have : l0 ≠ 0 := by linarith
        field_simp
      rw [this, abs_of_pos hpos]
      rw [abs_of_pos hpos] at hCp
      have := mul_pos hpos hCp
      linarith
    · have hio := hyp_quad E c p (E.u 0) (E.u 2) (r0 := Real.sqrt (|K| / l1)) (Real.sqrt_pos.mpr k0).ne' 0 (decide (K < 0))
      have hrad : (z / Real.sqrt (|K| / -l0)) ^ 2 + (if decide (K < 0) = true then (1 : ℝ) else -1) = C / (2 * (|K| / l1)) := by
        rw [div_pow, hzz, Real.sq_sqrt k0.le, mul_div_cancel_left₀ _ k0.ne']
        simp only [hpos.not_gt, decide_false, Bool.false_eq_true, if_false]
        ring
      rw [c0, hrad, if_pos hCp] at hio
      refine (side_of hio).1 (sub_pos.mpr (lt_len ?_))
      have hw := hyp_w_sq hu c p
      rw [c0] at hw
      rw [hw, c1, c2, mul_pow, mul_pow, Real.sq_sqrt k1.le, Real.sq_sqrt hCp.le]
      have : |K| / l1 * 10 ^ 2 * (C / (2 * (|K| / l1))) = 50 * C := by field_simp; norm_num
      rw [this]
      simp only [zero_sub, neg_sq]
      rw [← hCd]
      linarith

/-- Ellipsoids and spheres: no surface is made, or the question on which side of it a point lies raises. -/
theorem C74_ellipsoid_violated (q : GQ) (w : Fin 3 → Vec) (c : Vec) (l0 l1 l2 K : ℝ) (h : Principal q w c l0 l1 l2 K) (h0 : 1 / 10 ^ 8 ≤ l0) (h2 : l2 ≤ 10 ^ 6 * l0) (hK : K < 0)
    (E : Eig) (hE : IsEigh q E) (s : Surf) (hs : readGQ q E = some s) (p : Vec) : surfaceSide (mm p) s = none := by
  have p0 : 0 < l0 := lt_of_lt_of_le (by norm_num) h0
  have p1 : 0 < l1 := lt_of_lt_of_le p0 h.2.1
  have p2 : 0 < l2 := lt_of_lt_of_le p1 h.2.2.1
  obtain ⟨e0, e1, e2, -, -, -⟩ := eigh_facts h hE
  obtain ⟨T, hr, -⟩ := gq_read h hE (Or.inr (by rw [abs_of_pos p0]; exact h0)) (Or.inr (by rw [abs_of_pos p1]; exact h0.trans h.2.1))
    (Or.inr (by rw [abs_of_pos p2]; exact h0.trans (h.2.1.trans h.2.2.1)))
  have hpos : ∀ i, 0 < E.e i := by
    intro i; fin_cases i
    · simp only [Fin.zero_eta]; rw [e0]; exact p0
    · simp only [Fin.mk_one]; rw [e1]; exact p1
    · simp only [Fin.reduceFinMk]; rw [e2]; exact p2
  have hlo : ∀ i, l0 ≤ E.e i ∧ E.e i ≤ l2 := by
    have := h.2.1; have := h.2.2.1
    intro i; fin_cases i
    · simp only [Fin.zero_eta]; rw [e0]; constructor <;> linarith
    · simp only [Fin.mk_one]; rw [e1]; constructor <;> linarith
    · simp only [Fin.reduceFinMk]; rw [e2]; constructor <;> linarith
  have hk : ∀ a b d : ℝ, 0 < a → 0 < b → 0 < d → gqKind a b d K = .ell := by
    intro a b d ha hb hd
    unfold gqKind
    rw [sign_pos' ha, sign_pos' hb, sign_pos' hd, sign_neg' hK, if_neg hK.ne, if_neg (by decide), if_neg ha.ne', if_pos ⟨rfl, rfl⟩]
  have hc : conicSurface E T K none = getEllipsoid E T (-K) := by
    unfold conicSurface
    simp only [hk _ _ _ (hpos _) (hpos _) (hpos _)]
  rw [readGQ, hr, hc] at hs
  obtain ⟨s', hs', rfl⟩ := Option.map_eq_some_iff.mp hs
  unfold getEllipsoid at hs'
  obtain ⟨i, -, hs'⟩ := Option.bind_eq_some_iff.mp hs'
  dsimp only at hs'
  rw [if_neg] at hs'
  · simp only [Option.some.injEq] at hs'
    subst hs'
    rfl
  · rw [not_lt]
    generalize (if E.e (i + 1) < E.e i then i + 1 else i) = a
    generalize (if E.e (i + 1) < E.e i then i else i + 1) = b
    have hKn : 0 < -K := by linarith
    rw [abs_of_pos (div_pos hKn (hpos a)), abs_of_pos (div_pos hKn (hpos b)), ← Real.sqrt_div (div_pos hKn (hpos a)).le, Real.sqrt_le_iff]
    refine ⟨by norm_num, ?_⟩
    have : -K / E.e a / (-K / E.e b) = E.e b / E.e a := by have := hpos a; have := hpos b; have : K ≠ 0 := hK.ne; field_simp
    rw [this, div_le_iff₀ (hpos a)]
    have := (hlo a).1
    have := (hlo b).2
    linarith

/-- the sphere of radius 2 around (1, 0, 0), for which a surface is made -/
example : Principal ⟨1, 1, 1, 0, 0, 0, -2, 0, 0, -3⟩ ![⟨1, 0, 0⟩, ⟨0, 1, 0⟩, ⟨0, 0, 1⟩] ⟨1, 0, 0⟩ 1 1 1 (-4) := by
  refine ⟨?_, by norm_num, by norm_num, fun p => ?_⟩
  · intro i j
    fin_cases i <;> fin_cases j <;> simp [Vec.dot]
  · simp only [GQ.eval, Vec.dot, Vec.sub, Matrix.cons_val]
    ring

/-- A circular cylinder whose card has all coefficients negated: the sides are exchanged at every point. -/
theorem C74_negated_cylinder_violated (q : GQ) (w : Fin 3 → Vec) (c : Vec) (l K : ℝ) (h : Principal q w c l l 0 K) (hl : l ≤ -(1 / 10 ^ 5)) (hK : 0 < K) (E : Eig) (hE : IsEigh q E) :
    ∃ s, readGQ q E = some s ∧ ∀ p, (0 < q.eval p → surfaceSide (mm p) s = some false) ∧ (q.eval p < 0 → surfaceSide (mm p) s = some true) := by
  have eps : (0 : ℝ) < 1 / 10 ^ 5 := by norm_num
  have eps' : (1 : ℝ) / 10 ^ 8 ≤ 1 / 10 ^ 5 := by norm_num
  have p0 : l < 0 := by linarith
  have cl : ClearZero l := Or.inr (by rw [abs_of_neg p0]; linarith)
  obtain ⟨e0, e1, e2, -, -, hev⟩ := eigh_facts h hE
  obtain ⟨T, hr, hT⟩ := gq_read h hE cl cl (Or.inl rfl)
  have hi : gqIndex E = 2 := by
    unfold gqIndex
    rw [e0, e1, if_pos (by simp)]
  have hk : gqKind (E.e (2 : Fin 3)) (E.e ((2 : Fin 3) + 1)) (E.e ((2 : Fin 3) + 2)) K = .cyl := by
    rw [f21, f22, e0, e1, e2]
    unfold gqKind
    rw [sign_pos' hK, sign_neg' p0, if_neg hK.ne', if_neg (by decide), if_pos rfl]
  have hc : conicSurface E T K none = some (.cyl T (E.u 2) (Real.sqrt (-K / l))) := by
    unfold conicSurface
    simp only [hi, hk]
    unfold getCylinder
    simp only [f21, f22, e0, e1]
    rw [if_pos (by simp)]
  rw [hc] at hr
  refine ⟨quadScale (.cyl T (E.u 2) (Real.sqrt (-K / l))), by rw [readGQ, hr]; rfl, fun p => ?_⟩
  have hv : q.eval p = l * (crd E T p 0 ^ 2 + crd E T p 1 ^ 2) + K := by
    rw [hev p, e0, e1, e2]
    simp only [dot_sub, crd, hT 0 (by rw [e0]; exact p0.ne), hT 1 (by rw [e1]; exact p0.ne)]
    ring
  have hR : Real.sqrt (-K / l) ^ 2 = K / -l := by rw [Real.sq_sqrt (div_nonneg_of_nonpos (by linarith) p0.le), div_neg, neg_div]
  have := cyl_side hE.1 T p 2 (Real.sqrt_nonneg (-K / l))
  rw [hR, f21, f22, div_lt_iff₀ (by linarith), le_div_iff₀ (by linarith)] at this
  rw [hv]
  exact ⟨fun hp => this.2 (by linarith), fun hn => this.1 (by linarith)⟩

/-- A circular paraboloid `l (y² + z²) = g x` is read with its axis reversed: every point of its axis inside it is found outside. -/
theorem C74_paraboloid_violated (l g : ℝ) (hl : 1 / 10 ^ 5 ≤ l) (hg : 1 / 10 ^ 6 < |g|) (E : Eig) (hE : IsEigh ⟨0, l, l, 0, 0, 0, -g, 0, 0, 0⟩ E) :
    ∃ s, readGQ ⟨0, l, l, 0, 0, 0, -g, 0, 0, 0⟩ E = some s ∧
      ∀ x, 0 < g * x → GQ.eval ⟨0, l, l, 0, 0, 0, -g, 0, 0, 0⟩ ⟨x, 0, 0⟩ < 0 ∧ surfaceSide (mm ⟨x, 0, 0⟩) s = some true := by
  have eps : (0 : ℝ) < 1 / 10 ^ 5 := by norm_num
  have pl : 0 < l := by linarith
  set q : GQ := ⟨0, l, l, 0, 0, 0, -g, 0, 0, 0⟩ with hq
  obtain ⟨hu, h01, h12, hQ⟩ := id hE
  obtain ⟨e0, e1, e2⟩ := eig_unique (l := ![0, l, l]) (w := ![⟨1, 0, 0⟩, ⟨0, 1, 0⟩, ⟨0, 0, 1⟩]) hu
    (by intro i j; fin_cases i <;> fin_cases j <;> simp [Vec.dot]) hQ (fun p => by simp [hq, quadPart, Vec.dot]) ⟨h01, h12⟩ (by simp; exact pl.le)
  simp at e0 e1 e2
  -- the second and third eigenvectors have no component along x
  have hx : ∀ i, E.e i = l → (E.u i).x = 0 := by
    intro i hi
    have := eig_match (l := ![0, l, l]) (w := ![⟨1, 0, 0⟩, ⟨0, 1, 0⟩, ⟨0, 0, 1⟩]) hu
      (by intro i j; fin_cases i <;> fin_cases j <;> simp [Vec.dot]) hQ (fun p => by simp [hq, quadPart, Vec.dot]) i 0
    simp [Vec.dot, hi] at this
    exact this.resolve_left pl.ne'
  have x1 := hx 1 e1
  have x2 := hx 2 e2
  have x0 : (E.u 0).x ^ 2 = 1 := by
    have := orth_complete hu ⟨1, 0, 0⟩ ⟨1, 0, 0⟩
    simp [Vec.dot, x1, x2] at this
    nlinarith
  have d : ∀ i, gqXD q E i = -g / 2 * (E.u i).x := by intro i; simp [gqXD, hq, Vec.dot]
  have hT : ∀ i, i ≠ 0 → gqTD q E i = 0 := by
    intro i hi
    have : (E.u i).x = 0 := by fin_cases i <;> simp_all
    simp [gqTD, d, this]
  have hK : gqK q E = 0 := by
    have t0 : gqTD q E 0 = 0 := by simp [gqTD, e0]
    rw [gqK, hT 1 (by decide), hT 2 (by decide), t0, hq]
    ring
  have hz : gqZero E = some 0 := by
    unfold gqZero
    rw [if_pos (by rw [e0]; norm_num)]
  have ha : |(E.u 0).x| = 1 := by rw [← sq_abs] at x0; nlinarith [abs_nonneg (E.u 0).x]
  have hcomp : (1 : ℝ) / 10 ^ 6 < |2 * gqXD q E 0| := by
    rw [d, show 2 * (-g / 2 * (E.u 0).x) = -g * (E.u 0).x by ring, abs_mul, ha, abs_neg, mul_one]
    exact hg
  have hr : gq2params q E = some (getParabola E ⟨0, 0, 0⟩ 0 (-g * (E.u 0).x)) := by
    unfold gq2params
    simp only [hz, if_pos hcomp, conicSurface, hK]
    simp only [d]
    have : gqT E (fun i => if i = 0 then -0 / (2 * (-g / 2 * (E.u 0).x)) else gqTD q E i) = ⟨0, 0, 0⟩ := by
      simp only [gqT, if_true, if_neg (show ¬ (1 : Fin 3) = 0 by decide), if_neg (show ¬ (2 : Fin 3) = 0 by decide), hT 1 (by decide), hT 2 (by decide), neg_zero, zero_div]
      simp [Vec.smul, Vec.add]
    rw [this]
    congr 2
    ring
  refine ⟨quadScale (getParabola E ⟨0, 0, 0⟩ 0 (-g * (E.u 0).x)), by rw [readGQ, hr]; rfl, fun x hgx => ⟨by simp [hq, GQ.eval]; linarith, ?_⟩⟩
  have hg0 : g ≠ 0 := by rintro rfl; simp at hgx
  have hx0 : (E.u 0).x ≠ 0 := by intro hh; rw [hh] at x0; norm_num at x0
  have key : ∀ (v : Vec) (f : ℝ), v.x * x < 0 → v.y = 0 → v.z = 0 → surfaceSide (mm ⟨x, 0, 0⟩) (quadScale (.para ⟨0, 0, 0⟩ v f)) = some true := by
    intro v f h1 h2 h3
    have : ((mm ⟨x, 0, 0⟩).sub (Vec.smul 10 ⟨0, 0, 0⟩)).dot v < 0 := by
      simp [mm, Vec.sub, Vec.smul, Vec.dot]
      linarith
    simp [surfaceSide, quadScale, inout, this]
  unfold getParabola
  simp only [f01, e1, Vec.comp, if_true]
  split
  · rename_i hf
    have hgu : 0 < g * (E.u 0).x := by
      rw [div_lt_iff₀ (by linarith)] at hf; linarith
    apply key
    · have : 0 < (g * (E.u 0).x) * (g * x) := mul_pos hgu hgx
      have h2 : 0 < g ^ 2 := by positivity
      have h3 : 0 < g ^ 2 * ((E.u 0).x * x) := by linarith
      have := pos_of_mul_pos_right h3 h2.le
      simp only [Vec.smul]; linarith
    · simp [Vec.smul, x1]
    · simp [Vec.smul, x2]
  · rename_i hf
    have hgu : g * (E.u 0).x < 0 := by
      rw [not_lt, le_div_iff₀ (by linarith)] at hf
      exact lt_of_le_of_ne (by linarith) (mul_ne_zero hg0 hx0)
    apply key
    · have : 0 < -(g * (E.u 0).x) * (g * x) := mul_pos (by linarith) hgx
      have h2 : 0 < g ^ 2 := by positivity
      have h3 : 0 < g ^ 2 * -((E.u 0).x * x) := by linarith
      have := pos_of_mul_pos_right h3 h2.le
      simp only; linarith
    · simp [x1]
    · simp [x2]

/-- the hypotheses are met by `y² + z² = 4 x` -/
example : IsEigh ⟨0, 1, 1, 0, 0, 0, -4, 0, 0, 0⟩ ⟨![0, 1, 1], ![⟨1, 0, 0⟩, ⟨0, 1, 0⟩, ⟨0, 0, 1⟩]⟩ := by
  refine ⟨?_, by norm_num, by simp, fun p => ?_⟩
  · intro i j
    fin_cases i <;> fin_cases j <;> simp [Vec.dot]
  · simp [quadPart, Vec.dot]

/-- The property is false. -/
theorem C74_violated : ¬ C74_statement := by
  intro H
  have hE : IsEigh ⟨1, 1, -4, 0, 0, 0, 0, 0, 0, 0⟩ ⟨![-4, 1, 1], ![⟨0, 0, 1⟩, ⟨1, 0, 0⟩, ⟨0, 1, 0⟩]⟩ := by
    refine ⟨?_, by norm_num, by simp, fun p => ?_⟩
    · intro i j
      fin_cases i <;> fin_cases j <;> simp [Vec.dot]
    · simp [quadPart, Vec.dot]
      ring
  have hP : Principal ⟨1, 1, -4, 0, 0, 0, 0, 0, 0, 0⟩ ![⟨0, 0, 1⟩, ⟨1, 0, 0⟩, ⟨0, 1, 0⟩] ⟨0, 0, 0⟩ (-4) 1 1 0 := by
    refine ⟨?_, by norm_num, by norm_num, fun p => ?_⟩
    · intro i j
      fin_cases i <;> fin_cases j <;> simp [Vec.dot]
    · simp only [GQ.eval, Vec.dot, Vec.sub, Matrix.cons_val]
      ring
  obtain ⟨s, hs, hside⟩ := H _ _ hE ⟨⟨0, 0, 1⟩, by norm_num [GQ.eval]⟩ ⟨⟨1, 0, 0⟩, by norm_num [GQ.eval]⟩
  obtain ⟨s', hs', p, hp⟩ := C74_cone_violated _ _ _ _ _ hP (by norm_num) (by norm_num) (by norm_num) _ hE
  rw [hs] at hs'
  obtain rfl := Option.some.inj hs'
  rcases hp with ⟨h1, h2⟩ | ⟨h1, h2⟩
  · rw [(hside p).1 h1] at h2; simp at h2
  · rw [(hside p).2 h1] at h2; simp at h2

end Geouned.RSurf
