import Verif.RSurf.QuadLemmas3
/-!
# C74: cards GQ and SQ read by GEOReverse

`q.eval p` is the number whose sign is the sense of the point `p` (cm) in the MCNP manual for the card GQ, `eqSQ` the one for SQ. `readGQ q E` is the surface that the reverse tool
makes when `numpy.linalg.eigh` returns `E` (`IsEigh`), and `surfaceSide` decides on which side of it a point (in mm) lies.
-/
namespace Geouned.RSurf
open Geouned.Geom

/-- the surface `s` has the sides of the number `f` -/
def SidesOf (f : Vec → ℝ) (s : Surf) : Prop :=
  ∀ p, (0 < f p → surfaceSide (mm p) s = some true) ∧ (f p < 0 → surfaceSide (mm p) s = some false)

/-- Full property: a quadric that has points on both sides is read as a surface with the same sides. -/
def C74_statement : Prop :=
  ∀ (q : GQ) (E : Eig), IsEigh q E → (∃ p, q.eval p < 0) → (∃ p, 0 < q.eval p) → ∃ s, readGQ q E = some s ∧ SidesOf q.eval s

/-- A cylinder, circular or elliptic, in any position, with positive coefficients. -/
theorem C74_cylinder_partial (q : GQ) (w : Fin 3 → Vec) (c : Vec) (l1 l2 K : ℝ) (h : Principal q w c 0 l1 l2 K)
    (h1 : 1 / 10 ^ 5 ≤ l1) (h12 : l1 = l2 ∨ l1 + 1 / 10 ^ 5 ≤ l2) (hK : K < 0) (E : Eig) (hE : IsEigh q E) :
    ∃ s, readGQ q E = some s ∧ SidesOf q.eval s := by
  have p1 : 0 < l1 := lt_of_lt_of_le (by norm_num) h1
  have p2 : 0 < l2 := lt_of_lt_of_le p1 h.2.2.1
  obtain ⟨e0, e1, e2, -, -, hev⟩ := eigh_facts h hE
  obtain ⟨T, hr, hT⟩ := gq_read h hE (Or.inl rfl) (Or.inr (by rw [abs_of_pos p1]; linarith [show (1:ℝ) / 10 ^ 8 ≤ 1 / 10 ^ 5 by norm_num]))
    (Or.inr (by rw [abs_of_pos p2]; linarith [h.2.2.1, show (1:ℝ) / 10 ^ 8 ≤ 1 / 10 ^ 5 by norm_num]))
  rw [conic_cyl e0 e1 e2 h1 h12 hK] at hr
  refine ⟨quadScale (getCylinder E T (-K) 0), by rw [readGQ, hr]; rfl, fun p => ?_⟩
  have hv : q.eval p = l1 * crd E T p 1 ^ 2 + l2 * crd E T p 2 ^ 2 + K := by
    rw [hev p, e0, e1, e2]
    simp only [dot_sub, crd, hT 1 (by rw [e1]; exact p1.ne'), hT 2 (by rw [e2]; exact p2.ne')]
    ring
  rw [hv]
  unfold getCylinder
  simp only [f01, f02, e1, e2]
  rcases h12 with h12 | h12
  · subst h12
    rw [if_pos (by simp)]
    have hR : Real.sqrt (-K / l1) ^ 2 = -K / l1 := Real.sq_sqrt (by apply div_nonneg <;> linarith)
    have := cyl_side hE.1 T p 0 (Real.sqrt_nonneg (-K / l1))
    rw [hR, f01, f02, div_lt_iff₀ p1, le_div_iff₀ p1] at this
    exact ⟨fun hh => this.1 (by linarith), fun hh => this.2 (by linarith)⟩
  · have hd : l1 < l2 := by linarith [show (0:ℝ) < 1 / 10 ^ 5 by norm_num]
    rw [if_neg (by rw [abs_of_neg (by linarith)]; linarith)]
    have ha : |l1| < |l2| := by rwa [abs_of_pos p1, abs_of_pos p2]
    simp only [if_pos ha]
    rw [e1, e2, sign_pos' p1, sign_pos' p2, if_pos rfl]
    have k1 : 0 < -K / l1 := div_pos (by linarith) p1
    have k2 : 0 < -K / l2 := div_pos (by linarith) p2
    rw [abs_of_pos k1, abs_of_pos k2]
    have hio := ecyl_quad (E := E) T p (E.u 0) 2 1 (Real.sqrt_pos.mpr k2).ne' (Real.sqrt_pos.mpr k1).ne'
    rw [div_pow, div_pow, Real.sq_sqrt k1.le, Real.sq_sqrt k2.le] at hio
    have hh : crd E T p 1 ^ 2 / (-K / l1) + crd E T p 2 ^ 2 / (-K / l2) - 1 = (l1 * crd E T p 1 ^ 2 + l2 * crd E T p 2 ^ 2 + K) / -K := by
      have : K ≠ 0 := hK.ne
      field_simp
      ring
    rw [hh] at hio
    exact ⟨fun hp => (side_of hio).1 (div_pos hp (by linarith)), fun hn => (side_of hio).2 (div_nonpos_of_nonpos_of_nonneg hn.le (by linarith))⟩

/-- an oblique elliptic cylinder -/
example : Principal ⟨9 / 25, 16 / 25, 4, 24 / 25, 0, 0, 0, 0, 0, -1⟩ ![⟨4 / 5, -3 / 5, 0⟩, ⟨3 / 5, 4 / 5, 0⟩, ⟨0, 0, 1⟩] ⟨0, 0, 0⟩ 0 1 4 (-1) ∧ (1 : ℝ) + 1 / 10 ^ 5 ≤ 4 := by
  refine ⟨⟨?_, by norm_num, by norm_num, fun p => ?_⟩, by norm_num⟩
  · intro i j
    fin_cases i <;> fin_cases j <;> simp [Vec.dot] <;> norm_num
  · simp only [GQ.eval, Vec.dot, Vec.sub, Matrix.cons_val]
    ring

/-- A hyperbolic cylinder in any position for which the numbers of the card are such that the constant is negative. -/
theorem C74_hyperbolic_cylinder_partial (q : GQ) (w : Fin 3 → Vec) (c : Vec) (l0 l2 K : ℝ) (h : Principal q w c l0 0 l2 K)
    (h0 : l0 ≤ -(1 / 10 ^ 5)) (h2 : 1 / 10 ^ 5 ≤ l2) (hK : K < 0) (E : Eig) (hE : IsEigh q E) :
    ∃ s, readGQ q E = some s ∧ SidesOf q.eval s := by
  have eps : (0 : ℝ) < 1 / 10 ^ 5 := by norm_num
  have eps' : (1 : ℝ) / 10 ^ 8 ≤ 1 / 10 ^ 5 := by norm_num
  have p0 : l0 < 0 := by linarith
  have p2 : 0 < l2 := by linarith
  obtain ⟨e0, e1, e2, -, -, hev⟩ := eigh_facts h hE
  obtain ⟨T, hr, hT⟩ := gq_read h hE (Or.inr (by rw [abs_of_neg p0]; linarith)) (Or.inl rfl) (Or.inr (by rw [abs_of_pos p2]; linarith))
  have hi : gqIndex E = 1 := by
    unfold gqIndex
    rw [e0, e1, e2, if_neg (by rw [sub_zero, abs_of_neg p0]; linarith), if_neg (by rw [zero_sub, abs_neg, abs_of_pos p2]; linarith),
      if_neg (by rw [abs_of_pos (by linarith)]; linarith)]
    unfold argminAbs
    rw [e0, e1, e2, if_neg (by rw [abs_zero, abs_of_neg p0]; rintro ⟨h, -⟩; linarith), if_pos (by rw [abs_zero]; positivity)]
  have hk : gqKind (E.e (1 : Fin 3)) (E.e ((1 : Fin 3) + 1)) (E.e ((1 : Fin 3) + 2)) K = .cyl := by
    rw [f11, f12, e0, e1, e2]
    unfold gqKind
    rw [sign_pos' p2, sign_neg' p0, sign_neg' hK]
    simp [hK.ne]
  have hc : conicSurface E T K none = some (getCylinder E T (-K) 1) := by
    unfold conicSurface
    simp only [hi, hk]
  rw [hc] at hr
  refine ⟨quadScale (getCylinder E T (-K) 1), by rw [readGQ, hr]; rfl, fun p => ?_⟩
  have hv : q.eval p = l0 * crd E T p 0 ^ 2 + l2 * crd E T p 2 ^ 2 + K := by
    rw [hev p, e0, e1, e2]
    simp only [dot_sub, crd, hT 0 (by rw [e0]; exact p0.ne), hT 2 (by rw [e2]; exact p2.ne')]
    ring
  rw [hv]
  have k2 : 0 < -K / l2 := div_pos (by linarith) p2
  have k0 : 0 < -K / -l0 := div_pos (by linarith) (by linarith)
  have k0' : |-K / l0| = -K / -l0 := by rw [abs_of_neg (div_neg_of_pos_of_neg (by linarith) p0), div_neg]
  have hg : getCylinder E T (-K) 1 = .hcyl T (E.u 1) (Real.sqrt (-K / -l0)) (Real.sqrt (-K / l2)) (E.u 0) (E.u 2) := by
    unfold getCylinder
    simp only [f11, f12, e0, e2]
    rw [if_neg (by rw [abs_of_pos (by linarith)]; linarith)]
    by_cases hlt : |l2| < |l0|
    · simp only [if_pos hlt]
      rw [e0, e2, sign_pos' p2, sign_neg' p0, sign_pos' (show 0 < -K by linarith), if_neg (by decide), if_pos rfl, k0', abs_of_pos k2]
    · simp only [if_neg hlt]
      rw [e0, e2, sign_pos' p2, sign_neg' p0, sign_pos' (show 0 < -K by linarith), if_neg (by decide), if_neg (by decide), k0', abs_of_pos k2]
  rw [hg]
  have hio := hcyl_quad (E := E) T p (E.u 1) 0 2 (Real.sqrt_pos.mpr k0).ne' (Real.sqrt_pos.mpr k2).ne'
  rw [div_pow, div_pow, Real.sq_sqrt k0.le, Real.sq_sqrt k2.le] at hio
  have hh : crd E T p 2 ^ 2 / (-K / l2) - crd E T p 0 ^ 2 / (-K / -l0) - 1 = (l0 * crd E T p 0 ^ 2 + l2 * crd E T p 2 ^ 2 + K) / -K := by
    have : K ≠ 0 := hK.ne
    have : l0 ≠ 0 := p0.ne
    field_simp
    ring
  rw [hh] at hio
  exact ⟨fun hp => (side_of hio).1 (div_pos hp (by linarith)), fun hn => (side_of hio).2 (div_nonpos_of_nonpos_of_nonneg hn.le (by linarith))⟩

example : Principal ⟨1, 0, -2, 0, 0, 0, -2, 0, 0, -3⟩ ![⟨0, 0, 1⟩, ⟨0, 1, 0⟩, ⟨1, 0, 0⟩] ⟨1, 0, 0⟩ (-2) 0 1 (-4) := by
  refine ⟨?_, by norm_num, by norm_num, fun p => ?_⟩
  · intro i j
    fin_cases i <;> fin_cases j <;> simp [Vec.dot]
  · simp only [GQ.eval, Vec.dot, Vec.sub, Matrix.cons_val]
    ring

/-- A circular cone in any position whose half angle is 45°. -/
theorem C74_right_cone_partial (q : GQ) (w : Fin 3 → Vec) (c : Vec) (l : ℝ) (h : Principal q w c (-l) l l 0) (hl : 1 / 10 ^ 5 ≤ l) (E : Eig) (hE : IsEigh q E) :
    ∃ s, readGQ q E = some s ∧ SidesOf q.eval s := by
  have eps : (0 : ℝ) < 1 / 10 ^ 5 := by norm_num
  have eps' : (1 : ℝ) / 10 ^ 8 ≤ 1 / 10 ^ 5 := by norm_num
  have p1 : 0 < l := by linarith
  have cl : ClearZero l := Or.inr (by rw [abs_of_pos p1]; linarith)
  obtain ⟨e0, e1, e2, -, -, hev⟩ := eigh_facts h hE
  obtain ⟨T, hr, hT⟩ := gq_read h hE (Or.inr (by rw [abs_neg, abs_of_pos p1]; linarith)) cl cl
  rw [conic_cone e0 e1 e2 (by linarith) p1 (by linarith), neg_neg, div_self p1.ne', Real.sqrt_one] at hr
  refine ⟨quadScale (.cone T (E.u 0) 1 true), by rw [readGQ, hr]; rfl, fun p => ?_⟩
  have hv : q.eval p = l * (crd E T p 1 ^ 2 + crd E T p 2 ^ 2 - crd E T p 0 ^ 2) := by
    rw [hev p, e0, e1, e2]
    simp only [dot_sub, crd, hT 0 (by rw [e0]; linarith), hT 1 (by rw [e1]; exact p1.ne'), hT 2 (by rw [e2]; exact p1.ne')]
    ring
  have := cone_quad hE.1 T p 0 one_pos
  rw [f01, f02, one_pow, one_mul] at this
  rw [hv]
  refine ⟨fun hp => this.2 ?_, fun hn => this.1 ?_⟩
  · have := pos_of_mul_pos_right hp p1.le
    linarith
  · by_contra hc
    have : 0 ≤ l * (crd E T p 1 ^ 2 + crd E T p 2 ^ 2 - crd E T p 0 ^ 2) := mul_nonneg p1.le (by linarith)
    linarith

/-- Every other circular cone (two positive coefficients) is read with the inverse tangent: a cone is made, and a point is on the wrong side. -/
theorem C74_cone_violated (q : GQ) (w : Fin 3 → Vec) (c : Vec) (l0 l1 : ℝ) (h : Principal q w c l0 l1 l1 0) (h0 : l0 ≤ -(1 / 10 ^ 5)) (h1 : 1 / 10 ^ 5 ≤ l1) (hne : l1 ≠ -l0)
    (E : Eig) (hE : IsEigh q E) :
    ∃ s, readGQ q E = some s ∧ ∃ p, (0 < q.eval p ∧ surfaceSide (mm p) s = some false) ∨ (q.eval p < 0 ∧ surfaceSide (mm p) s = some true) := by
  have eps : (0 : ℝ) < 1 / 10 ^ 5 := by norm_num
  have eps' : (1 : ℝ) / 10 ^ 8 ≤ 1 / 10 ^ 5 := by norm_num
  have p1 : 0 < l1 := by linarith
  have p0 : l0 < 0 := by linarith
  have cl : ClearZero l1 := Or.inr (by rw [abs_of_pos p1]; linarith)
  obtain ⟨e0, e1, e2, -, -, hev⟩ := eigh_facts h hE
  obtain ⟨T, hr, hT⟩ := gq_read h hE (Or.inr (by rw [abs_of_neg p0]; linarith)) cl cl
  rw [conic_cone e0 e1 e2 (by linarith) p1 (by linarith)] at hr
  have ht : 0 < l1 / -l0 := div_pos p1 (by linarith)
  refine ⟨quadScale (.cone T (E.u 0) (Real.sqrt (l1 / -l0)) true), by rw [readGQ, hr]; rfl, (T.add (E.u 0)).add (E.u 1), ?_⟩
  set p := (T.add (E.u 0)).add (E.u 1) with hp
  have hu := hE.1
  have c0 : crd E T p 0 = 1 := by rw [crd, hp, dot_add, dot_add, hu 0 0, hu 0 1]; simp
  have c1 : crd E T p 1 = 1 := by rw [crd, hp, dot_add, dot_add, hu 1 0, hu 1 1]; simp
  have c2 : crd E T p 2 = 0 := by rw [crd, hp, dot_add, dot_add, hu 2 0, hu 2 1]; simp
  have hv : q.eval p = l0 + l1 := by
    have : q.eval p = l0 * crd E T p 0 ^ 2 + l1 * crd E T p 1 ^ 2 + l1 * crd E T p 2 ^ 2 := by
      rw [hev p, e0, e1, e2]
      simp only [dot_sub, crd, hT 0 (by rw [e0]; linarith), hT 1 (by rw [e1]; exact p1.ne'), hT 2 (by rw [e2]; exact p1.ne')]
      ring
    rw [this, c0, c1, c2]
    ring
  have := cone_quad hu T p 0 (Real.sqrt_pos.mpr ht)
  rw [f01, f02, c0, c1, c2, Real.sq_sqrt ht.le] at this
  norm_num at this
  rw [hv]
  rcases lt_or_gt_of_ne hne with hlt | hgt
  · exact Or.inr ⟨by linarith, this.2 (by rw [div_lt_one (by linarith)]; exact hlt)⟩
  · exact Or.inl ⟨by linarith, this.1 (by rw [one_lt_div (by linarith)]; exact hgt)⟩

/-- the cone along z with tangent 2 -/
example : Principal ⟨1, 1, -4, 0, 0, 0, 0, 0, 0, 0⟩ ![⟨0, 0, 1⟩, ⟨1, 0, 0⟩, ⟨0, 1, 0⟩] ⟨0, 0, 0⟩ (-4) 1 1 0 := by
  refine ⟨?_, by norm_num, by norm_num, fun p => ?_⟩
  · intro i j
    fin_cases i <;> fin_cases j <;> simp [Vec.dot]
  · simp only [GQ.eval, Vec.dot, Vec.sub, Matrix.cons_val]
    ring

/-- what `eigh` gives for it -/
example : IsEigh ⟨1, 1, -4, 0, 0, 0, 0, 0, 0, 0⟩ ⟨![-4, 1, 1], ![⟨0, 0, 1⟩, ⟨1, 0, 0⟩, ⟨0, 1, 0⟩]⟩ := by
  refine ⟨?_, by norm_num, by simp, fun p => ?_⟩
  · intro i j
    fin_cases i <;> fin_cases j <;> simp [Vec.dot]
  · simp [quadPart, Vec.dot]
    ring

/-- The card SQ is read as the card GQ that has the same equation. -/
theorem C74_sq (a b c d e f g x y z : ℝ) (q : GQ) (hq : ∀ p, q.eval p = eqSQ a b c d e f g x y z p) (E : Eig) : readSQ a b c d e f g x y z E = readGQ q E := by
  have hc : ∀ p, (sq2gq a b c d e f g x y z).eval p = eqSQ a b c d e f g x y z p := by
    intro p; simp only [sq2gq, GQ.eval, eqSQ]; ring
  have : q = sq2gq a b c d e f g x y z := by
    have hh : ∀ p, q.eval p = (sq2gq a b c d e f g x y z).eval p := fun p => by rw [hq, hc]
    generalize sq2gq a b c d e f g x y z = r at hh
    obtain ⟨A, B, C, D, E', F, G, H, J, K⟩ := q
    obtain ⟨A', B', C', D', E'', F', G', H', J', K'⟩ := r
    have z0 := hh ⟨0, 0, 0⟩
    have x1 := hh ⟨1, 0, 0⟩; have x2 := hh ⟨-1, 0, 0⟩
    have y1 := hh ⟨0, 1, 0⟩; have y2 := hh ⟨0, -1, 0⟩
    have w1 := hh ⟨0, 0, 1⟩; have w2 := hh ⟨0, 0, -1⟩
    have xy := hh ⟨1, 1, 0⟩; have yz := hh ⟨0, 1, 1⟩; have zx := hh ⟨1, 0, 1⟩
    simp [GQ.eval] at z0 x1 x2 y1 y2 w1 w2 xy yz zx
    simp only [GQ.mk.injEq]
    refine ⟨?_, ?_, ?_, ?_, ?_, ?_, ?_, ?_, ?_, z0⟩ <;> linarith
  rw [readSQ, this]

/-- the cylinder of radius 3 around the line x = 1, y = 2 -/
example : ∀ p, GQ.eval ⟨1, 1, 0, 0, 0, 0, -2, -4, 0, -4⟩ p = eqSQ 1 1 0 0 0 0 (-9) 1 2 0 p := by
  intro p; simp only [GQ.eval, eqSQ]; ring

end Geouned.RSurf
