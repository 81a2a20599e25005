import Verif.RSurf.QuadLemmas2
namespace Geouned.RSurf
open Geouned.Geom

/-- which side: the sign of a number -/
theorem side_of {P : Vec} {s : Surf} {x : ℝ} (h : inout P s = some x) :
    (0 < x → surfaceSide P s = some true) ∧ (x ≤ 0 → surfaceSide P s = some false) := by
  constructor <;> intro hx <;> simp [surfaceSide, h, hx]

/-- coordinates of the point with respect to the centre found, in the base of the eigenvectors -/
def crd (E : Eig) (T p : Vec) (i : Fin 3) : ℝ := (E.u i).dot p - (E.u i).dot T

theorem mm_crd (E : Eig) (T p : Vec) (i : Fin 3) : ((mm p).sub (Vec.smul 10 T)).dot (E.u i) = 10 * crd E T p i := mm_sub p T (E.u i)

theorem sq_crd {E : Eig} (hu : Orthonormal3 E.u) (T p : Vec) : ((mm p).sub (Vec.smul 10 T)).sq = 100 * (crd E T p 0 ^ 2 + crd E T p 1 ^ 2 + crd E T p 2 ^ 2) := by
  have := orth_complete hu ((mm p).sub (Vec.smul 10 T)) ((mm p).sub (Vec.smul 10 T))
  simp only [dot_comm' (E.u _) ((mm p).sub _), mm_crd] at this
  rw [show ((mm p).sub (Vec.smul 10 T)).sq = ((mm p).sub (Vec.smul 10 T)).dot ((mm p).sub (Vec.smul 10 T)) from rfl, this]
  ring

theorem unit_sq {u : Fin 3 → Vec} (hu : Orthonormal3 u) (i : Fin 3) : (u i).sq = 1 := by
  have := hu i i
  simpa [Vec.sq] using this

/-- the side of a circular cylinder -/
theorem cyl_side {E : Eig} (hu : Orthonormal3 E.u) (T p : Vec) (i : Fin 3) {R : ℝ} (hR : 0 ≤ R) :
    (R ^ 2 < crd E T p (i + 1) ^ 2 + crd E T p (i + 2) ^ 2 → surfaceSide (mm p) (quadScale (.cyl T (E.u i) R)) = some true) ∧
    (crd E T p (i + 1) ^ 2 + crd E T p (i + 2) ^ 2 ≤ R ^ 2 → surfaceSide (mm p) (quadScale (.cyl T (E.u i) R)) = some false) := by
  have hs : (((mm p).sub (Vec.smul 10 T)).cross (E.u i)).sq = 100 * (crd E T p (i + 1) ^ 2 + crd E T p (i + 2) ^ 2) := by
    rw [cross_sq, sq_crd hu, unit_sq hu, mm_crd]
    fin_cases i
    · simp only [Fin.zero_eta, f01, f02]; ring
    · simp only [Fin.mk_one, f11, f12]; ring
    · simp only [Fin.reduceFinMk, f21, f22]; ring
  constructor <;> intro h
  · refine (side_of (s := quadScale (.cyl T (E.u i) R)) rfl).1 ?_
    have : R * 10 < (((mm p).sub (Vec.smul 10 T)).cross (E.u i)).len := lt_len (by rw [hs]; nlinarith)
    linarith
  · refine (side_of (s := quadScale (.cyl T (E.u i) R)) rfl).2 ?_
    have : (((mm p).sub (Vec.smul 10 T)).cross (E.u i)).len ≤ R * 10 := by
      rw [sqrt_eq_len, hs]
      exact Real.sqrt_le_iff.mpr ⟨by positivity, by nlinarith⟩
    linarith

theorem ecyl_quad {E : Eig} (T p v : Vec) (a b : Fin 3) {r0 r1 : ℝ} (h0 : r0 ≠ 0) (h1 : r1 ≠ 0) :
    inout (mm p) (quadScale (.ecyl T v r0 r1 (E.u a) (E.u b) false)) = some ((crd E T p b / r1) ^ 2 + (crd E T p a / r0) ^ 2 - 1) := by
  simp only [quadScale, inout, div?, mm_crd]
  rw [if_neg (by positivity), if_neg (by positivity)]
  simp only [Option.bind_eq_bind, Option.bind_some, Bool.false_eq_true, false_and, if_false]
  congr 1
  field_simp

theorem hcyl_quad {E : Eig} (T p v : Vec) (a b : Fin 3) {r0 r1 : ℝ} (h0 : r0 ≠ 0) (h1 : r1 ≠ 0) :
    inout (mm p) (quadScale (.hcyl T v r0 r1 (E.u a) (E.u b))) = some ((crd E T p b / r1) ^ 2 - (crd E T p a / r0) ^ 2 - 1) := by
  simp only [quadScale, inout, div?, mm_crd]
  rw [if_neg (by positivity), if_neg (by positivity)]
  simp only [Option.bind_eq_bind, Option.bind_some]
  congr 1
  field_simp

/-- the side of a circular cone of two sheets -/
theorem cone_quad {E : Eig} (hu : Orthonormal3 E.u) (T p : Vec) (i : Fin 3) {t : ℝ} (ht : 0 < t) :
    (crd E T p (i + 1) ^ 2 + crd E T p (i + 2) ^ 2 < t ^ 2 * crd E T p i ^ 2 → surfaceSide (mm p) (quadScale (.cone T (E.u i) t true)) = some false) ∧
    (t ^ 2 * crd E T p i ^ 2 < crd E T p (i + 1) ^ 2 + crd E T p (i + 2) ^ 2 → surfaceSide (mm p) (quadScale (.cone T (E.u i) t true)) = some true) := by
  have e : ((mm p).sub (Vec.smul 10 T)).sq - ((mm p).sub (Vec.smul 10 T)).dot (E.u i) ^ 2 = 100 * (crd E T p (i + 1) ^ 2 + crd E T p (i + 2) ^ 2) := by
    rw [sq_crd hu, mm_crd]
    fin_cases i
    · simp only [Fin.zero_eta, f01, f02]; ring
    · simp only [Fin.mk_one, f11, f12]; ring
    · simp only [Fin.reduceFinMk, f21, f22]; ring
  constructor <;> intro h
  · refine cone_in (unit_sq hu i) ht (by simp) ?_
    rw [e, mm_crd]
    linarith [mul_pow (10 : ℝ) (crd E T p i) 2]
  · refine cone_out (unit_sq hu i) ht (Or.inl ?_)
    rw [e, mm_crd]
    linarith [mul_pow (10 : ℝ) (crd E T p i) 2]

/-- `inout` of a hyperboloid: the position is subtracted twice -/
theorem hyp_quad (E : Eig) (T p v a0 : Vec) {r0 r1 : ℝ} (h1 : r1 ≠ 0) (i : Fin 3) (o : Bool) :
    inout (mm p) (quadScale (.hyp T v r0 r1 a0 (E.u i) o)) =
      (if 0 < (crd E T p i / r1) ^ 2 + (if o then 1 else -1) then
        some ((((mm p).sub (Vec.smul 10 T)).sub ((Vec.smul (10 * crd E T p i) (E.u i)).add (Vec.smul 10 T))).len -
          r0 * 10 * Real.sqrt ((crd E T p i / r1) ^ 2 + (if o then 1 else -1)))
      else some 1) := by
  simp only [quadScale, inout, div?, mm_crd]
  rw [if_neg (by positivity)]
  have : 10 * crd E T p i / (r1 * 10) = crd E T p i / r1 := by field_simp
  simp only [Option.bind_eq_bind, Option.bind_some, this]

theorem conic_hyp {E : Eig} {T : Vec} {l0 l1 K : ℝ} (e0 : E.e 0 = l0) (e1 : E.e 1 = l1) (e2 : E.e 2 = l1) (h0 : l0 < 0) (h1 : 0 < l1) (hs : 1 / 10 ^ 5 ≤ l1 - l0)
    (hK : K ≠ 0) (ht : 0 < K ∨ l1 ≤ 10 ^ 6 * -l0) (hr : 1 / 100 ≤ |K| / l1) :
    conicSurface E T K none = some (.hyp T (E.u 0) (Real.sqrt (|K| / l1)) (Real.sqrt (|K| / -l0)) (E.u 2) (E.u 0) (decide (K < 0))) := by
  have hi : gqIndex E = 0 := by
    unfold gqIndex
    rw [e0, e1, e2, if_neg, if_pos]
    · simp
    · rw [abs_of_neg (by linarith)]; linarith
  have hk : gqKind (E.e (0 : Fin 3)) (E.e ((0 : Fin 3) + 1)) (E.e ((0 : Fin 3) + 2)) K = .hyp := by
    rw [f01, f02, e0, e1, e2]
    unfold gqKind
    rw [sign_pos' h1, sign_neg' h0]
    simp [hK, h0.ne]
  unfold conicSurface
  simp only [hi, hk]
  unfold getHyperboloid
  simp only [f01, f02, e0, e1, e2, lt_irrefl, if_false, abs_div, abs_neg, abs_of_pos h1, abs_of_neg h0]
  have ho : decide (SignType.sign (-K) ≠ SignType.sign l0) = decide (K < 0) := by
    rcases lt_or_gt_of_ne hK with h | h
    · rw [sign_pos' (by linarith : 0 < -K), sign_neg' h0]; simp [h]
    · rw [sign_neg' (by linarith : -K < 0), sign_neg' h0]; simp [h.le]
  have hm : ¬ Real.sqrt (|K| / l1) < 1 / 10 := by
    rw [not_lt, Real.le_sqrt (by norm_num) (by positivity)]
    linarith
  rw [ho, if_neg, if_neg hm]
  rintro ⟨h, h'⟩
  have hn : K < 0 := by simpa using h'
  have hl := ht.resolve_left (by linarith)
  have hKp : 0 < |K| := abs_pos.mpr hK
  have hq : Real.sqrt (|K| / -l0) / Real.sqrt (|K| / l1) = Real.sqrt (l1 / -l0) := by
    rw [← Real.sqrt_div (by apply div_nonneg hKp.le; linarith)]
    congr 1
    have : -l0 ≠ 0 := by linarith
    field_simp
  rw [hq] at h
  have : Real.sqrt (l1 / -l0) ≤ 10 ^ 3 := by
    rw [Real.sqrt_le_iff]
    refine ⟨by norm_num, ?_⟩
    rw [div_le_iff₀ (by linarith)]
    linarith
  linarith

theorem conic_cone {E : Eig} {T : Vec} {l0 l1 : ℝ} (e0 : E.e 0 = l0) (e1 : E.e 1 = l1) (e2 : E.e 2 = l1) (h0 : l0 < 0) (h1 : 0 < l1) (hs : 1 / 10 ^ 5 ≤ l1 - l0) :
    conicSurface E T 0 none = some (.cone T (E.u 0) (Real.sqrt (l1 / -l0)) true) := by
  have hi : gqIndex E = 0 := by
    unfold gqIndex
    rw [e0, e1, e2, if_neg, if_pos]
    · simp
    · rw [abs_of_neg (by linarith)]; linarith
  have hk : gqKind (E.e (0 : Fin 3)) (E.e ((0 : Fin 3) + 1)) (E.e ((0 : Fin 3) + 2)) 0 = .cone := by
    rw [f01, f02, e0, e1, e2]
    unfold gqKind
    rw [sign_pos' h1, sign_neg' h0]
    simp [h0.ne]
  unfold conicSurface
  simp only [hi, hk]
  unfold getCone
  simp only [f01, f02, e0, e1, e2, sub_self, abs_zero]
  rw [if_pos (by norm_num), neg_div, div_neg]

/-- index and kind of a cylinder along the first eigenvector -/
theorem conic_cyl {E : Eig} {T : Vec} {l1 l2 K : ℝ} (e0 : E.e 0 = 0) (e1 : E.e 1 = l1) (e2 : E.e 2 = l2) (h1 : 1 / 10 ^ 5 ≤ l1) (h12 : l1 = l2 ∨ l1 + 1 / 10 ^ 5 ≤ l2) (hK : K < 0) :
    conicSurface E T K none = some (getCylinder E T (-K) 0) := by
  have p1 : 0 < l1 := lt_of_lt_of_le (by norm_num) h1
  have p2 : l1 ≤ l2 := by rcases h12 with h | h <;> [exact h.le; linarith [show (0:ℝ) < 1 / 10 ^ 5 by norm_num]]
  have n1 : ¬ |(0 : ℝ) - l1| < 1 / 10 ^ 5 := by rw [zero_sub, abs_neg, abs_of_pos p1]; linarith
  have n2 : ¬ |l2 - 0| < 1 / 10 ^ 5 := by rw [sub_zero, abs_of_pos (by linarith)]; linarith
  have hi : gqIndex E = 0 := by
    unfold gqIndex
    rw [e0, e1, e2, if_neg n1]
    rcases h12 with h | h
    · rw [if_pos (by rw [h]; simp)]
    · rw [if_neg (by rw [abs_of_neg (by linarith [show (0:ℝ) < 1 / 10 ^ 5 by norm_num])]; linarith), if_neg n2]
      unfold argminAbs
      rw [if_pos (by rw [e0]; simp)]
  have hk : gqKind (E.e (0 : Fin 3)) (E.e ((0 : Fin 3) + 1)) (E.e ((0 : Fin 3) + 2)) K = .cyl := by
    rw [f01, f02, e0, e1, e2]
    unfold gqKind
    rw [sign_pos' p1, sign_neg' hK]
    simp [hK.ne]
  unfold conicSurface
  simp only [hi, hk]

end Geouned.RSurf
