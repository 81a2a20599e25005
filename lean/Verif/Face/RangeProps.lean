import Verif.Face.RangeLemmas
import Mathlib.Algebra.Order.Archimedean.Basic
import Mathlib.Tactic.NormNum
/-!
# C88: the range of a group of torus faces

`mergePeriodic tp prec faces`: the ranges of one parameter of the faces of a group, `tp` the length of a turn; gives whether the faces go all around, and a range.
-/
namespace Geouned.Face

/-- an angle lies in a range, up to whole turns and a tolerance -/
def InRange (tp tol m M x : ℚ) : Prop := ∃ k : ℤ, m - tol ≤ x + k * tp ∧ x + k * tp ≤ M + tol

/-- the property, first part: the range given holds all the faces -/
def C88_cover_statement : Prop :=
  ∀ (tp prec : ℚ) (faces : List (ℚ × ℚ)), 6 < tp → tp < 7 → 0 < prec → prec < 1 / 100 → faces ≠ [] → (∀ f ∈ faces, f.1 ≤ f.2 ∧ f.2 ≤ f.1 + tp) →
    ∃ c m M, mergePeriodic tp prec faces = some (c, m, M) ∧ ∀ f ∈ faces, ∀ x, f.1 ≤ x → x ≤ f.2 → InRange tp (2 * prec) m M x

/-- the property, second part: when the faces are said to go all around, no angle is away from the faces -/
def C88_closed_statement : Prop :=
  ∀ (tp prec : ℚ) (faces : List (ℚ × ℚ)), 6 < tp → tp < 7 → 0 < prec → prec < 1 / 100 → faces ≠ [] → (∀ f ∈ faces, f.1 ≤ f.2 ∧ f.2 ≤ f.1 + tp) →
    ∀ m M, mergePeriodic tp prec faces = some (true, m, M) → ∀ x, ∃ f ∈ faces, InRange tp (tp * prec) f.1 f.2 x

theorem inRange_turn {tp tol m : ℚ} (htp : 0 < tp) (h0 : 0 ≤ tol) (x : ℚ) : InRange tp tol m (m + tp) x := by
  obtain ⟨k, ⟨h1, h2⟩, _⟩ := existsUnique_add_zsmul_mem_Ico htp x m
  rw [zsmul_eq_mul] at h1 h2
  exact ⟨k, by linarith, by linarith⟩

theorem sorted_ends {faces : List (ℚ × ℚ)} (hne : faces ≠ []) : ∃ f l, (sortPairs faces).head? = some f ∧ (sortPairs faces).getLast? = some l ∧
    f ∈ faces ∧ l ∈ faces := by
  have hne' : sortPairs faces ≠ [] := by
    intro h
    have := (sortPairs_perm faces).length_eq
    rw [h] at this
    exact hne (List.eq_nil_of_length_eq_zero this.symm)
  refine ⟨_, _, List.head?_eq_some_head hne', List.getLast?_eq_some_getLast hne', ?_, ?_⟩
  · exact mem_sortPairs.mp (List.head_mem hne')
  · exact mem_sortPairs.mp (List.getLast_mem hne')

/-- the merge of at least one range always gives a range, whatever the ranges -/
theorem C88_total (tp prec : ℚ) (faces : List (ℚ × ℚ)) (htp : 6 < tp) (h0 : 0 < prec) (hne : faces ≠ []) :
    ∃ c m M, mergePeriodic tp prec faces = some (c, m, M) := by
  obtain ⟨f, l, hf, hl, _, _⟩ := sorted_ends hne
  unfold mergePeriodic
  rw [hf, hl]
  dsimp only [mergeSorted]
  split
  · exact ⟨_, _, _, rfl⟩
  · next harc =>
    split
    · next hsv =>
      split
      · next hg =>
        -- only one range: then it has the length of a turn
        exfalso
        have h1 := gapAt_none hg
        rw [(sortPairs_perm faces).length_eq] at h1
        match faces, hne, h1 with
        | [p], _, _ =>
          simp only [sortPairs, insertPair, List.head?_cons, Option.some.injEq, List.getLast?_singleton] at hf hl
          subst hf; subst hl
          simp only [arcLength, List.map_cons, List.map_nil, List.sum_cons, List.sum_nil] at harc
          simp only [sameValue, decide_eq_true_eq, abs_lt] at hsv
          obtain ⟨⟨a1, a2⟩, a3, a4⟩ := hsv
          apply harc
          nlinarith
      · exact ⟨_, _, _, rfl⟩
    · exact ⟨_, _, _, rfl⟩

/-- faces whose ranges do not overlap: the range given holds all of them -/
theorem C88_cover_partial (tp prec : ℚ) (faces : List (ℚ × ℚ)) (htp : 6 < tp) (h0 : 0 < prec) (hne : faces ≠ [])
    (hw : ∀ f ∈ faces, f.1 ≤ f.2) (ho : faces.Pairwise (fun p q => p.2 ≤ q.1 ∨ q.2 ≤ p.1)) :
    ∃ c m M, mergePeriodic tp prec faces = some (c, m, M) ∧ ∀ f ∈ faces, ∀ x, f.1 ≤ x → x ≤ f.2 → InRange tp (2 * prec) m M x := by
  obtain ⟨c, m, M, hr⟩ := C88_total tp prec faces htp h0 hne
  refine ⟨c, m, M, hr, fun f hf x hx1 hx2 => ?_⟩
  obtain ⟨a, z, ha, hz, _, _⟩ := sorted_ends hne
  have hw' : ∀ f ∈ sortPairs faces, f.1 ≤ f.2 := fun f hf => hw f (mem_sortPairs.mp hf)
  have hfol := sort_follow hw ho
  have hmin := head_min (sort_pairwise faces) ha
  have hmax := last_max hw' hfol hz
  have hf' : f ∈ sortPairs faces := mem_sortPairs.mpr hf
  unfold mergePeriodic at hr
  rw [ha, hz] at hr
  dsimp only [mergeSorted] at hr
  split at hr
  · simp only [Option.some.injEq, Prod.mk.injEq] at hr
    obtain ⟨_, rfl, rfl⟩ := hr
    exact inRange_turn (by linarith) (by linarith) x
  · split at hr
    · next hsv =>
      simp only [sameValue, decide_eq_true_eq, abs_lt] at hsv
      obtain ⟨⟨s1, s2⟩, s3, s4⟩ := hsv
      split at hr
      · cases hr
      · next e s hg =>
        simp only [Option.some.injEq, Prod.mk.injEq] at hr
        obtain ⟨_, rfl, rfl⟩ := hr
        obtain ⟨l1, p, q, l2, hl, rfl, rfl⟩ := gapAt_spec hg
        have hp := hw' p (by rw [hl]; simp)
        have hq := hw' q (by rw [hl]; simp)
        have hqz := hmax q (by rw [hl]; simp)
        have hap := hmin p (by rw [hl]; simp)
        rw [hl] at hfol hf'
        rw [List.pairwise_append] at hfol
        obtain ⟨_, f2, f3⟩ := hfol
        obtain ⟨f4, f5⟩ := List.pairwise_cons.mp f2
        obtain ⟨f6, _⟩ := List.pairwise_cons.mp f5
        have hfz := hmax f (by rw [hl]; exact hf')
        have hfa := hmin f (by rw [hl]; exact hf')
        have hcase : f.2 ≤ p.2 ∨ q.1 ≤ f.1 := by
          rcases List.mem_append.mp hf' with h | h
          · exact Or.inl ((f3 f h p List.mem_cons_self).trans hp)
          · rcases List.mem_cons.mp h with rfl | h
            · exact Or.inl (le_refl _)
            · rcases List.mem_cons.mp h with rfl | h
              · exact Or.inr (le_refl _)
              · exact Or.inr (hq.trans (f6 f h))
        rcases hcase with h | h
        · exact ⟨0, by push_cast; linarith, by push_cast; linarith⟩
        · exact ⟨-1, by push_cast; linarith, by push_cast; linarith⟩
    · simp only [Option.some.injEq, Prod.mk.injEq] at hr
      obtain ⟨_, rfl, rfl⟩ := hr
      exact ⟨0, by push_cast; linarith [hmin f hf'], by push_cast; linarith [hmax f hf']⟩

/-- faces whose ranges do not overlap and lie within one turn: if they are said to go all around, no angle is away from them -/
theorem C88_closed_partial (tp prec : ℚ) (faces : List (ℚ × ℚ)) (htp : 6 < tp) (hne : faces ≠ [])
    (hw : ∀ f ∈ faces, f.1 ≤ f.2) (ho : faces.Pairwise (fun p q => p.2 ≤ q.1 ∨ q.2 ≤ p.1)) (hturn : ∀ f ∈ faces, ∀ g ∈ faces, g.2 ≤ f.1 + tp)
    (h0 : 0 < prec) (m M : ℚ) (hr : mergePeriodic tp prec faces = some (true, m, M)) : ∀ x, ∃ f ∈ faces, InRange tp (tp * prec) f.1 f.2 x := by
  intro x
  obtain ⟨a, z, ha, hz, haf, hzf⟩ := sorted_ends hne
  have hw' : ∀ f ∈ sortPairs faces, f.1 ≤ f.2 := fun f hf => hw f (mem_sortPairs.mp hf)
  have hfol := sort_follow hw ho
  unfold mergePeriodic at hr
  rw [ha, hz] at hr
  dsimp only [mergeSorted] at hr
  split at hr
  · next harc =>
    obtain ⟨k, ⟨k1, k2⟩, _⟩ := existsUnique_add_zsmul_mem_Ico (by linarith : (0 : ℚ) < tp) x a.1
    rw [zsmul_eq_mul] at k1 k2
    obtain ⟨r, hrm, h1, h2⟩ := near_range hw' hfol (a := a.1) (E := a.1 + tp) (x := x + k * tp)
      (fun f hf => by rw [ha] at hf; rw [Option.mem_some_iff.mp hf])
      (fun h => by rw [h] at ha; simp at ha) (fun f hf => hturn a haf f (mem_sortPairs.mp hf)) k1 k2.le
    refine ⟨r, mem_sortPairs.mp hrm, k, ?_, ?_⟩
    · nlinarith
    · rw [arcLength_perm (sortPairs_perm faces)] at h2
      nlinarith
  · split at hr
    · split at hr <;> simp at hr
    · simp at hr

/-- non-vacuity of the two theorems: three ranges with the seam inside, given out of order -/
example : mergePeriodic (63 / 10) (1 / 1000) [(5, 63 / 10), (0, 1), (1, 2)] = some (false, -13 / 10, 2) := by
  decide +kernel

/-- all around -/
example : mergePeriodic (63 / 10) (1 / 1000) [(5, 63 / 10), (0, 2), (2, 5)] = some (true, 0, 63 / 10) := by
  decide +kernel

/-- the first part fails: of the ranges [0.1, 3] and [0.2, 1] the range given is [0.1, 1], without the angle 2 -/
theorem C88_cover_violated : ¬ C88_cover_statement := by
  intro h
  obtain ⟨c, m, M, hr, hc⟩ := h (63 / 10) (1 / 1000) [(1 / 10, 3), (1 / 5, 1)] (by norm_num) (by norm_num) (by norm_num) (by norm_num) (by simp)
    (by simp; norm_num)
  have hv : mergePeriodic (63 / 10) (1 / 1000) [(1 / 10, 3), (1 / 5, 1)] = some (false, 1 / 10, 1) := by decide +kernel
  rw [hv] at hr
  simp only [Option.some.injEq, Prod.mk.injEq] at hr
  obtain ⟨_, rfl, rfl⟩ := hr
  obtain ⟨k, h1, h2⟩ := hc (1 / 10, 3) (by simp) 2 (by norm_num) (by norm_num)
  rcases lt_trichotomy k 0 with hk | hk | hk
  · have : (k : ℚ) ≤ -1 := by exact_mod_cast Int.le_sub_one_of_lt hk
    linarith
  · subst hk; norm_num at h2
  · have : (1 : ℚ) ≤ k := by exact_mod_cast hk
    linarith

/-- the second part fails: two faces with the same range [0, 4], one above the other, are said to go all around; the angle 5 is away from both -/
theorem C88_closed_violated : ¬ C88_closed_statement := by
  intro h
  have hv : mergePeriodic (63 / 10) (1 / 1000) [(0, 4), (0, 4)] = some (true, 0, 63 / 10) := by decide +kernel
  obtain ⟨f, hf, k, h1, h2⟩ := h (63 / 10) (1 / 1000) [(0, 4), (0, 4)] (by norm_num) (by norm_num) (by norm_num) (by norm_num) (by simp) (by simp; norm_num) _ _ hv 5
  have : f = (0, 4) := by simpa using hf
  subst this
  rcases lt_trichotomy k 0 with hk | hk | hk
  · have : (k : ℚ) ≤ -1 := by exact_mod_cast Int.le_sub_one_of_lt hk
    norm_num at h1
    linarith
  · subst hk; norm_num at h2
  · have : (1 : ℚ) ≤ k := by exact_mod_cast hk
    norm_num at h2
    linarith

end Geouned.Face
