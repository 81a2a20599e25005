import Verif.Face.IntervalProps
import Mathlib.Tactic.NormNum
import Mathlib.Algebra.Order.Archimedean.Basic
/-!
# C90: the range of the face of a cylinder or cone with the faces joined to it

`uBoundary tp rng l my`: the faces `l` on the same surface, with the ranges `rng` of the angle, `tp` the length of a turn. `some none`: the faces go all around;
`some (some (first, last))`: the ends, each with its face.
-/
namespace Geouned.Face

open Relation

/-- two faces of `l` whose ranges, up to whole turns, overlap or are less than 1e-5 apart -/
def NearTurn (tp : ℚ) (rng : Nat → ℚ × ℚ) (l : List Nat) (i j : Nat) : Prop :=
  i ∈ l ∧ j ∈ l ∧ ∃ k : ℤ, (rng i).1 < (rng j).2 + k * tp + 1 / 100000 ∧ (rng j).1 + k * tp < (rng i).2 + 1 / 100000

/-- a face lies, up to whole turns, in a range -/
def Within (tp : ℚ) (rng : Nat → ℚ × ℚ) (m M : ℚ) (i : Nat) : Prop := ∃ k : ℤ, m ≤ (rng i).1 + k * tp ∧ (rng i).2 + k * tp ≤ M

/-- the property in full: the range given holds the face and all the faces joined to it; `some none` is given only when no angle is away from the faces -/
def C90_statement : Prop :=
  ∀ (tp : ℚ) (rng : Nat → ℚ × ℚ) (l : List Nat) (my : Nat), 6 < tp → tp < 7 → l.Nodup → (∀ i ∈ l, (rng i).1 ≤ (rng i).2 ∧ (rng i).2 ≤ (rng i).1 + tp) → my ∈ l →
    ∃ b, uBoundary tp rng l my = some b ∧
      (∀ m M, b = some (m, M) → ∀ i, ReflTransGen (NearTurn tp rng l) my i → Within tp rng m.1 M.1 i) ∧
      (b = none → ∀ x : ℚ, ∃ i ∈ l, ∃ k : ℤ, (rng i).1 - 1 / 50 ≤ x + k * tp ∧ x + k * tp ≤ (rng i).2 + 1 / 50)

/-- the ranges found on the line, with what C89 says of them -/
structure Ranges (rng : Nat → ℚ × ℚ) (l : List Nat) (rs : List CRange) : Prop where
  all : ∀ k ∈ l, ∃ r ∈ rs, k ∈ r.2.2
  sets : ∀ r ∈ rs, ∀ k ∈ r.2.2, k ∈ l ∧ ∀ m, m ∈ r.2.2 ↔ ReflTransGen (Near rng l) k m
  ends : ∀ r ∈ rs, (r.1.2 ∈ r.2.2 ∧ r.1.1 = (rng r.1.2).1 ∧ ∀ k ∈ r.2.2, r.1.1 ≤ (rng k).1) ∧
        (r.2.1.2 ∈ r.2.2 ∧ r.2.1.1 = (rng r.2.1.2).2 ∧ ∀ k ∈ r.2.2, (rng k).2 ≤ r.2.1.1)
  cov : ∀ r ∈ rs, ∀ t, r.1.1 ≤ t → t ≤ r.2.1.1 → ∃ k ∈ r.2.2, (rng k).1 - 1 / 100000 ≤ t ∧ t ≤ (rng k).2 + 1 / 100000
  sep : rs.Pairwise (fun r r' => r.2.1.1 + 1 / 100000 ≤ r'.1.1)

theorem Ranges.close {rng : Nat → ℚ × ℚ} {l : List Nat} {rs : List CRange} (h : Ranges rng l rs) {r : CRange} (hr : r ∈ rs) {i j : Nat} (hi : i ∈ r.2.2)
    (hj : Near rng l i j) : j ∈ r.2.2 := ((h.sets r hr i hi).2 j).mpr (ReflTransGen.single hj)

/-- two ranges with a common face have the same faces -/
theorem Ranges.same {rng : Nat → ℚ × ℚ} {l : List Nat} {rs : List CRange} (h : Ranges rng l rs) {r r' : CRange} (hr : r ∈ rs) (hr' : r' ∈ rs) {i j : Nat}
    (hi : i ∈ r.2.2) (hi' : i ∈ r'.2.2) (hj : j ∈ r.2.2) : j ∈ r'.2.2 :=
  ((h.sets r' hr' i hi').2 j).mpr (((h.sets r hr i hi).2 j).mp hj)

theorem Ranges.wf {rng : Nat → ℚ × ℚ} {l : List Nat} {rs : List CRange} (h : Ranges rng l rs) (hw : ∀ i ∈ l, (rng i).1 ≤ (rng i).2) {r : CRange} (hr : r ∈ rs) :
    r.1.1 ≤ r.2.1.1 := by
  obtain ⟨⟨a1, a2, _⟩, _, _, b3⟩ := h.ends r hr
  have := hw _ (h.sets r hr _ a1).1
  have := b3 _ a1
  linarith

theorem Ranges.first {rng : Nat → ℚ × ℚ} {l : List Nat} {f : CRange} {rest : List CRange} (h : Ranges rng l (f :: rest)) (hw : ∀ i ∈ l, (rng i).1 ≤ (rng i).2) :
    ∀ i ∈ l, f.1.1 ≤ (rng i).1 := by
  intro i hi
  obtain ⟨r, hr, hir⟩ := h.all i hi
  have h1 := (h.ends r hr).1.2.2 i hir
  rcases List.mem_cons.mp hr with rfl | hr'
  · exact h1
  · have := (List.pairwise_cons.mp h.sep).1 r hr'
    have := h.wf hw (List.mem_cons_self (a := f) (l := rest))
    linarith

theorem Ranges.last {rng : Nat → ℚ × ℚ} {l : List Nat} {z : CRange} {rest : List CRange} (h : Ranges rng l (rest ++ [z])) (hw : ∀ i ∈ l, (rng i).1 ≤ (rng i).2) :
    ∀ i ∈ l, (rng i).2 ≤ z.2.1.1 := by
  intro i hi
  obtain ⟨r, hr, hir⟩ := h.all i hi
  have h1 := (h.ends r hr).2.2.2 i hir
  rcases List.mem_append.mp hr with hr' | hr'
  · have := (List.pairwise_append.mp h.sep).2.2 r hr' z (by simp)
    have := h.wf hw (List.mem_append_right rest (List.mem_singleton.mpr rfl) : z ∈ rest ++ [z])
    linarith
  · rw [List.mem_singleton.mp hr'] at h1
    exact h1

/-- ranges within one turn: if two faces are near with a whole turn between them, one ends last and the other begins first -/
theorem nearTurn_cases {tp : ℚ} {rng : Nat → ℚ × ℚ} {l : List Nat} {i j : Nat} (htp : 6 < tp) (a A : ℚ) (ha : ∀ k ∈ l, a ≤ (rng k).1) (hA : ∀ k ∈ l, (rng k).2 ≤ A)
    (hw : ∀ i ∈ l, (rng i).1 ≤ (rng i).2) (hAa : A ≤ a + tp) (h : NearTurn tp rng l i j) :
    Near rng l i j ∨ (A - 1 / 100000 < (rng i).2 ∧ (rng j).1 < a + 1 / 100000 ∧ a + tp - 1 / 100000 < A) ∨
      (A - 1 / 100000 < (rng j).2 ∧ (rng i).1 < a + 1 / 100000 ∧ a + tp - 1 / 100000 < A) := by
  obtain ⟨hi, hj, k, h1, h2⟩ := h
  have i1 := ha i hi
  have i2 := hA i hi
  have j1 := ha j hj
  have j2 := hA j hj
  have hcase : k ≤ -2 ∨ k = -1 ∨ k = 0 ∨ k = 1 ∨ 2 ≤ k := by omega
  rcases hcase with hk | hk | hk | hk | hk
  · exfalso
    have : (k : ℚ) ≤ -2 := by exact_mod_cast hk
    nlinarith
  · subst hk
    push_cast at h1 h2
    refine Or.inr (Or.inr ⟨by linarith, by linarith, by linarith⟩)
  · subst hk
    push_cast at h1 h2
    exact Or.inl ⟨hi, hj, by linarith, by linarith⟩
  · subst hk
    push_cast at h1 h2
    refine Or.inr (Or.inl ⟨by linarith, by linarith, by linarith⟩)
  · exfalso
    have : (2 : ℚ) ≤ k := by exact_mod_cast hk
    nlinarith

/-- a face that begins first is in the first range -/
theorem Ranges.in_first {rng : Nat → ℚ × ℚ} {l : List Nat} {rs : List CRange} (h : Ranges rng l rs) (hw : ∀ i ∈ l, (rng i).1 ≤ (rng i).2) {f : CRange} (hf : f ∈ rs)
    (hmin : ∀ i ∈ l, f.1.1 ≤ (rng i).1) {j : Nat} (hj : j ∈ l) (hjf : (rng j).1 < f.1.1 + 1 / 100000) : j ∈ f.2.2 := by
  obtain ⟨⟨a1, a2, _⟩, _⟩ := h.ends f hf
  have hl := (h.sets f hf _ a1).1
  refine h.close hf a1 ⟨hl, hj, ?_, ?_⟩
  · have := hmin j hj
    have := hw j hj
    linarith
  · have := hw _ hl
    linarith

/-- a face that ends last is in the last range -/
theorem Ranges.in_last {rng : Nat → ℚ × ℚ} {l : List Nat} {rs : List CRange} (h : Ranges rng l rs) (hw : ∀ i ∈ l, (rng i).1 ≤ (rng i).2) {z : CRange} (hz : z ∈ rs)
    (hmax : ∀ i ∈ l, (rng i).2 ≤ z.2.1.1) {j : Nat} (hj : j ∈ l) (hjz : z.2.1.1 - 1 / 100000 < (rng j).2) : j ∈ z.2.2 := by
  obtain ⟨_, a1, a2, _⟩ := h.ends z hz
  have hl := (h.sets z hz _ a1).1
  refine h.close hz a1 ⟨hl, hj, ?_, ?_⟩
  · have := hw _ hl
    linarith
  · have := hmax j hj
    have := hw j hj
    linarith

/-- an angle of a turn of which only a little is missing -/
theorem turn_cases {tp : ℚ} (htp : 6 < tp) (a x : ℚ) : ∃ k : ℤ, a ≤ x + k * tp ∧ x + k * tp < a + tp := by
  obtain ⟨k, ⟨h1, h2⟩, _⟩ := existsUnique_add_zsmul_mem_Ico (by linarith : (0 : ℚ) < tp) x a
  rw [zsmul_eq_mul] at h1 h2
  exact ⟨k, h1, h2⟩

/-- faces whose ranges all lie within one turn, wherever it begins: the property holds -/
theorem C90_partial (tp : ℚ) (rng : Nat → ℚ × ℚ) (l : List Nat) (my : Nat) (htp : 6 < tp) (hl : l.Nodup) (hw : ∀ i ∈ l, (rng i).1 ≤ (rng i).2)
    (hturn : ∀ i ∈ l, ∀ j ∈ l, (rng i).2 ≤ (rng j).1 + tp) (hmy : my ∈ l) :
    ∃ b, uBoundary tp rng l my = some b ∧
      (∀ m M, b = some (m, M) → ∀ i, ReflTransGen (NearTurn tp rng l) my i → Within tp rng m.1 M.1 i) ∧
      (b = none → ∀ x : ℚ, ∃ i ∈ l, ∃ k : ℤ, (rng i).1 - 1 / 50 ≤ x + k * tp ∧ x + k * tp ≤ (rng i).2 + 1 / 50) := by
  obtain ⟨rs, he, r1, r2, r3, r4, r5⟩ := C89_intervals rng l hl (List.ne_nil_of_mem hmy) hw
  have H : Ranges rng l rs := ⟨r1, r2, r3, r4, r5⟩
  clear r1 r2 r3 r4 r5
  unfold uBoundary getClosedRanges
  rw [he]
  dsimp only
  obtain ⟨f, rest, rfl⟩ : ∃ f rest, rs = f :: rest := by
    obtain ⟨r, hr, _⟩ := H.all my hmy
    cases rs with
    | nil => cases hr
    | cons f rest => exact ⟨f, rest, rfl⟩
  obtain ⟨pre, z, hpz⟩ : ∃ pre z, f :: rest = pre ++ [z] := by
    rcases List.eq_nil_or_concat' (f :: rest) with h | ⟨pre, z, h⟩
    · cases h
    · exact ⟨pre, z, h⟩
  have hlast : (f :: rest).getLast? = some z := by rw [hpz]; simp
  rw [hlast, List.head?_cons]
  dsimp only
  have hf : f ∈ f :: rest := List.mem_cons_self
  have hz : z ∈ f :: rest := by rw [hpz]; simp
  have hmin := H.first hw
  have hmax : ∀ i ∈ l, (rng i).2 ≤ z.2.1.1 := by
    have H' := H
    rw [hpz] at H'
    exact H'.last hw
  have hfe := H.ends f hf
  have hze := H.ends z hz
  have hAa : z.2.1.1 ≤ f.1.1 + tp := by
    rw [hze.2.2.1, hfe.1.2.1]
    exact hturn _ (H.sets z hz _ hze.2.1).1 _ (H.sets f hf _ hfe.1.1).1
  -- the range of a face that is not near the seam
  have hline : ∀ r ∈ f :: rest, my ∈ r.2.2 → (∀ i ∈ r.2.2, ∀ j, NearTurn tp rng l i j → j ∈ r.2.2) →
      ∀ i, ReflTransGen (NearTurn tp rng l) my i → Within tp rng r.1.1 r.2.1.1 i := by
    intro r hr hmr hcl i hi
    have hir : i ∈ r.2.2 := by
      induction hi with
      | refl => exact hmr
      | tail _ h ih => exact hcl _ ih _ h
    have := H.ends r hr
    refine ⟨0, ?_, ?_⟩
    · have := this.1.2.2 i hir; push_cast; linarith
    · have := this.2.2.2 i hir; push_cast; linarith
  unfold closeRanges
  by_cases hclose : |z.2.1.1 - f.1.1 - tp| < closeTol
  · rw [if_pos hclose]
    have hclose' : f.1.1 + tp - 1 / 100 < z.2.1.1 := by
      unfold closeTol at hclose
      have := (abs_lt.mp hclose).1
      linarith
    -- angles after the last end
    have hafter : ∀ x, z.2.1.1 ≤ x → x ≤ f.1.1 + tp → ∃ i ∈ l, (rng i).1 - 1 / 50 ≤ x ∧ x ≤ (rng i).2 + 1 / 50 := by
      intro x x1 x2
      refine ⟨z.2.1.2, (H.sets z hz _ hze.2.1).1, ?_, ?_⟩
      · have := hw _ (H.sets z hz _ hze.2.1).1
        rw [hze.2.2.1] at x1
        linarith
      · rw [hze.2.2.1] at hclose'
        linarith
    have hin : ∀ r ∈ f :: rest, ∀ x, r.1.1 ≤ x → x ≤ r.2.1.1 → ∃ i ∈ l, (rng i).1 - 1 / 50 ≤ x ∧ x ≤ (rng i).2 + 1 / 50 := by
      intro r hr x x1 x2
      obtain ⟨k, hk, k1, k2⟩ := H.cov r hr x x1 x2
      exact ⟨k, (H.sets r hr k hk).1, by linarith, by linarith⟩
    by_cases hone : (f :: rest).length = 1
    · rw [if_pos hone]
      refine ⟨none, rfl, by simp, fun _ x => ?_⟩
      have hrest : rest = [] := by
        cases rest with
        | nil => rfl
        | cons a b => simp at hone
      subst hrest
      have hfz : f = z := by simpa using hlast
      subst hfz
      obtain ⟨k, k1, k2⟩ := turn_cases htp f.1.1 x
      rcases le_total (x + k * tp) f.2.1.1 with h | h
      · obtain ⟨i, hi, h1, h2⟩ := hin f hf _ k1 h
        exact ⟨i, hi, k, h1, h2⟩
      · obtain ⟨i, hi, h1, h2⟩ := hafter _ h k2.le
        exact ⟨i, hi, k, h1, h2⟩
    · rw [if_neg hone]
      obtain ⟨mid, rfl⟩ : ∃ mid, rest = mid ++ [z] := by
        cases pre with
        | nil =>
          rw [List.nil_append] at hpz
          rw [hpz] at hone
          simp at hone
        | cons a b =>
          rw [List.cons_append, List.cons.injEq] at hpz
          exact ⟨b, hpz.2⟩
      have hmid : ((f :: (mid ++ [z])).drop 1).dropLast = mid := by simp
      rw [hmid]
      have hmidm : ∀ r ∈ mid, r ∈ f :: (mid ++ [z]) := fun r hr => List.mem_cons_of_mem _ (List.mem_append_left _ hr)
      have hfz : f.2.1.1 + 1 / 100000 ≤ z.1.1 := (List.pairwise_cons.mp H.sep).1 z (by simp)
      -- the joined range
      have hjoin : my ∈ f.2.2 ++ z.2.2 → ∀ i, ReflTransGen (NearTurn tp rng l) my i → Within tp rng (z.1.1 - tp) f.2.1.1 i := by
        intro hm i hi
        have hir : i ∈ f.2.2 ++ z.2.2 := by
          induction hi with
          | refl => exact hm
          | @tail b c _ h ih =>
            have hc : c ∈ l := h.2.1
            rcases nearTurn_cases htp f.1.1 z.2.1.1 hmin hmax hw hAa h with h' | h' | h'
            · rcases List.mem_append.mp ih with ih | ih
              · exact List.mem_append_left _ (H.close hf ih h')
              · exact List.mem_append_right _ (H.close hz ih h')
            · exact List.mem_append_left _ (H.in_first hw hf hmin hc h'.2.1)
            · exact List.mem_append_right _ (H.in_last hw hz hmax hc h'.1)
        rcases List.mem_append.mp hir with h | h
        · refine ⟨0, ?_, ?_⟩
          · have a1 := hfe.1.2.2 i h
            have a2 := H.wf hw hz
            push_cast; linarith
          · have := hfe.2.2.2 i h
            push_cast; linarith
        · refine ⟨-1, ?_, ?_⟩
          · have := hze.1.2.2 i h
            push_cast; linarith
          · have a1 := hze.2.2.2 i h
            have a2 := H.wf hw hf
            push_cast; linarith
      have hmidcl : my ∉ f.2.2 ++ z.2.2 → ∀ r ∈ mid, my ∈ r.2.2 → ∀ i ∈ r.2.2, ∀ j, NearTurn tp rng l i j → j ∈ r.2.2 := by
        intro hm r hr hmr i hi j h
        have hil : i ∈ l := h.1
        have hrm := hmidm r hr
        rcases nearTurn_cases htp f.1.1 z.2.1.1 hmin hmax hw hAa h with h' | h' | h'
        · exact H.close hrm hi h'
        · exact absurd (List.mem_append_right _ (H.same hrm hz hi (H.in_last hw hz hmax hil h'.1) hmr)) hm
        · exact absurd (List.mem_append_left _ (H.same hrm hf hi (H.in_first hw hf hmin hil h'.2.1) hmr)) hm
      -- what is found when the faces do not go all around
      have hfound : ∃ b, (match ((((z.1.1 - tp, z.1.2), f.2.1, f.2.2 ++ z.2.2) : CRange) :: mid).find? (fun r => decide (my ∈ r.2.2)) with
            | none => none
            | some r => some (some (r.1, r.2.1))) = some b ∧
          (∀ m M, b = some (m, M) → ∀ i, ReflTransGen (NearTurn tp rng l) my i → Within tp rng m.1 M.1 i) ∧
          (b = none → ∀ x : ℚ, ∃ i ∈ l, ∃ k : ℤ, (rng i).1 - 1 / 50 ≤ x + k * tp ∧ x + k * tp ≤ (rng i).2 + 1 / 50) := by
        rw [List.find?_cons]
        by_cases hm : my ∈ f.2.2 ++ z.2.2
        · rw [decide_eq_true hm]
          refine ⟨_, rfl, fun m M hb => ?_, by simp⟩
          simp only [Option.some.injEq, Prod.mk.injEq] at hb
          rw [← hb.1, ← hb.2]
          exact hjoin hm
        · rw [decide_eq_false hm]
          cases hfd : mid.find? (fun r => decide (my ∈ r.2.2)) with
          | none =>
            exfalso
            obtain ⟨r, hr, hmr⟩ := H.all my hmy
            rcases List.mem_cons.mp hr with rfl | hr
            · exact hm (List.mem_append_left _ hmr)
            · rcases List.mem_append.mp hr with hr | hr
              · have := List.find?_eq_none.mp hfd r hr
                simp [hmr] at this
              · rw [List.mem_singleton.mp hr] at hmr
                exact hm (List.mem_append_right _ hmr)
          | some r =>
            have hr := List.mem_of_find?_eq_some hfd
            have hmr : my ∈ r.2.2 := by
              have := List.find?_some hfd
              simpa using this
            refine ⟨_, rfl, fun m M hb => ?_, by simp⟩
            simp only [Option.some.injEq, Prod.mk.injEq] at hb
            rw [← hb.1, ← hb.2]
            exact hline r (hmidm r hr) hmr (hmidcl hm r hr hmr)
      by_cases hm0 : mid.length = 0
      · rw [if_pos hm0]
        by_cases hgap : |f.2.1.1 - (z.1.1 - tp) - tp| < closeTol
        · rw [decide_eq_true hgap]
          refine ⟨none, rfl, by simp, fun _ x => ?_⟩
          unfold closeTol at hgap
          obtain ⟨g1, g2⟩ := abs_lt.mp hgap
          obtain ⟨k, k1, k2⟩ := turn_cases htp f.1.1 x
          have hfl := (H.sets f hf _ hfe.2.1).1
          rcases le_total (x + k * tp) f.2.1.1 with h | h
          · obtain ⟨i, hi, h1, h2⟩ := hin f hf _ k1 h
            exact ⟨i, hi, k, h1, h2⟩
          · rcases le_total (x + k * tp) z.1.1 with h3 | h3
            · refine ⟨f.2.1.2, hfl, k, ?_, ?_⟩
              · have := hw _ hfl
                rw [hfe.2.2.1] at h
                linarith
              · rw [hfe.2.2.1] at g1
                linarith
            · rcases le_total (x + k * tp) z.2.1.1 with h4 | h4
              · obtain ⟨i, hi, h1, h2⟩ := hin z hz _ h3 h4
                exact ⟨i, hi, k, h1, h2⟩
              · obtain ⟨i, hi, h1, h2⟩ := hafter _ h4 k2.le
                exact ⟨i, hi, k, h1, h2⟩
        · rw [decide_eq_false hgap]
          exact hfound
      · rw [if_neg hm0]
        exact hfound
  · rw [if_neg hclose]
    dsimp only
    have hnot : z.2.1.1 ≤ f.1.1 + tp - 1 / 100 := by
      unfold closeTol at hclose
      by_contra hcon
      apply hclose
      rw [abs_lt]
      constructor <;> linarith
    cases hfd : (f :: rest).find? (fun r => decide (my ∈ r.2.2)) with
    | none =>
      exfalso
      obtain ⟨r, hr, hmr⟩ := H.all my hmy
      have := List.find?_eq_none.mp hfd r hr
      simp [hmr] at this
    | some r =>
      have hr := List.mem_of_find?_eq_some hfd
      have hmr : my ∈ r.2.2 := by
        have := List.find?_some hfd
        simpa using this
      refine ⟨_, rfl, fun m M hb => ?_, by simp⟩
      simp only [Option.some.injEq, Prod.mk.injEq] at hb
      rw [← hb.1, ← hb.2]
      refine hline r hr hmr (fun i hi j h => ?_)
      rcases nearTurn_cases htp f.1.1 z.2.1.1 hmin hmax hw hAa h with h' | h' | h'
      · exact H.close hr hi h'
      · exfalso; linarith [h'.2.2]
      · exfalso; linarith [h'.2.2]

/-- non-vacuity: a face before the seam, one after it and one apart -/
example : uBoundary (63 / 10) (fun i => [(0, 1), (5, 63 / 10), (2, 3)].getD i (0, 0)) [0, 1, 2] 0 = some (some ((-13 / 10, 1), (1, 0))) := by
  decide +kernel

/-- the one apart -/
example : uBoundary (63 / 10) (fun i => [(0, 1), (5, 63 / 10), (2, 3)].getD i (0, 0)) [0, 1, 2] 2 = some (some ((2, 2), (3, 2))) := by
  decide +kernel

/-- all around -/
example : uBoundary (63 / 10) (fun i => [(1, 4), (4, 73 / 10)].getD i (0, 0)) [0, 1] 1 = some none := by
  decide +kernel

/-- the property fails: of the faces [0.2, 0.8] and [5.5, 7], the second goes over the seam and overlaps the first (7 is 0.7 and a turn); the range given for the
first is [0.2, 0.8] -/
theorem C90_violated : ¬ C90_statement := by
  intro h
  obtain ⟨b, hb, h1, _⟩ := h (63 / 10) (fun i => [(1 / 5, 4 / 5), (11 / 2, 7)].getD i (0, 0)) [0, 1] 0 (by norm_num) (by norm_num) (by decide)
    (by simp; norm_num) (by simp)
  have hv : uBoundary (63 / 10) (fun i => [(1 / 5, 4 / 5), (11 / 2, 7)].getD i (0, 0)) [0, 1] 0 = some (some ((1 / 5, 0), (4 / 5, 0))) := by decide +kernel
  rw [hv] at hb
  obtain ⟨k, h2, h3⟩ := h1 (1 / 5, 0) (4 / 5, 0) (Option.some.inj hb).symm 1 (ReflTransGen.single ⟨by simp, by simp, -1, by norm_num, by norm_num⟩)
  simp only [List.getD_cons_succ, List.getD_cons_zero] at h2 h3
  have : (7 : ℚ) - 11 / 2 ≤ 4 / 5 - 1 / 5 := by linarith
  norm_num at this

end Geouned.Face
