import Verif.Face.RangeModel
import Mathlib.Tactic.Linarith
import Mathlib.Algebra.BigOperators.Group.List.Basic
/-!
# Lemmas on the ranges of faces
-/
namespace Geouned.Face

theorem pairLe_iff {p q : ℚ × ℚ} : pairLe p q = true ↔ p.1 < q.1 ∨ (p.1 = q.1 ∧ p.2 ≤ q.2) := by
  unfold pairLe
  exact decide_eq_true_iff

theorem pairLe_trans (a b c : ℚ × ℚ) (h1 : pairLe a b = true) (h2 : pairLe b c = true) : pairLe a c = true := by
  rw [pairLe_iff] at *
  rcases h1 with h1 | ⟨h1, h1'⟩ <;> rcases h2 with h2 | ⟨h2, h2'⟩
  · exact Or.inl (h1.trans h2)
  · exact Or.inl (by linarith)
  · exact Or.inl (by linarith)
  · exact Or.inr ⟨h1.trans h2, h1'.trans h2'⟩

theorem pairLe_total (a b : ℚ × ℚ) : (pairLe a b || pairLe b a) = true := by
  rw [Bool.or_eq_true, pairLe_iff, pairLe_iff]
  rcases lt_trichotomy a.1 b.1 with h | h | h
  · exact Or.inl (Or.inl h)
  · rcases le_total a.2 b.2 with h2 | h2
    · exact Or.inl (Or.inr ⟨h, h2⟩)
    · exact Or.inr (Or.inr ⟨h.symm, h2⟩)
  · exact Or.inr (Or.inl h)

theorem insertPair_perm (p : ℚ × ℚ) : ∀ l, (insertPair p l).Perm (p :: l)
  | [] => by simp [insertPair]
  | q :: rest => by
    rw [insertPair]
    split
    · exact List.Perm.refl _
    · exact ((insertPair_perm p rest).cons q).trans (List.Perm.swap p q rest)

theorem sortPairs_perm : ∀ l, (sortPairs l).Perm l
  | [] => by simp [sortPairs]
  | p :: rest => by
    rw [sortPairs]
    exact (insertPair_perm p _).trans ((sortPairs_perm rest).cons p)

theorem insertPair_pairwise (p : ℚ × ℚ) : ∀ l, l.Pairwise (fun a b => pairLe a b = true) → (insertPair p l).Pairwise (fun a b => pairLe a b = true)
  | [], _ => by simp [insertPair]
  | q :: rest, h => by
    obtain ⟨h1, h2⟩ := List.pairwise_cons.mp h
    rw [insertPair]
    split
    · next hpq =>
      refine List.pairwise_cons.mpr ⟨fun x hx => ?_, h⟩
      rcases List.mem_cons.mp hx with rfl | hx
      · exact hpq
      · exact pairLe_trans _ _ _ hpq (h1 x hx)
    · next hpq =>
      refine List.pairwise_cons.mpr ⟨fun x hx => ?_, insertPair_pairwise p rest h2⟩
      rcases List.mem_cons.mp ((insertPair_perm p rest).mem_iff.mp hx) with rfl | hx
      · have := pairLe_total x q
        rw [Bool.or_eq_true] at this
        exact this.resolve_left hpq
      · exact h1 x hx

theorem sort_pairwise : ∀ l, (sortPairs l).Pairwise (fun a b => pairLe a b = true)
  | [] => by simp [sortPairs]
  | p :: rest => by
    rw [sortPairs]
    exact insertPair_pairwise p _ (sort_pairwise rest)

theorem mem_sortPairs {p : ℚ × ℚ} {l : List (ℚ × ℚ)} : p ∈ sortPairs l ↔ p ∈ l := (sortPairs_perm l).mem_iff

/-- the sorted ranges of faces that do not overlap follow each other -/
theorem sort_follow {l : List (ℚ × ℚ)} (hw : ∀ f ∈ l, f.1 ≤ f.2) (ho : l.Pairwise (fun p q => p.2 ≤ q.1 ∨ q.2 ≤ p.1)) :
    (sortPairs l).Pairwise (fun p q => p.2 ≤ q.1) := by
  have h2 : (sortPairs l).Pairwise (fun p q => p.2 ≤ q.1 ∨ q.2 ≤ p.1) :=
    ho.perm (sortPairs_perm l).symm (fun h => h.symm)
  have h1 := sort_pairwise l
  have hm : ∀ f ∈ sortPairs l, f.1 ≤ f.2 := fun f hf => hw f (mem_sortPairs.mp hf)
  refine (List.pairwise_iff_forall_sublist).mpr fun {p q} hs => ?_
  have a1 := (List.pairwise_iff_forall_sublist).mp h1 hs
  have a2 := (List.pairwise_iff_forall_sublist).mp h2 hs
  have hp := hm p (hs.subset List.mem_cons_self)
  have hq := hm q (hs.subset (List.mem_cons_of_mem _ List.mem_cons_self))
  rw [pairLe_iff] at a1
  rcases a2 with a2 | a2
  · exact a2
  · rcases a1 with a1 | ⟨a1, a1'⟩
    · exfalso; linarith
    · linarith

theorem gapAt_spec {prec : ℚ} : ∀ {l : List (ℚ × ℚ)} {e s : ℚ}, gapAt prec l = some (e, s) → ∃ l1 p q l2, l = l1 ++ p :: q :: l2 ∧ e = p.2 ∧ s = q.1
  | [], e, s, h => by simp [gapAt] at h
  | [_], e, s, h => by simp [gapAt] at h
  | [p, q], e, s, h => by
    simp only [gapAt, Option.some.injEq, Prod.mk.injEq] at h
    exact ⟨[], p, q, [], rfl, h.1.symm, h.2.symm⟩
  | p :: q :: r :: rest, e, s, h => by
    rw [gapAt] at h
    split at h
    · simp only [Option.some.injEq, Prod.mk.injEq] at h
      exact ⟨[], p, q, r :: rest, rfl, h.1.symm, h.2.symm⟩
    · obtain ⟨l1, p', q', l2, h1, h2, h3⟩ := gapAt_spec h
      exact ⟨p :: l1, p', q', l2, by rw [h1]; rfl, h2, h3⟩

theorem gapAt_none {prec : ℚ} : ∀ {l : List (ℚ × ℚ)}, gapAt prec l = none → l.length ≤ 1
  | [], _ => by simp
  | [_], _ => by simp
  | [p, q], h => by simp [gapAt] at h
  | p :: q :: r :: rest, h => by
    rw [gapAt] at h
    split at h
    · simp at h
    · have := gapAt_none h
      simp at this

theorem arcLength_perm {l m : List (ℚ × ℚ)} (h : l.Perm m) : arcLength l = arcLength m := by
  unfold arcLength
  exact (h.map _).sum_eq

theorem arcLength_cons (p : ℚ × ℚ) (l : List (ℚ × ℚ)) : arcLength (p :: l) = (p.2 - p.1) + arcLength l := by
  simp [arcLength]

/-- the ranges that follow each other between `a` and `E` have a total length of at most `E - a` -/
theorem arcLength_le {l : List (ℚ × ℚ)} (hw : ∀ f ∈ l, f.1 ≤ f.2) (hf : l.Pairwise (fun p q => p.2 ≤ q.1)) {a E : ℚ} (haE : a ≤ E)
    (ha : ∀ f ∈ l, a ≤ f.1) (hE : ∀ f ∈ l, f.2 ≤ E) : arcLength l ≤ E - a := by
  induction l generalizing a with
  | nil => simp [arcLength]; linarith
  | cons p l ih =>
    obtain ⟨h1, h2⟩ := List.pairwise_cons.mp hf
    have := ih (fun f h => hw f (List.mem_cons_of_mem _ h)) h2 (hE p List.mem_cons_self) h1 (fun f h => hE f (List.mem_cons_of_mem _ h))
    have h3 := ha p List.mem_cons_self
    rw [arcLength_cons]
    linarith

/-- where the ranges have holes, the holes are no longer than what is missing from the total length -/
theorem near_range {l : List (ℚ × ℚ)} (hw : ∀ f ∈ l, f.1 ≤ f.2) (hf : l.Pairwise (fun p q => p.2 ≤ q.1)) {a E x : ℚ} (ha : ∀ f ∈ l.head?, f.1 = a)
    (hne : l ≠ []) (hE : ∀ f ∈ l, f.2 ≤ E) (hx : a ≤ x) (hxE : x ≤ E) : ∃ r ∈ l, r.1 ≤ x ∧ x ≤ r.2 + (E - a - arcLength l) := by
  induction l generalizing a with
  | nil => exact absurd rfl hne
  | cons p l ih =>
    obtain ⟨h1, h2⟩ := List.pairwise_cons.mp hf
    have hpa : p.1 = a := ha p rfl
    rw [arcLength_cons]
    cases l with
    | nil =>
      refine ⟨p, List.mem_cons_self, by linarith, ?_⟩
      simp only [arcLength, List.map_nil, List.sum_nil]
      linarith
    | cons q l =>
      rcases lt_or_ge x q.1 with hxq | hxq
      · refine ⟨p, List.mem_cons_self, by linarith, ?_⟩
        have hqE : q.1 ≤ E := (hw q (by simp)).trans (hE q (by simp))
        have := arcLength_le (l := q :: l) (fun f h => hw f (List.mem_cons_of_mem _ h)) h2 hqE (fun f h => by
          rcases List.mem_cons.mp h with rfl | h
          · exact le_refl _
          · exact (hw q (by simp)).trans ((List.pairwise_cons.mp h2).1 f h)) (fun f h => hE f (List.mem_cons_of_mem _ h))
        linarith
      · obtain ⟨r, hr, h3, h4⟩ := ih (a := q.1) (fun f h => hw f (List.mem_cons_of_mem _ h)) h2 (by simp) (by simp)
          (fun f h => hE f (List.mem_cons_of_mem _ h)) hxq
        refine ⟨r, List.mem_cons_of_mem _ hr, h3, ?_⟩
        have := h1 q List.mem_cons_self
        linarith

/-- the last of ranges that follow each other ends last -/
theorem last_max {l : List (ℚ × ℚ)} (hw : ∀ f ∈ l, f.1 ≤ f.2) (hf : l.Pairwise (fun p q => p.2 ≤ q.1)) {z : ℚ × ℚ} (hz : l.getLast? = some z) :
    ∀ f ∈ l, f.2 ≤ z.2 := by
  induction l with
  | nil => simp at hz
  | cons p l ih =>
    obtain ⟨h1, h2⟩ := List.pairwise_cons.mp hf
    intro f hfm
    cases l with
    | nil =>
      simp only [List.getLast?_singleton, Option.some.injEq] at hz
      rw [List.mem_singleton.mp hfm, hz]
    | cons q l =>
      have hz' : (q :: l).getLast? = some z := by
        rw [List.getLast?_cons_cons] at hz
        exact hz
      have ih' := ih (fun f h => hw f (List.mem_cons_of_mem _ h)) h2 hz'
      rcases List.mem_cons.mp hfm with rfl | hfm
      · have a1 := h1 q List.mem_cons_self
        have a2 := hw q (by simp)
        have a3 := ih' q List.mem_cons_self
        linarith
      · exact ih' f hfm

theorem head_min {l : List (ℚ × ℚ)} (hs : l.Pairwise (fun a b => pairLe a b = true)) {z : ℚ × ℚ} (hz : l.head? = some z) : ∀ f ∈ l, z.1 ≤ f.1 := by
  cases l with
  | nil => simp at hz
  | cons p l =>
    simp only [List.head?_cons, Option.some.injEq] at hz
    subst hz
    intro f hf
    rcases List.mem_cons.mp hf with rfl | hf
    · exact le_refl _
    · have := (List.pairwise_cons.mp hs).1 f hf
      rw [pairLe_iff] at this
      rcases this with h | h <;> linarith [h]

end Geouned.Face
