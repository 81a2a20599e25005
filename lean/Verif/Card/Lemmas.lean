import Verif.Card.Model
import Mathlib.Tactic.Ring
/-!
# Lemmas for C79: the lines of a file, one by one
-/
namespace Geouned.Card

/-- a line with its newline character -/
def nl (t : List Char) : List Char := t ++ ['\n']

theorem white_nl : white '\n' = true := by decide
theorem white_blank : white ' ' = true := by decide
theorem white_tab : white '\t' = true := by decide

theorem lineEnd_white {c : Char} (h : lineEnd c = true) : white c = true := by
  simp only [lineEnd, List.mem_cons, List.not_mem_nil, or_false, decide_eq_true_eq] at h
  simp only [white, List.mem_cons, List.not_mem_nil, or_false, Bool.or_eq_true, decide_eq_true_eq]
  omega

theorem lineEnd_nl : lineEnd '\n' = true := by decide
theorem lineEnd_blank : lineEnd ' ' = false := by decide

theorem Plain.noEnd {t : List Char} (h : Plain t) : ∀ c ∈ t, lineEnd c = false := by
  intro c hc
  rcases Bool.eq_false_or_eq_true (lineEnd c) with hh | hh
  · have := h c hc (lineEnd_white hh)
    subst this
    exact lineEnd_blank
  · exact hh

theorem Plain.noNl {t : List Char} (h : Plain t) : '\n' ∉ t := by
  intro hc
  have := h _ hc white_nl
  exact absurd this (by decide)

theorem Plain.cons {c : Char} {t : List Char} (h : Plain (c :: t)) : Plain t := fun x hx => h x (List.mem_cons_of_mem _ hx)

theorem Empty.plain {t : List Char} (h : Empty t) : Plain t := fun c hc _ => h c hc

/-! ## Python's lines -/

theorem pyLines_cons (t s : List Char) (h : '\n' ∉ t) : pyLines (t ++ '\n' :: s) = nl t :: pyLines s := by
  induction t with
  | nil => simp [pyLines, nl]
  | cons c t ih =>
    have hc : c ≠ '\n' := fun he => h (he ▸ List.mem_cons_self)
    have ht := ih (fun hm => h (List.mem_cons_of_mem _ hm))
    simp only [List.cons_append, pyLines, if_neg hc, ht, nl]

theorem pyLines_file {a b : List (List Char)} {s : List Char} (hf : FileOf (a ++ b) s) (ha : ∀ t ∈ a, '\n' ∉ t)
    (he : b = [] → s = [] ∨ s.getLast? = some '\n') : ∃ s', pyLines s = a.map nl ++ pyLines s' := by
  induction a generalizing s with
  | nil => exact ⟨s, by simp⟩
  | cons t a ih =>
    rw [List.cons_append] at hf
    generalize hg : a ++ b = r at hf
    cases hf with
    | last _ hne =>
      exfalso
      have hb : b = [] := by
        rcases List.append_eq_nil_iff.mp hg with ⟨_, hb⟩
        exact hb
      rcases he hb with h0 | h1
      · exact hne h0
      · have := List.mem_of_getLast? h1
        exact ha t List.mem_cons_self this
    | cons _ _ s1 hf1 =>
      subst hg
      obtain ⟨s', hs'⟩ := ih hf1 (fun u hu => ha u (List.mem_cons_of_mem _ hu)) (by
        intro hb
        by_cases h0 : s1 = []
        · exact Or.inl h0
        · right
          rcases he hb with h | h
          · simp at h
          · rw [List.getLast?_append] at h
            rw [List.getLast?_cons] at h
            cases s1 with
            | nil => exact absurd rfl h0
            | cons x xs =>
              simp only [List.getLast?_cons] at h ⊢
              simpa using h)
      refine ⟨s', ?_⟩
      rw [pyLines_cons _ _ (ha t List.mem_cons_self), hs']
      rfl

theorem replaceTab_expand {n : Nat} {a b : List Char} (h : Expand n a b) : replaceTab n (nl a) = nl b := by
  induction h with
  | nil n => simp [nl, replaceTab]
  | tab n k a b h0 h8 hd _ ih =>
    have hk : (n / 8 + 1) * 8 - n = k := by
      obtain ⟨m, hm⟩ := hd
      omega
    simp only [nl, List.cons_append, replaceTab, if_true, hk]
    have := ih
    simp only [nl] at this
    rw [this, List.append_assoc]
  | char n c a b hc _ ih =>
    have := ih
    simp only [nl] at this
    simp only [nl, List.cons_append, replaceTab, if_neg hc, this]

theorem expand_noNl {n : Nat} {a b : List Char} (h : Expand n a b) (hb : '\n' ∉ b) : '\n' ∉ a := by
  induction h with
  | nil n => exact hb
  | tab n k a b h0 h8 hd _ ih =>
    have := ih (fun hm => hb (List.mem_append_right _ hm))
    simp only [List.mem_cons, not_or]
    exact ⟨by decide, this⟩
  | char n c a b hc _ ih =>
    simp only [List.mem_cons, not_or] at hb ⊢
    exact ⟨hb.1, ih hb.2⟩

/-! ## kinds of lines -/

theorem isBlankline_nl {t : List Char} (h : Plain t) : isBlankline (nl t) = true ↔ Empty t := by
  simp only [isBlankline, nl, List.all_append, List.all_cons, List.all_nil, white_nl, Bool.and_true, List.all_eq_true]
  exact ⟨fun hh c hc => h c hc (hh c hc), fun hh c hc => by rw [hh c hc]; exact white_blank⟩

theorem take5_nl {t : List Char} : (nl t).take 5 = [' ', ' ', ' ', ' ', ' '] ↔ Indented t := by
  constructor
  · intro h
    match t, h with
    | [], h => exact absurd h (by simp [nl])
    | [a], h => exact absurd h (by simp [nl])
    | [a, b], h => exact absurd h (by simp [nl])
    | [a, b, c], h => exact absurd h (by simp [nl])
    | [a, b, c, d], h => exact absurd h (by simp [nl])
    | a :: b :: c :: d :: e :: r, h =>
      simp only [nl, List.cons_append, List.take_succ_cons, List.take_zero, List.cons.injEq, and_true] at h
      obtain ⟨rfl, rfl, rfl, rfl, rfl⟩ := h
      exact ⟨r, rfl⟩
  · rintro ⟨r, rfl⟩
    simp [nl]

theorem takeWhile_mem {p : Char → Bool} {l : List Char} {c : Char} (h : c ∈ l.takeWhile p) : p c = true := by
  induction l with
  | nil => simp at h
  | cons x l ih =>
    by_cases hx : p x = true
    · rw [List.takeWhile_cons_of_pos hx] at h
      rcases List.mem_cons.mp h with rfl | h
      · exact hx
      · exact ih h
    · rw [List.takeWhile_cons_of_neg hx] at h
      simp at h

theorem takeWhile_all {p : Char → Bool} {l : List Char} (h : ∀ c ∈ l, p c = true) : l.takeWhile p = l := by
  induction l with
  | nil => rfl
  | cons x l ih =>
    rw [List.takeWhile_cons_of_pos (h x List.mem_cons_self), ih (fun c hc => h c (List.mem_cons_of_mem _ hc))]

theorem ampFlag_false (l : List Char) : ampFlag l = false := by
  simp only [ampFlag, decide_eq_false_iff_not]
  intro h
  have h1 := List.mem_of_mem_take h
  unfold index at h1
  split at h1
  · have : l.take (l.takeWhile (fun c => !(decide (c = '$') || decide (c = '&')))).length
        = l.takeWhile (fun c => !(decide (c = '$') || decide (c = '&'))) :=
      (List.prefix_iff_eq_take.mp (List.takeWhile_prefix _)).symm
    rw [this] at h1
    have := takeWhile_mem h1
    simp at this
  · rename_i hn
    apply hn
    rw [List.any_eq_true]
    exact ⟨'&', List.mem_of_mem_take h1, by decide⟩

theorem firstLine_nl {t : List Char} (h : Plain t) : (nl t).takeWhile (fun c => !lineEnd c) = t := by
  have h1 := h.noEnd
  unfold nl
  rw [List.takeWhile_append_of_pos (by intro c hc; simp [h1 c hc])]
  simp [lineEnd_nl]

theorem white_replicate (k : Nat) (t : List Char) : lstrip (List.replicate k ' ' ++ t) = lstrip t := by
  induction k with
  | zero => rfl
  | succ k ih =>
    rw [List.replicate_succ, List.cons_append, lstrip, List.dropWhile_cons_of_pos white_blank]
    exact ih

/-- a plain text: leading blanks, then nothing or a character that is not white -/
theorem plain_split {t : List Char} (h : Plain t) :
    ∃ k, t = List.replicate k ' ' ∨ ∃ c r, white c = false ∧ t = List.replicate k ' ' ++ c :: r := by
  induction t with
  | nil => exact ⟨0, Or.inl rfl⟩
  | cons c t ih =>
    rcases Bool.eq_false_or_eq_true (white c) with hc | hc
    · have he := h c List.mem_cons_self hc
      subst he
      obtain ⟨k, hk | ⟨d, r, hd, hk⟩⟩ := ih h.cons
      · exact ⟨k + 1, Or.inl (by rw [hk, List.replicate_succ])⟩
      · exact ⟨k + 1, Or.inr ⟨d, r, hd, by rw [hk, List.replicate_succ, List.cons_append]⟩⟩
    · exact ⟨0, Or.inr ⟨c, t, hc, rfl⟩⟩

theorem lstrip_cons {c : Char} {r : List Char} (hc : white c = false) : lstrip (c :: r) = c :: r := by
  rw [lstrip, List.dropWhile_cons_of_neg (by simp [hc])]

theorem toLower_c {c : Char} (h : c.toLower = 'c') : c = 'c' ∨ c = 'C' := by
  have h1 : c.toLower.val = 'c'.val := by rw [h]
  by_cases hu : c.val ≥ 'A'.val ∧ c.val ≤ 'Z'.val
  · rw [Char.toLower] at h
    rw [dif_pos hu] at h
    right
    have h2 := congrArg (fun x : Char => x.val) h
    have h3 : c.val + 32 = 99 := h2
    apply Char.ext
    have : c.val.toNat + 32 = 99 ∨ True := Or.inr trivial
    have h4 : c.val = 67 := by
      have := congrArg (· - 32) h3
      simpa using this
    exact h4
  · rw [Char.toLower] at h
    rw [dif_neg hu] at h
    left
    exact h

theorem white_noWhite : white '$' = false ∧ white 'c' = false ∧ white 'C' = false := by decide

/-- a comment of the specification is a comment of the program, except `c` alone after blanks -/
theorem isCommented_of {t : List Char} (hp : Plain t) (h : IsComment t)
    (hl : ∀ k, 0 < k → t ≠ List.replicate k ' ' ++ ['c'] ∧ t ≠ List.replicate k ' ' ++ ['C']) : isCommented (nl t) = true := by
  unfold isCommented
  simp only [firstLine_nl hp]
  obtain ⟨k, hk, rest, hd | ⟨hc, hr⟩⟩ := h
  · split
    · rfl
    split
    · rfl
    have hm : '$' ∈ t := by rw [hd]; simp
    rw [if_pos hm, hd, List.takeWhile_append_of_pos (by intro c hc; rw [List.eq_of_mem_replicate hc]; decide)]
    simp only [ne_eq, not_true_eq_false, decide_false, Bool.false_eq_true, not_false_eq_true, List.takeWhile_cons_of_neg, List.append_nil,
      List.all_eq_true]
    intro c hc
    rw [List.eq_of_mem_replicate hc]
    exact white_blank
  · rcases hr with hr | hr
    · subst hr
      have hk0 : k = 0 := by
        rcases Nat.eq_zero_or_pos k with h0 | h0
        · exact h0
        · rcases hc with hc | hc
          · exact absurd hc (hl k h0).1
          · exact absurd hc (hl k h0).2
      subst hk0
      split
      · rfl
      split
      · rfl
      rename_i hn
      exfalso
      apply hn
      rcases hc with hc | hc <;> rw [hc] <;> decide
    · cases rest with
      | nil => exact absurd hr (by simp)
      | cons b rest =>
        have hb : b = ' ' := by simpa using hr
        subst hb
        have ht : ∃ c, (c = 'c' ∨ c = 'C') ∧ t = List.replicate k ' ' ++ c :: ' ' :: rest := by
          rcases hc with hc | hc
          · exact ⟨'c', Or.inl rfl, hc⟩
          · exact ⟨'C', Or.inr rfl, hc⟩
        obtain ⟨c, hcc, ht⟩ := ht
        have hw : white c = false := by rcases hcc with rfl | rfl <;> decide
        have h6 : (lower (lstrip (t.take 6))).take 2 = ['c', ' '] := by
          rw [ht, List.take_append, List.take_replicate, Nat.min_eq_right (by omega), white_replicate]
          have : 6 - (List.replicate k ' ').length = (4 - k) + 2 := by simp; omega
          rw [this, List.take_succ_cons, List.take_succ_cons, lstrip_cons hw, lower, List.map_cons, List.map_cons, List.take_succ_cons,
            List.take_succ_cons, List.take_zero]
          rcases hcc with rfl | rfl <;> rfl
        rw [if_pos h6]

/-- what the program calls a comment -/
theorem isCommented_imp {t : List Char} (hp : Plain t) (h : isCommented (nl t) = true) :
    IsComment t ∨ ∃ k rest, t = List.replicate k ' ' ++ '$' :: rest := by
  unfold isCommented at h
  simp only [firstLine_nl hp] at h
  split at h
  · rename_i h6
    left
    obtain ⟨k, hk | ⟨c, r, hc, hk⟩⟩ := plain_split hp
    · exfalso
      rw [hk, List.take_replicate] at h6
      have := white_replicate (min 6 k) []
      rw [List.append_nil] at this
      rw [this] at h6
      exact absurd h6 (by decide)
    · have hk5 : k ≤ 5 := by
        by_contra hn
        rw [hk, List.take_append, List.take_replicate, Nat.min_eq_left (by omega)] at h6
        have h0 : 6 - (List.replicate k ' ').length = 0 := by simp; omega
        rw [h0, List.take_zero, white_replicate] at h6
        exact absurd h6 (by decide)
      rw [hk, List.take_append, List.take_replicate, Nat.min_eq_right (by omega), white_replicate] at h6
      have : 6 - (List.replicate k ' ').length = (5 - k) + 1 := by simp; omega
      rw [this, List.take_succ_cons, lstrip_cons hc, lower, List.map_cons, List.take_succ_cons] at h6
      have hcc := toLower_c (List.cons.inj h6).1
      have h7 := (List.cons.inj h6).2
      cases h5 : 5 - k with
      | zero => rw [h5, List.take_zero] at h7; exact absurd h7 (by decide)
      | succ m =>
        rw [h5] at h7
        cases r with
        | nil => simp at h7
        | cons b r =>
          rw [List.take_succ_cons, List.map_cons, List.take_succ_cons] at h7
          have hb : b.toLower = ' ' := (List.cons.inj h7).1
          have hb' : b = ' ' := by
            by_cases hu : b.val ≥ 'A'.val ∧ b.val ≤ 'Z'.val
            · rw [Char.toLower, dif_pos hu] at hb
              exfalso
              have h2 := congrArg (fun x : Char => x.val) hb
              have h3 : b.val + 32 = 32 := h2
              have h4 : b.val = 0 := by
                have := congrArg (· - 32) h3
                simpa using this
              rw [h4] at hu
              exact absurd hu (by decide)
            · rw [Char.toLower, dif_neg hu] at hb
              exact hb
          subst hb'
          refine ⟨k, by omega, ' ' :: r, Or.inr ⟨?_, Or.inr rfl⟩⟩
          rcases hcc with rfl | rfl
          · exact Or.inl hk
          · exact Or.inr hk
  split at h
  · rename_i _ h1
    left
    cases t with
    | nil => exact absurd h1 (by decide)
    | cons c r =>
      rw [lower, List.map_cons] at h1
      have hr : r = [] := List.map_eq_nil_iff.mp (List.cons.inj h1).2
      subst hr
      refine ⟨0, by omega, [], Or.inr ⟨?_, Or.inl rfl⟩⟩
      rcases toLower_c (List.cons.inj h1).1 with rfl | rfl
      · exact Or.inl rfl
      · exact Or.inr rfl
  split at h
  · rename_i hm
    right
    obtain ⟨k, hk | ⟨c, r, hc, hk⟩⟩ := plain_split hp
    · rw [hk] at hm
      exact absurd (List.eq_of_mem_replicate hm) (by decide)
    · refine ⟨k, r, ?_⟩
      by_cases hd : c = '$'
      · rw [hk, hd]
      · exfalso
        rw [hk, List.takeWhile_append_of_pos (by intro c hc; rw [List.eq_of_mem_replicate hc]; decide),
          List.takeWhile_cons_of_pos (by simpa using hd)] at h
        simp only [List.all_append, List.all_cons, Bool.and_eq_true] at h
        rw [hc] at h
        exact absurd h.2.1 (by decide)
  · exact absurd h (by decide)

theorem indented_of_replicate {k : Nat} {r : List Char} (h : 5 ≤ k) : Indented (List.replicate k ' ' ++ r) := by
  obtain ⟨m, rfl⟩ := Nat.exists_eq_add_of_le h
  refine ⟨List.replicate m ' ' ++ r, ?_⟩
  rw [List.replicate_add]
  simp [List.replicate]

theorem not_commented {t : List Char} (hp : Plain t) (hc : ¬ IsComment t) (hi : ¬ Indented t) : isCommented (nl t) = false := by
  rcases Bool.eq_false_or_eq_true (isCommented (nl t)) with h | h
  · exfalso
    rcases isCommented_imp hp h with h1 | ⟨k, r, h1⟩
    · exact hc h1
    · by_cases hk : k ≤ 4
      · exact hc ⟨k, hk, r, Or.inl h1⟩
      · exact hi (h1 ▸ indented_of_replicate (by omega))
  · exact h

theorem comment_not_indented {t : List Char} (h : IsComment t) : ¬ Indented t := by
  rintro ⟨r, hr⟩
  obtain ⟨k, hk, rest, hd | ⟨hc | hc, _⟩⟩ := h
  all_goals
    have h5 := ‹t = _›
    try rw [hd] at hr
    try rw [hc] at hr
    have : (List.replicate k ' ').length ≤ 4 := by simpa using hk
    rcases k with _ | _ | _ | _ | _ | k
    all_goals first
      | omega
      | (simp [List.replicate] at hr)

theorem comment_not_empty {t : List Char} (h : IsComment t) : ¬ Empty t := by
  intro he
  obtain ⟨k, hk, rest, hd | ⟨hc | hc, _⟩⟩ := h
  · exact absurd (he '$' (by rw [hd]; simp)) (by decide)
  · exact absurd (he 'c' (by rw [hc]; simp)) (by decide)
  · exact absurd (he 'C' (by rw [hc]; simp)) (by decide)

theorem take_index {t : List Char} : (nl t).take (index (nl t)) = content t := by
  unfold index nl content
  split
  · rename_i h
    rw [← List.prefix_iff_eq_take.mp (List.takeWhile_prefix _)]
    rw [List.any_append] at h
    have h1 : t.any (fun c => decide (c = '$') || decide (c = '&')) = true := by
      rw [Bool.or_eq_true] at h
      rcases h with h | h
      · exact h
      · exact absurd h (by decide)
    clear h
    induction t with
    | nil => exact absurd h1 (by decide)
    | cons c t ih =>
      by_cases hc : c = '$' ∨ c = '&'
      · rw [List.cons_append, List.takeWhile_cons_of_neg (by rcases hc with rfl | rfl <;> decide), List.takeWhile_cons_of_neg]
        rcases hc with rfl | rfl <;> decide
      · have hc' := not_or.mp hc
        rw [List.cons_append, List.takeWhile_cons_of_pos (by simp [hc'.1, hc'.2]), List.takeWhile_cons_of_pos (by simp [hc'.1, hc'.2])]
        congr 1
        apply ih
        simpa [hc'.1, hc'.2] using h1
  · rename_i h
    have hn : ∀ c ∈ t, c ≠ '$' ∧ c ≠ '&' := by
      intro c hc
      constructor
      · rintro rfl
        apply h
        rw [List.any_append, List.any_eq_true.mpr ⟨'$', hc, by decide⟩]
        rfl
      · rintro rfl
        apply h
        rw [List.any_append, List.any_eq_true.mpr ⟨'&', hc, by decide⟩]
        rfl
    have : t.takeWhile (fun c => decide (c ≠ '$') && decide (c ≠ '&')) = t := by
      apply takeWhile_all
      intro c hc
      simp [hn c hc]
    rw [this]
    simp

end Geouned.Card
