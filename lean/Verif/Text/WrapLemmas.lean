import Verif.Text.Wrap
/-! Lemmas for the wrapping of lines -/
namespace Geouned.Wrap

/-! ### words -/

/-- a character at which a word ends -/
def isSep (c : Char) : Bool := c.isWhitespace || special c

theorem ws_blank : ' '.isWhitespace = true := by decide
theorem ws_nl : '\n'.isWhitespace = true := by decide

@[simp] theorem flush_nil : flush [] = [] := rfl

theorem wf_ws (cur : List Char) {c : Char} (h : c.isWhitespace = true) (s : List Char) :
    wordsFrom cur (c :: s) = flush cur ++ wordsFrom [] s := by
  rw [wordsFrom]; simp [h]

theorem wf_special (cur : List Char) {c : Char} (h : special c = true) (s : List Char) :
    wordsFrom cur (c :: s) = flush cur ++ [c] :: wordsFrom [] s := by
  have h' : c.isWhitespace = false := by
    simp only [special, Bool.or_eq_true, decide_eq_true_eq] at h
    rcases h with (rfl | rfl) | rfl <;> decide
  rw [wordsFrom]; simp [h, h']

theorem wf_word (cur : List Char) {c : Char} (h : isSep c = false) (s : List Char) :
    wordsFrom cur (c :: s) = wordsFrom (cur ++ [c]) s := by
  simp only [isSep, Bool.or_eq_false_iff] at h
  rw [wordsFrom]; simp [h.1, h.2]

/-- the words before a separator and those after -/
theorem wf_sep (cur : List Char) {c : Char} (h : isSep c = true) (s : List Char) :
    wordsFrom cur (c :: s) = flush cur ++ wordsFrom [] (c :: s) := by
  simp only [isSep, Bool.or_eq_true] at h
  rcases h with h | h
  · rw [wf_ws _ h, wf_ws _ h]; simp
  · rw [wf_special _ h, wf_special _ h]; simp

theorem wf_append (s t : List Char) : ∀ cur, (s = [] → cur = []) → (∀ c, s.getLast? = some c → isSep c = true) →
    wordsFrom cur (s ++ t) = wordsFrom cur s ++ wordsFrom [] t := by
  induction s with
  | nil => intro cur h _; rw [h rfl]; rfl
  | cons c s ih =>
    intro cur _ hl
    have hl' : s ≠ [] → ∀ c, s.getLast? = some c → isSep c = true := by
      intro hne d hd
      apply hl d
      cases s with
      | nil => exact absurd rfl hne
      | cons x s => rw [List.getLast?_cons_cons]; exact hd
    by_cases hc : isSep c = true
    · have hi := ih [] (fun _ => rfl) (by
        cases s with
        | nil => simp
        | cons x s => exact hl' (by simp))
      simp only [isSep, Bool.or_eq_true] at hc
      rcases hc with hc | hc
      · simp only [List.cons_append]
        rw [wf_ws _ hc, wf_ws _ hc, hi, List.append_assoc]
      · simp only [List.cons_append]
        rw [wf_special _ hc, wf_special _ hc, hi]; simp
    · have hc' : isSep c = false := by simpa using hc
      have hne : s ≠ [] := by
        rintro rfl
        exact hc (hl c rfl)
      simp only [List.cons_append]
      rw [wf_word _ hc', wf_word _ hc', ih _ (fun h => absurd h hne) (hl' hne)]

theorem words_append (s t : List Char) (h : ∀ c, s.getLast? = some c → isSep c = true) : wordsOf (s ++ t) = wordsOf s ++ wordsOf t :=
  wf_append s t [] (fun _ => rfl) h

theorem wf_replicate (n : Nat) (t : List Char) : wordsFrom [] (List.replicate n ' ' ++ t) = wordsFrom [] t := by
  induction n with
  | zero => simp
  | succ n ih => rw [List.replicate_succ, List.cons_append, wf_ws _ ws_blank, ih]; simp

theorem wf_dropBlank (t : List Char) : wordsFrom [] (t.dropWhile (· = ' ')) = wordsFrom [] t := by
  induction t with
  | nil => rfl
  | cons c t ih =>
    rw [List.dropWhile_cons]
    split
    · next h =>
      simp only [decide_eq_true_eq] at h
      subst h
      rw [wf_ws _ ws_blank, ih]; simp
    · rfl

theorem wf_dropWs (t : List Char) : wordsFrom [] (t.dropWhile Char.isWhitespace) = wordsFrom [] t := by
  induction t with
  | nil => rfl
  | cons c t ih =>
    rw [List.dropWhile_cons]
    split
    · next h => rw [wf_ws _ h, ih]; simp
    · rfl

theorem wf_wsTail (t u : List Char) (h : ∀ c ∈ u, c.isWhitespace = true) : ∀ cur, wordsFrom cur (t ++ u) = wordsFrom cur t := by
  induction t with
  | nil =>
    induction u with
    | nil => intro cur; rfl
    | cons c u ih =>
      intro cur
      have := ih (fun c hc => h c (by simp [hc])) []
      simp only [List.nil_append] at this ⊢
      rw [wf_ws _ (h c (by simp)), this]
      simp [wordsFrom]
  | cons c t ih =>
    intro cur
    simp only [List.cons_append]
    by_cases hw : c.isWhitespace = true
    · rw [wf_ws _ hw, wf_ws _ hw, ih]
    · by_cases hs : special c = true
      · rw [wf_special _ hs, wf_special _ hs, ih]
      · rw [wf_word _ (by simp [isSep, hw, hs]), wf_word _ (by simp [isSep, hw, hs]), ih]

theorem words_strip (s : List Char) : wordsOf (strip s) = wordsOf s := by
  unfold wordsOf strip
  have h1 : s.dropWhile Char.isWhitespace
      = ((s.dropWhile Char.isWhitespace).reverse.dropWhile Char.isWhitespace).reverse
        ++ ((s.dropWhile Char.isWhitespace).reverse.takeWhile Char.isWhitespace).reverse := by
    rw [← List.reverse_append, List.takeWhile_append_dropWhile, List.reverse_reverse]
  have h2 := wf_wsTail ((s.dropWhile Char.isWhitespace).reverse.dropWhile Char.isWhitespace).reverse
    ((s.dropWhile Char.isWhitespace).reverse.takeWhile Char.isWhitespace).reverse (by
      intro c hc
      rw [List.mem_reverse] at hc
      exact List.all_takeWhile (p := Char.isWhitespace) |> fun h => List.all_eq_true.1 h c hc) []
  rw [← h2, ← h1, wf_dropWs]

theorem words_squeeze (s : List Char) : ∀ cur, wordsFrom cur (squeeze s) = wordsFrom cur s := by
  induction s with
  | nil => intro cur; rfl
  | cons c s ih =>
    intro cur
    unfold squeeze
    split
    · next h =>
      obtain ⟨rfl, h⟩ := h
      rw [ih, wf_ws _ ws_blank]
      cases s with
      | nil => simp at h
      | cons d s =>
        simp only [List.head?_cons, Option.some.injEq] at h
        subst h
        rw [wf_ws _ ws_blank, wf_ws _ ws_blank]; simp
    · by_cases hw : c.isWhitespace = true
      · rw [wf_ws _ hw, wf_ws _ hw, ih]
      · by_cases hs : special c = true
        · rw [wf_special _ hs, wf_special _ hs, ih]
        · rw [wf_word _ (by simp [isSep, hw, hs]), wf_word _ (by simp [isSep, hw, hs]), ih]

theorem words_absorb {c : Char} (hc : special c = true) (s : List Char) : ∀ cur, wordsFrom cur (absorb c s) = wordsFrom cur s := by
  induction s with
  | nil => intro cur; rfl
  | cons x s ih =>
    intro cur
    unfold absorb
    split
    · next h =>
      subst h
      rw [wf_special _ hc, wf_special _ hc, wf_dropBlank, ih]
    · split
      · next h =>
        obtain ⟨rfl, h⟩ := h
        rw [wf_ws _ ws_blank, ← ih []]
        cases ha : absorb c s with
        | nil => simp [ha] at h
        | cons d t =>
          rw [ha] at h
          simp only [List.head?_cons, Option.some.injEq] at h
          subst h
          rw [wf_special _ hc, wf_special [] hc]; simp
      · by_cases hw : x.isWhitespace = true
        · rw [wf_ws _ hw, wf_ws _ hw, ih]
        · by_cases hs : special x = true
          · rw [wf_special _ hs, wf_special _ hs, ih]
          · rw [wf_word _ (by simp [isSep, hw, hs]), wf_word _ (by simp [isSep, hw, hs]), ih]

theorem sepIf_cons (p : Char → Char → Bool) (b : Char) (s : List Char) : ∃ t, sepIf p (b :: s) = b :: t := by
  cases s with
  | nil => exact ⟨[], rfl⟩
  | cons c s =>
    unfold sepIf
    split
    · exact ⟨_, rfl⟩
    · exact ⟨_, rfl⟩

theorem words_sepIf {p : Char → Char → Bool} (hp : ∀ a b, p a b = true → isSep a = true ∨ isSep b = true) (s : List Char) :
    ∀ cur, wordsFrom cur (sepIf p s) = wordsFrom cur s := by
  induction s with
  | nil => intro cur; rfl
  | cons a s ih =>
    intro cur
    cases s with
    | nil => rfl
    | cons b s =>
      unfold sepIf
      split
      · next h =>
        by_cases hw : a.isWhitespace = true
        · rw [wf_ws _ hw, wf_ws _ hw, wf_ws _ ws_blank, ih]; simp
        · by_cases hs : special a = true
          · rw [wf_special _ hs, wf_special _ hs, wf_ws _ ws_blank, ih]; simp
          · have ha : isSep a = false := by simp [isSep, hw, hs]
            have hb : isSep b = true := by
              rcases hp a b h with h' | h'
              · rw [ha] at h'; exact absurd h' (by simp)
              · exact h'
            rw [wf_word _ ha, wf_word _ ha, wf_ws _ ws_blank, ih, wf_sep _ hb]
            exact (wf_sep _ hb _).symm
      · by_cases hw : a.isWhitespace = true
        · rw [wf_ws _ hw, wf_ws _ hw, ih]
        · by_cases hs : special a = true
          · rw [wf_special _ hs, wf_special _ hs, ih]
          · rw [wf_word _ (by simp [isSep, hw, hs]), wf_word _ (by simp [isSep, hw, hs]), ih]

theorem sep_paren : isSep '(' = true ∧ isSep ')' = true := by decide

theorem words_normalise (s : List Char) : wordsOf (normalise s) = wordsOf s := by
  unfold normalise
  dsimp only
  unfold wordsOf
  rw [words_sepIf, words_sepIf, words_sepIf, words_sepIf, words_absorb (by decide), words_absorb (by decide), words_absorb (by decide),
    words_squeeze]
  · exact words_strip s
  all_goals
    intro a b h
    simp only [Bool.and_eq_true, decide_eq_true_eq] at h
  · exact .inl (h.1 ▸ sep_paren.2)
  · exact .inr (h.2 ▸ sep_paren.1)
  · exact .inl (h.1 ▸ sep_paren.2)
  · exact .inl (h.1 ▸ sep_paren.2)

/-! ### no newline appears -/

theorem mem_dropWhile {α : Type} {p : α → Bool} {l : List α} {a : α} (h : a ∈ l.dropWhile p) : a ∈ l :=
  (List.dropWhile_suffix p).subset h

theorem mem_strip {c : Char} {s : List Char} (h : c ∈ strip s) : c ∈ s := by
  unfold strip at h
  rw [List.mem_reverse] at h
  have := mem_dropWhile h
  rw [List.mem_reverse] at this
  exact mem_dropWhile this

theorem mem_squeeze {c : Char} : ∀ {s : List Char}, c ∈ squeeze s → c ∈ s
  | [], h => h
  | d :: s, h => by
    unfold squeeze at h
    split at h
    · exact .tail _ (mem_squeeze h)
    · rcases List.mem_cons.1 h with rfl | h
      · simp
      · exact .tail _ (mem_squeeze h)

theorem mem_absorb {c x : Char} : ∀ {s : List Char}, c ∈ absorb x s → c ∈ s
  | [], h => h
  | d :: s, h => by
    unfold absorb at h
    split at h
    · next hd =>
      rcases List.mem_cons.1 h with rfl | h
      · simp [hd]
      · exact .tail _ (mem_absorb (mem_dropWhile h))
    · split at h
      · exact .tail _ (mem_absorb h)
      · rcases List.mem_cons.1 h with rfl | h
        · simp
        · exact .tail _ (mem_absorb h)

theorem mem_sepIf {c : Char} (hc : c ≠ ' ') {p : Char → Char → Bool} : ∀ {s : List Char}, c ∈ sepIf p s → c ∈ s
  | [], h => h
  | [a], h => h
  | a :: b :: s, h => by
    unfold sepIf at h
    split at h
    · rcases List.mem_cons.1 h with rfl | h
      · simp
      · rcases List.mem_cons.1 h with h | h
        · exact absurd h hc
        · exact .tail _ (mem_sepIf hc h)
    · rcases List.mem_cons.1 h with rfl | h
      · simp
      · exact .tail _ (mem_sepIf hc h)

theorem mem_normalise {c : Char} (hc : c ≠ ' ') {s : List Char} (h : c ∈ normalise s) : c ∈ s := by
  unfold normalise at h
  dsimp only at h
  exact mem_strip (mem_squeeze (mem_absorb (mem_absorb (mem_absorb (mem_sepIf hc (mem_sepIf hc (mem_sepIf hc (mem_sepIf hc h))))))))

/-! ### lines -/

theorem linesOf_ne (s : List Char) : linesOf s ≠ [] := by
  cases s with
  | nil => simp [linesOf]
  | cons c s =>
    unfold linesOf
    split
    · simp
    · split <;> simp

theorem linesOf_cons {c : Char} (hc : c ≠ '\n') {s l : List Char} {ls : List (List Char)} (h : linesOf s = l :: ls) :
    linesOf (c :: s) = (c :: l) :: ls := by
  rw [linesOf]; simp [hc, h]

theorem linesOf_append {a : List Char} (ha : '\n' ∉ a) {s l : List Char} {ls : List (List Char)} (h : linesOf s = l :: ls) :
    linesOf (a ++ s) = (a ++ l) :: ls := by
  induction a with
  | nil => exact h
  | cons c a ih =>
    simp only [List.mem_cons, not_or] at ha
    exact linesOf_cons (fun h => ha.1 h.symm) (ih ha.2)

theorem linesOf_single {a : List Char} (ha : '\n' ∉ a) : linesOf a = [a] := by
  have := linesOf_append ha (s := []) (l := []) (ls := []) rfl
  simpa using this

theorem linesOf_nl (a : List Char) (ha : '\n' ∉ a) (s : List Char) : linesOf (a ++ '\n' :: s) = a :: linesOf s := by
  have h : linesOf ('\n' :: s) = [] :: linesOf s := by rw [linesOf]; simp
  have := linesOf_append ha h
  simpa using this

theorem nl_replicate (n : Nat) : '\n' ∉ List.replicate n ' ' := by
  intro h
  have := List.eq_of_mem_replicate h
  exact absurd this (by decide)

end Geouned.Wrap
