import Verif.Text.WrapLemmas2
/-! When the stretches of the tidied text are short -/
namespace Geouned.Wrap

theorem wf_append_sep (s : List Char) {c : Char} (hc : isSep c = true) (t : List Char) : ∀ cur,
    wordsFrom cur (s ++ c :: t) = wordsFrom cur s ++ wordsFrom [] (c :: t) := by
  induction s with
  | nil =>
    intro cur
    rw [List.nil_append, wf_sep _ hc]
    rfl
  | cons d s ih =>
    intro cur
    simp only [List.cons_append]
    by_cases hw : d.isWhitespace = true
    · rw [wf_ws _ hw, wf_ws _ hw, ih, List.append_assoc]
    · by_cases hs : special d = true
      · rw [wf_special _ hs, wf_special _ hs, ih]; simp
      · rw [wf_word _ (by simp [isSep, hw, hs]), wf_word _ (by simp [isSep, hw, hs]), ih]

/-- the word that a stretch of word characters belongs to -/
theorem word_of (w : List Char) (hne : w ≠ []) (hw : ∀ c ∈ w, isSep c = false) (post : List Char) : ∀ (cur : List Char),
    ∃ x ∈ wordsFrom cur (w ++ post), w.length + cur.length ≤ x.length := by
  have key : ∀ (s cur : List Char), cur ≠ [] → ∃ x ∈ wordsFrom cur s, cur.length ≤ x.length := by
    intro s
    induction s with
    | nil => intro cur h; exact ⟨cur, by simp [wordsFrom, flush, h], Nat.le_refl _⟩
    | cons d s ih =>
      intro cur h
      by_cases hd : isSep d = true
      · exact ⟨cur, by rw [wf_sep _ hd]; simp [flush, h], Nat.le_refl _⟩
      · rw [wf_word _ (by simpa using hd)]
        obtain ⟨x, h1, h2⟩ := ih (cur ++ [d]) (by simp)
        exact ⟨x, h1, by rw [List.length_append] at h2; omega⟩
  induction w with
  | nil => exact absurd rfl hne
  | cons c w ih =>
    intro cur
    rw [List.cons_append, wf_word _ (hw c (by simp))]
    cases w with
    | nil =>
      obtain ⟨x, h1, h2⟩ := key post (cur ++ [c]) (by simp)
      exact ⟨x, h1, by simp at h2 ⊢; omega⟩
    | cons d w =>
      obtain ⟨x, h1, h2⟩ := ih (by simp) (fun y hy => hw y (by simp at hy ⊢; exact .inr hy)) (cur ++ [c])
      exact ⟨x, h1, by simp at h2 ⊢; omega⟩

theorem word_of' (pre w : List Char) (hne : w ≠ []) (hw : ∀ c ∈ w, isSep c = false) (post : List Char) : ∀ (cur : List Char),
    ∃ x ∈ wordsFrom cur (pre ++ (w ++ post)), w.length ≤ x.length := by
  induction pre with
  | nil =>
    intro cur
    obtain ⟨x, h1, h2⟩ := word_of w hne hw post cur
    exact ⟨x, h1, by omega⟩
  | cons c pre ih =>
    intro cur
    by_cases hc : isSep c = true
    · simp only [isSep, Bool.or_eq_true] at hc
      obtain ⟨x, h1, h2⟩ := ih []
      rcases hc with hc | hc
      · exact ⟨x, by rw [List.cons_append, wf_ws _ hc]; simp [h1], h2⟩
      · exact ⟨x, by rw [List.cons_append, wf_special _ hc]; simp [h1], h2⟩
    · rw [List.cons_append, wf_word _ (by simpa using hc)]
      exact ih _

/-- the last word of a text that ends with a word character -/
theorem last_word (s : List Char) {c : Char} (hc : isSep c = false) : ∀ cur, ∃ x ∈ wordsFrom cur (s ++ [c]), x.getLast? = some c := by
  induction s with
  | nil => intro cur; refine ⟨cur ++ [c], ?_, by simp⟩; rw [List.nil_append, wf_word _ hc]; simp [wordsFrom, flush]
  | cons d s ih =>
    intro cur
    by_cases hd : isSep d = true
    · simp only [isSep, Bool.or_eq_true] at hd
      obtain ⟨x, h1, h2⟩ := ih []
      rcases hd with hd | hd
      · exact ⟨x, by rw [List.cons_append, wf_ws _ hd]; simp [h1], h2⟩
      · exact ⟨x, by rw [List.cons_append, wf_special _ hd]; simp [h1], h2⟩
    · rw [List.cons_append, wf_word _ (by simpa using hd)]
      exact ih _

/-- many parentheses in a row are as many words in a row -/
theorem words_replicate (k : Nat) (t : List Char) : wordsFrom [] (List.replicate k '(' ++ t) = List.replicate k ['('] ++ wordsFrom [] t := by
  induction k with
  | zero => rfl
  | succ k ih => rw [List.replicate_succ, List.cons_append, wf_special _ (by decide), ih]; rfl

theorem parens_infix (pre : List Char) (k : Nat) (post : List Char) : List.replicate k ['('] <:+: wordsOf (pre ++ (List.replicate k '(' ++ post)) := by
  cases k with
  | zero => exact List.nil_infix
  | succ k =>
    refine ⟨wordsOf pre, wordsOf post, ?_⟩
    unfold wordsOf
    rw [List.replicate_succ (a := '('), List.cons_append, wf_append_sep pre (by decide)]
    have := words_replicate (k + 1) post
    rw [List.replicate_succ (a := '('), List.cons_append] at this
    rw [this]
    simp

/-! ### neighbours -/

/-- `a` stands just before `b` somewhere -/
def Adj (a b : Char) (s : List Char) : Prop := ∃ x y, s = x ++ a :: b :: y

theorem Adj.tail {a b c : Char} {s : List Char} (h : Adj a b s) : Adj a b (c :: s) := by
  obtain ⟨x, y, rfl⟩ := h
  exact ⟨c :: x, y, rfl⟩

theorem adj_cons {a b c : Char} {s : List Char} (h : Adj a b (c :: s)) : (c = a ∧ s.head? = some b) ∨ Adj a b s := by
  obtain ⟨x, y, h⟩ := h
  cases x with
  | nil => cases h; exact .inl ⟨rfl, rfl⟩
  | cons d x => cases h; exact .inr ⟨x, y, rfl⟩

theorem sepIf_adj {p : Char → Char → Bool} {a b : Char} (ha : a ≠ ' ') (hb : b ≠ ' ') : ∀ {s : List Char}, Adj a b (sepIf p s) → Adj a b s ∧ p a b = false
  | [], h => by obtain ⟨x, y, h⟩ := h; cases x <;> simp [sepIf] at h
  | [c], h => by
    obtain ⟨x, y, h⟩ := h
    have := congrArg List.length h
    simp [sepIf] at this
    omega
  | c :: d :: s, h => by
    unfold sepIf at h
    split at h
    · rcases adj_cons h with ⟨-, h1⟩ | h
      · simp at h1; exact absurd h1.symm hb
      · rcases adj_cons h with ⟨h, -⟩ | h
        · exact absurd h.symm ha
        · obtain ⟨h1, h2⟩ := sepIf_adj ha hb h
          exact ⟨h1.tail, h2⟩
    · next hp =>
      rcases adj_cons h with ⟨h0, h1⟩ | h
      · obtain ⟨t, ht⟩ := sepIf_cons p d s
        rw [ht] at h1
        simp at h1
        subst h0
        subst h1
        exact ⟨⟨[], s, rfl⟩, by simpa using hp⟩
      · obtain ⟨h1, h2⟩ := sepIf_adj ha hb h
        exact ⟨h1.tail, h2⟩

theorem normalise_adj {c : Char} (hc : c.isDigit = true) (s : List Char) : ¬ Adj c '(' (normalise s) := by
  intro h
  have hc' : c ≠ ' ' := by rintro rfl; exact absurd hc (by decide)
  unfold normalise at h
  dsimp only at h
  have := (sepIf_adj hc' (by decide) (sepIf_adj hc' (by decide) (sepIf_adj hc' (by decide) h).1).1).2
  simp [hc] at this

theorem sep_digit {c : Char} (h : c.isDigit = true ∨ c = '-') : isSep c = false := by
  rcases h with h | rfl
  · have key : ∀ d : Char, d.isDigit = false → c ≠ d := by
      rintro d hd rfl
      rw [hd] at h
      cases h
    simp only [isSep, special, Char.isWhitespace, Bool.or_eq_false_iff, decide_eq_false_iff_not]
    exact ⟨⟨⟨⟨key _ (by decide), key _ (by decide)⟩, key _ (by decide)⟩, key _ (by decide)⟩,
      ⟨key _ (by decide), key _ (by decide)⟩, key _ (by decide)⟩
  · decide

/-- a stretch of the tidied text: parentheses, then (a part of) a number -/
theorem stretch {s : List Char} (hch : ∀ c ∈ s, c.isDigit = true ∨ c = '-' ∨ c = '(' ∨ c = ')' ∨ c = ':' ∨ c = ' ')
    (hnum : ∀ w ∈ wordsOf s, w.getLast? ≠ some '-') :
    ∀ (u pre post : List Char), normalise s = pre ++ (u ++ post) → (∀ c ∈ u, c ≠ ')' ∧ c ≠ ':' ∧ c ≠ ' ') →
    ∃ k w, u = List.replicate k '(' ++ w ∧ ∀ c ∈ w, c.isDigit = true ∨ c = '-'
  | [], _, _, _, _ => ⟨0, [], rfl, by simp⟩
  | c :: u, pre, post, h, hu => by
    obtain ⟨k, w, rfl, hw⟩ := stretch hch hnum u (pre ++ [c]) post (by rw [h]; simp) (fun d hd => hu d (by simp [hd]))
    have hc := hu c (by simp)
    have hcs : c.isDigit = true ∨ c = '-' ∨ c = '(' := by
      have hm : c ∈ s := mem_normalise hc.2.2 (by rw [h]; simp)
      rcases hch c hm with h | h | h | h | h | h
      · exact .inl h
      · exact .inr (.inl h)
      · exact .inr (.inr h)
      · exact absurd h hc.1
      · exact absurd h hc.2.1
      · exact absurd h hc.2.2
    rcases hcs with hd | hd | hd
    · cases k with
      | zero => exact ⟨0, c :: w, rfl, by simpa [hd] using hw⟩
      | succ k => exact absurd ⟨pre, _, by rw [h, List.replicate_succ]; rfl⟩ (normalise_adj hd s)
    · cases k with
      | zero => exact ⟨0, c :: w, rfl, by simpa [hd] using hw⟩
      | succ k =>
        exfalso
        subst hd
        obtain ⟨x, h1, h2⟩ := last_word pre (c := '-') (by decide) []
        refine hnum x ?_ h2
        rw [← words_normalise, h]
        have e : pre ++ ('-' :: (List.replicate (k + 1) '(' ++ w) ++ post) = (pre ++ ['-']) ++ '(' :: (List.replicate k '(' ++ w ++ post) := by
          rw [List.replicate_succ]; simp
        rw [e]
        unfold wordsOf
        rw [wf_append_sep _ (by decide)]
        exact List.mem_append_left _ h1
    · subst hd
      exact ⟨k + 1, w, by rw [List.replicate_succ]; rfl, hw⟩

theorem room_of_words {d m : Nat} {s : List Char} (hch : ∀ c ∈ s, c.isDigit = true ∨ c = '-' ∨ c = '(' ∨ c = ')' ∨ c = ':' ∨ c = ' ')
    (hnum : ∀ w ∈ wordsOf s, w.getLast? ≠ some '-' ∧ w.length ≤ d) (hpar : ¬ List.replicate (m + 1) ['('] <:+: wordsOf s) :
    Room (m + d + 1) (normalise s) := by
  rintro u ⟨pre, post, h⟩ hu
  have h' : normalise s = pre ++ (u ++ post) := by rw [← h]; simp
  obtain ⟨k, w, rfl, hw⟩ := stretch hch (fun w hw => (hnum w hw).1) u pre post h' hu
  have hk : k ≤ m := by
    refine Classical.byContradiction fun hk => hpar ?_
    have h1 := parens_infix pre k (w ++ post)
    have e : pre ++ (List.replicate k '(' ++ (w ++ post)) = normalise s := by rw [h']; simp
    rw [e, words_normalise] at h1
    refine List.IsInfix.trans ?_ h1
    have : List.replicate k ['('] = List.replicate (m + 1) ['('] ++ List.replicate (k - (m + 1)) ['('] := by
      rw [List.replicate_append_replicate]; congr 1; omega
    rw [this]
    exact (List.prefix_append _ _).isInfix
  have hl : w.length ≤ d := by
    cases w with
    | nil => simp
    | cons c w =>
      obtain ⟨x, h1, h2⟩ := word_of' (pre ++ List.replicate k '(') (c :: w) (by simp) (fun c hc => sep_digit (hw c hc)) post []
      have e : pre ++ List.replicate k '(' ++ (c :: w ++ post) = normalise s := by rw [h']; simp
      rw [e] at h1
      have h3 := (hnum x (by rw [← words_normalise]; exact h1)).2
      omega
  rw [List.length_append, List.length_replicate]
  omega

end Geouned.Wrap
