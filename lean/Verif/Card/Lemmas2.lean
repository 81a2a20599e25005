import Verif.Card.Lemmas
/-!
# Lemmas for C79: the loop
-/
namespace Geouned.Card

/-- `loop` on lines without tabs -/
def loopT (ncid : Nat) (cf : Bool) (card cmnt : List (List Char)) : List (List Char) → List Raw
  | [] => flush card ncid ++ flush cmnt cidComment
  | l :: ls =>
    if isBlankline l then
      flush card ncid ++ flush cmnt cidComment ++ [([l], cidBlank)] ++
        (if ncid + 1 = 6 then [] else loopT (ncid + 1) cf [] [] ls)
    else if l.take 5 = [' ', ' ', ' ', ' ', ' '] || cf then
      loopT ncid (ampFlag l) (card ++ cmnt ++ [l]) [] ls
    else if isCommented l then
      loopT ncid cf card (cmnt ++ [l]) ls
    else
      flush card ncid ++ flush cmnt cidComment ++ loopT ncid (!isFcCard l && ampFlag l) [l] [] ls

theorem loop_eq (ls : List (List Char)) : ∀ n cf card cmnt, loop n cf card cmnt ls = loopT n cf card cmnt (ls.map (replaceTab 0)) := by
  induction ls with
  | nil => intros; rfl
  | cons l ls ih =>
    intro n cf card cmnt
    simp only [loop, List.map_cons, loopT, ih]

/-- a comment line that the program recognises -/
structure Note (t : List Char) : Prop where
  plain : Plain t
  comment : IsComment t
  lone : ∀ k, 0 < k → t ≠ List.replicate k ' ' ++ ['c'] ∧ t ≠ List.replicate k ' ' ++ ['C']

theorem loopT_notes (cs : List (List Char)) (h : ∀ t ∈ cs, Note t) (n : Nat) (card : List (List Char)) :
    ∀ cmnt ls, loopT n false card cmnt (cs.map nl ++ ls) = loopT n false card (cmnt ++ cs.map nl) ls := by
  induction cs with
  | nil => intro cmnt ls; simp
  | cons t cs ih =>
    intro cmnt ls
    have ht := h t List.mem_cons_self
    have h1 : ¬ isBlankline (nl t) = true := fun hb => comment_not_empty ht.comment ((isBlankline_nl ht.plain).mp hb)
    have h2 : ¬ (nl t).take 5 = [' ', ' ', ' ', ' ', ' '] := fun hb => comment_not_indented ht.comment (take5_nl.mp hb)
    rw [List.map_cons, List.cons_append, loopT, if_neg h1, if_neg (by simpa using h2), if_pos (isCommented_of ht.plain ht.comment ht.lone)]
    rw [ih (fun u hu => h u (List.mem_cons_of_mem _ hu))]
    simp

/-- a line that continues a card in a way the program recognises -/
structure Cont (t : List Char) : Prop where
  plain : Plain t
  filled : ¬ Empty t
  indented : Indented t

theorem loopT_more (ms : List (List (List Char) × List Char)) (h : ∀ m ∈ ms, (∀ t ∈ m.1, Note t) ∧ Cont m.2) (n : Nat) (ls : List (List Char)) :
    ∀ card, loopT n false card [] ((ms.flatMap (fun m => m.1 ++ [m.2])).map nl ++ ls)
      = loopT n false (card ++ (ms.flatMap (fun m => m.1 ++ [m.2])).map nl) [] ls := by
  induction ms with
  | nil => intro card; simp
  | cons m ms ih =>
    intro card
    obtain ⟨hn, hc⟩ := h m List.mem_cons_self
    have h1 : ¬ isBlankline (nl m.2) = true := fun hb => hc.filled ((isBlankline_nl hc.plain).mp hb)
    rw [List.flatMap_cons, List.map_append, List.map_append, List.append_assoc, List.append_assoc, loopT_notes _ hn, List.map_cons, List.map_nil,
      List.singleton_append, loopT, if_neg h1, if_pos (by rw [take5_nl.mpr hc.indented]; rfl), ampFlag_false,
      ih (fun x hx => h x (List.mem_cons_of_mem _ hx))]
    simp

/-- a card the program recognises -/
structure Card1 (c : CardText) : Prop where
  plain : Plain c.first
  filled : ¬ Empty c.first
  nocomment : ¬ IsComment c.first
  noindent : ¬ Indented c.first
  nofc : ¬ StartsWith ['f', 'c'] c.first
  more : ∀ m ∈ c.more, (∀ t ∈ m.1, Note t) ∧ Cont m.2

theorem loopT_card {c : CardText} (h : Card1 c) (n : Nat) (card cmnt ls : List (List Char)) :
    loopT n false card cmnt (c.lines.map nl ++ ls) = flush card n ++ flush cmnt cidComment ++ loopT n false (c.lines.map nl) [] ls := by
  have h1 : ¬ isBlankline (nl c.first) = true := fun hb => h.filled ((isBlankline_nl h.plain).mp hb)
  have h2 : ¬ (nl c.first).take 5 = [' ', ' ', ' ', ' ', ' '] := fun hb => h.noindent (take5_nl.mp hb)
  rw [CardText.lines, List.map_cons, List.cons_append, loopT, if_neg h1, if_neg (by simpa using h2),
    if_neg (by rw [not_commented h.plain h.nocomment h.noindent]; decide), ampFlag_false, Bool.and_false, loopT_more _ h.more,
    List.singleton_append]

/-- the cards of interest among those before `get_input` -/
def info (rs : List Raw) : List Raw := rs.filter (fun r => r.2 = 3 ∨ r.2 = 4 ∨ r.2 = 5)

theorem info_append (a b : List Raw) : info (a ++ b) = info a ++ info b := List.filter_append ..

theorem info_flush_comment (cm : List (List Char)) : info (flush cm cidComment) = [] := by
  unfold flush
  split
  · rfl
  · simp [info, cidComment]

theorem info_flush_nil (n : Int) : info (flush [] n) = [] := rfl

theorem info_flush {card : List (List Char)} {n : Nat} (h : card ≠ []) (hn : n = 3 ∨ n = 4 ∨ n = 5) : info (flush card n) = [(card, (n : Int))] := by
  simp only [flush, if_neg h, info]
  rw [List.filter_cons_of_pos, List.filter_nil]
  simp only [decide_eq_true_eq]
  omega

theorem info_blank (l : List (List Char)) : info [(l, cidBlank)] = [] := by
  simp [info, cidBlank]

/-- what the program may put in the list beside the cards: comments and blank lines -/
def Harmless (r : Raw) : Prop := r.2 = cidComment ∨ r.2 = cidBlank

theorem loopT_block (cs : List (List (List Char) × CardText)) (n : Nat) (hn : n = 3 ∨ n = 4 ∨ n = 5)
    (h : ∀ m ∈ cs, (∀ t ∈ m.1, Note t) ∧ Card1 m.2) (ls : List (List Char)) : ∀ card cmnt, ∃ pre card' cmnt',
      loopT n false card cmnt ((cs.flatMap (fun m => m.1 ++ m.2.lines)).map nl ++ ls) = pre ++ loopT n false card' cmnt' ls
      ∧ info (pre ++ flush card' n) = info (flush card n) ++ cs.map (fun m => (m.2.lines.map nl, (n : Int)))
      ∧ (∀ r ∈ pre ++ flush card' n, Harmless r ∨ r ∈ flush card n ∨ r ∈ cs.map (fun m => (m.2.lines.map nl, (n : Int)))) := by
  induction cs with
  | nil => intro card cmnt; exact ⟨[], card, cmnt, by simp, by simp, by intro r hr; exact Or.inr (Or.inl (by simpa using hr))⟩
  | cons m cs ih =>
    intro card cmnt
    obtain ⟨hm, hc⟩ := h m List.mem_cons_self
    obtain ⟨pre, card', cmnt', h1, h2, h3⟩ := ih (fun x hx => h x (List.mem_cons_of_mem _ hx)) (m.2.lines.map nl) []
    refine ⟨flush card n ++ flush (cmnt ++ m.1.map nl) cidComment ++ pre, card', cmnt', ?_, ?_, ?_⟩
    · rw [List.flatMap_cons, List.map_append, List.map_append, List.append_assoc, List.append_assoc, loopT_notes _ hm, loopT_card hc, h1]
      simp
    · rw [List.append_assoc, info_append, h2, info_append, info_flush_comment, List.append_nil,
        info_flush (card := m.2.lines.map nl) (by simp [CardText.lines]) hn]
      simp
    · intro r hr
      rw [List.append_assoc, List.append_assoc] at hr
      rcases List.mem_append.mp hr with hr | hr
      · exact Or.inr (Or.inl hr)
      rcases List.mem_append.mp hr with hr | hr
      · left; left
        unfold flush at hr
        split at hr
        · exact absurd hr List.not_mem_nil
        · rw [List.mem_singleton] at hr
          rw [hr]
      · rcases h3 r hr with h3 | h3 | h3
        · exact Or.inl h3
        · right; right
          unfold flush at h3
          split at h3
          · exact absurd h3 List.not_mem_nil
          · rw [List.mem_singleton] at h3
            rw [h3, List.map_cons]
            exact List.mem_cons_self
        · right; right
          rw [List.map_cons]
          exact List.mem_cons_of_mem _ h3

/-- a block the program recognises -/
structure Block1 (b : Block) : Prop where
  cards : ∀ m ∈ b.cards, (∀ t ∈ m.1, Note t) ∧ Card1 m.2
  tail : ∀ t ∈ b.tail, Note t

theorem harmless_flush {r : Raw} {cm : List (List Char)} (h : r ∈ flush cm cidComment) : Harmless r := by
  unfold flush at h
  split at h
  · exact absurd h List.not_mem_nil
  · rw [List.mem_singleton] at h
    rw [h]
    exact Or.inl rfl

theorem loopT_end (b : Block) (n : Nat) (hn : n = 3 ∨ n = 4 ∨ n = 5) (h : Block1 b) :
    info (loopT n false [] [] (b.lines.map nl)) = b.cards.map (fun m => (m.2.lines.map nl, (n : Int)))
    ∧ ∀ r ∈ loopT n false [] [] (b.lines.map nl), Harmless r ∨ r ∈ b.cards.map (fun m => (m.2.lines.map nl, (n : Int))) := by
  obtain ⟨pre, card', cmnt', h1, h2, h3⟩ := loopT_block b.cards n hn h.cards (b.tail.map nl ++ []) [] []
  have h4 := loopT_notes b.tail h.tail n card' cmnt' []
  have hl : b.lines.map nl = (b.cards.flatMap (fun m => m.1 ++ m.2.lines)).map nl ++ (b.tail.map nl ++ []) := by
    simp [Block.lines]
  rw [hl, h1, h4, loopT]
  constructor
  · rw [← List.append_assoc, info_append, info_flush_comment, h2, List.append_nil]
    rfl
  · intro r hr
    rw [← List.append_assoc] at hr
    rcases List.mem_append.mp hr with hr | hr
    · rcases h3 r hr with h | h | h
      · exact Or.inl h
      · exact absurd h List.not_mem_nil
      · exact Or.inr h
    · exact Or.inl (harmless_flush hr)

theorem loopT_blank (b : Block) (n : Nat) (hn : n = 3 ∨ n = 4 ∨ n = 5) (h : Block1 b) (t : List Char) (ht : Empty t) (ls : List (List Char)) :
    info (loopT n false [] [] (b.lines.map nl ++ nl t :: ls)) = b.cards.map (fun m => (m.2.lines.map nl, (n : Int)))
        ++ info (if n + 1 = 6 then [] else loopT (n + 1) false [] [] ls)
    ∧ ∀ r ∈ loopT n false [] [] (b.lines.map nl ++ nl t :: ls), Harmless r ∨ r ∈ b.cards.map (fun m => (m.2.lines.map nl, (n : Int)))
        ∨ r ∈ (if n + 1 = 6 then [] else loopT (n + 1) false [] [] ls) := by
  obtain ⟨pre, card', cmnt', h1, h2, h3⟩ := loopT_block b.cards n hn h.cards (b.tail.map nl ++ nl t :: ls) [] []
  have h4 := loopT_notes b.tail h.tail n card' cmnt' (nl t :: ls)
  have hl : b.lines.map nl ++ nl t :: ls = (b.cards.flatMap (fun m => m.1 ++ m.2.lines)).map nl ++ (b.tail.map nl ++ nl t :: ls) := by
    simp [Block.lines]
  rw [hl, h1, h4, loopT, if_pos ((isBlankline_nl ht.plain).mpr ht)]
  constructor
  · rw [← List.append_assoc, ← List.append_assoc, ← List.append_assoc, info_append, info_append, info_append, info_flush_comment, h2, info_blank, List.append_nil,
      List.append_nil]
    rfl
  · intro r hr
    rw [← List.append_assoc, ← List.append_assoc, ← List.append_assoc] at hr
    rcases List.mem_append.mp hr with hr | hr
    · rcases List.mem_append.mp hr with hr | hr
      · rcases List.mem_append.mp hr with hr | hr
        · rcases h3 r hr with h | h | h
          · exact Or.inl h
          · exact absurd h List.not_mem_nil
          · exact Or.inr (Or.inl h)
        · exact Or.inl (harmless_flush hr)
      · rw [List.mem_singleton] at hr
        rw [hr]
        exact Or.inl (Or.inr rfl)
    · exact Or.inr (Or.inr hr)

/-! ## the contents -/

theorem dropWhile_nil {p : Char → Bool} {l : List Char} (h : l.dropWhile p = []) : ∀ c ∈ l, p c = true := by
  induction l with
  | nil => intro c hc; exact absurd hc List.not_mem_nil
  | cons x l ih =>
    by_cases hx : p x = true
    · rw [List.dropWhile_cons_of_pos hx] at h
      intro c hc
      rcases List.mem_cons.mp hc with rfl | hc
      · exact hx
      · exact ih h c hc
    · rw [List.dropWhile_cons_of_neg hx] at h
      exact absurd h (by simp)

theorem firstWord_none {l : List Char} (h : firstWord l = none) : ∀ c ∈ l, white c = true := by
  unfold firstWord at h
  split at h
  · rename_i hl
    intro c hc
    rw [lstrip] at hl
    exact dropWhile_nil hl c hc
  · exact absurd h (by simp)

theorem lstrip_append {a b : List Char} {c : Char} {r : List Char} (h : lstrip a = c :: r) : lstrip (a ++ b) = c :: (r ++ b) := by
  induction a with
  | nil => simp [lstrip] at h
  | cons x a ih =>
    rcases Bool.eq_false_or_eq_true (white x) with hx | hx
    · rw [lstrip, List.dropWhile_cons_of_pos hx] at h
      rw [List.cons_append, lstrip, List.dropWhile_cons_of_pos hx]
      exact ih h
    · rw [lstrip_cons hx] at h
      rw [List.cons_append, lstrip_cons hx, (List.cons.inj h).1, (List.cons.inj h).2]

/-- the texts of a card that are not blank -/
def texts (i : List (List Char)) : List (List Char) := i.filter (fun t => t.any (fun c => c ≠ ' '))

theorem not_empty_any {t : List Char} : (t.any (fun c => decide (c ≠ ' '))) = false ↔ Empty t := by
  rw [List.any_eq_false]
  constructor
  · intro h c hc
    simpa using h c hc
  · intro h c hc
    simpa using h c hc

theorem content_dollar (k : Nat) (r : List Char) : content (List.replicate k ' ' ++ '$' :: r) = List.replicate k ' ' := by
  rw [content, List.takeWhile_append_of_pos (by intro c hc; rw [List.eq_of_mem_replicate hc]; decide), List.takeWhile_cons_of_neg (by decide),
    List.append_nil]

theorem texts_more (ms : List (List (List Char) × List Char)) (h : ∀ m ∈ ms, (∀ t ∈ m.1, Note t) ∧ Cont m.2) :
    texts ((((ms.flatMap (fun m => m.1 ++ [m.2])).map nl).filter (fun l => !isCommented l)).map (fun l => l.take (index l)))
      = texts ((ms.map (·.2)).map content) := by
  induction ms with
  | nil => rfl
  | cons m ms ih =>
    obtain ⟨hn, hc⟩ := h m List.mem_cons_self
    have hnotes : (m.1.map nl).filter (fun l => !isCommented l) = [] := by
      rw [List.filter_eq_nil_iff]
      intro l hl
      obtain ⟨t, ht, rfl⟩ := List.mem_map.mp hl
      have := hn t ht
      simp [isCommented_of this.plain this.comment this.lone]
    rw [List.flatMap_cons, List.map_append, List.map_append, List.filter_append, List.filter_append, hnotes, List.nil_append, List.map_append, texts,
      List.filter_append]
    have ih' := ih (fun x hx => h x (List.mem_cons_of_mem _ hx))
    unfold texts at ih'
    rw [ih', List.map_cons, List.map_cons, List.map_cons, List.map_nil]
    unfold texts
    rcases Bool.eq_false_or_eq_true (isCommented (nl m.2)) with hcm | hcm
    · rw [List.filter_cons_of_neg (by simp [hcm]), List.filter_nil, List.map_nil, List.filter_nil, List.nil_append]
      rcases isCommented_imp hc.plain hcm with h1 | ⟨k, r, h1⟩
      · exact absurd hc.indented (comment_not_indented h1)
      · rw [h1, content_dollar, List.filter_cons_of_neg]
        rw [Bool.not_eq_true, not_empty_any]
        intro c hc
        exact List.eq_of_mem_replicate hc
    · rw [List.filter_cons_of_pos (by simp [hcm]), List.filter_nil, List.map_cons, List.map_nil, take_index, ← List.filter_append, List.singleton_append]

theorem getInput_card {c : CardText} (h : Card1 c) (n : Int) (hn : n ≠ -1) (hn' : n ≠ -2) :
    ∃ i, getInput (c.lines.map nl) n = .ok i ∧ texts i = c.says := by
  obtain ⟨k, hk | ⟨x, r, hx, hk⟩⟩ := plain_split h.plain
  · exact absurd (fun y hy => by rw [hk] at hy; exact List.eq_of_mem_replicate hy) h.filled
  have hcc : ¬ (n = cidComment ∨ n = cidBlank) := by
    simp only [cidComment, cidBlank]
    omega
  have hfl : ∃ r', lstrip (c.lines.map nl).flatten = x :: (r ++ '\n' :: r') := by
    refine ⟨((c.more.flatMap (fun m => m.1 ++ [m.2])).map nl).flatten, ?_⟩
    rw [CardText.lines, List.map_cons, List.flatten_cons, nl, hk, List.append_assoc, List.append_assoc, white_replicate, List.cons_append, lstrip_cons hx]
    simp
  obtain ⟨r', hfl⟩ := hfl
  unfold getInput
  rw [if_neg hcc]
  unfold firstWord
  rw [hfl]
  dsimp only
  rw [if_neg]
  · refine ⟨_, rfl, ?_⟩
    rw [CardText.lines, List.map_cons, List.filter_cons_of_pos (by rw [not_commented h.plain h.nocomment h.noindent]; rfl), List.map_cons, take_index,
      CardText.says, CardText.body, List.map_cons]
    have := texts_more c.more h.more
    unfold texts at this ⊢
    rw [← List.singleton_append, List.filter_append, this, ← List.filter_append, List.singleton_append]
  · intro hf
    apply h.nofc
    rw [List.takeWhile_cons_of_pos (by simp [hx]), List.take_succ_cons] at hf
    cases r with
    | nil =>
      exfalso
      rw [List.nil_append, List.takeWhile_cons_of_neg (by simp [white_nl])] at hf
      exact absurd hf (by simp)
    | cons y r =>
      have hy : white y = false := by
        rcases Bool.eq_false_or_eq_true (white y) with hw | hw
        · rw [List.cons_append, List.takeWhile_cons_of_neg (by simp [hw])] at hf
          exact absurd hf (by simp)
        · exact hw
      rw [List.cons_append, List.takeWhile_cons_of_pos (by simp [hy]), List.take_succ_cons, List.take_zero] at hf
      refine ⟨k, r, [x, y], by rw [hk]; simp, ?_⟩
      rw [hf]
      decide

end Geouned.Card
