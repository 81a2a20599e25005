import Verif.Card.Lemmas3
import Mathlib.Data.List.TakeWhile
/-!
# C79: the cards of an MCNP file
-/
namespace Geouned.Card

/-- the property in full: for every deck, the cards read from a file with its lines (tabs or blanks, last newline or not) are those of the deck -/
def C79_statement : Prop :=
  ∀ (d : Deck) (texts : List (List Char)) (s : List Char), d.Ok → List.Forall₂ (Expand 0) texts d.lines → FileOf texts s →
    ∃ cs, getCards s = .ok cs ∧ view cs = d.says

/-- the three blocks -/
def Deck.blocks (d : Deck) : List Block := [d.cells, d.surfaces, d.data]

theorem block1_of {b : Block} (h : b.Ok) (hi : ∀ m ∈ b.cards, ∀ x ∈ m.2.more, Indented x.2)
    (hl : ∀ t ∈ b.lines, ∀ k, 0 < k → t ≠ List.replicate k ' ' ++ ['c'] ∧ t ≠ List.replicate k ' ' ++ ['C']) : Block1 b := by
  refine ⟨fun m hm => ⟨fun t ht => ?_, ?_⟩, fun t ht => ?_⟩
  · exact ⟨(h.comments m hm t ht).2, (h.comments m hm t ht).1, hl t (by
      rw [Block.lines, List.mem_append, List.mem_flatMap]
      exact Or.inl ⟨m, hm, List.mem_append_left _ ht⟩)⟩
  · have hc := h.cards m hm
    have hin : ∀ t ∈ m.2.lines, t ∈ b.lines := by
      intro t ht
      rw [Block.lines, List.mem_append, List.mem_flatMap]
      exact Or.inl ⟨m, hm, List.mem_append_right _ ht⟩
    refine ⟨hc.plain _ List.mem_cons_self, hc.filled _ List.mem_cons_self, hc.nocomment _ List.mem_cons_self, hc.first, hc.nofc, fun x hx => ?_⟩
    have hx2 : x.2 ∈ m.2.lines := by
      rw [CardText.lines]
      exact List.mem_cons_of_mem _ (List.mem_flatMap.mpr ⟨x, hx, by simp⟩)
    refine ⟨fun t ht => ?_, hc.plain _ hx2, hc.filled _ (List.mem_cons_of_mem _ (List.mem_map.mpr ⟨x, hx, rfl⟩)), hi m hm x hx⟩
    have ht2 : t ∈ m.2.lines := by
      rw [CardText.lines]
      exact List.mem_cons_of_mem _ (List.mem_flatMap.mpr ⟨x, hx, List.mem_append_left _ ht⟩)
    exact ⟨hc.plain t ht2, hc.comments x hx t ht, hl t (hin t ht2)⟩
  · exact ⟨(h.tail t ht).2, (h.tail t ht).1, hl t (by rw [Block.lines]; exact List.mem_append_right _ ht)⟩

theorem block_plain {b : Block} (h : Block1 b) : ∀ t ∈ b.lines, Plain t := by
  intro t ht
  rw [Block.lines, List.mem_append, List.mem_flatMap] at ht
  rcases ht with ⟨m, hm, ht⟩ | ht
  · obtain ⟨hn, hc⟩ := h.cards m hm
    rcases List.mem_append.mp ht with ht | ht
    · exact (hn t ht).plain
    · rw [CardText.lines] at ht
      rcases List.mem_cons.mp ht with rfl | ht
      · exact hc.plain
      · obtain ⟨x, hx, ht⟩ := List.mem_flatMap.mp ht
        obtain ⟨h1, h2⟩ := hc.more x hx
        rcases List.mem_append.mp ht with ht | ht
        · exact (h1 t ht).plain
        · rw [List.mem_singleton.mp ht]
          exact h2.plain
  · exact (h.tail t ht).plain

/-- a file with complete lines -/
theorem pyLines_exact : ∀ (a : List (List Char)) (s : List Char), FileOf a s → (∀ t ∈ a, '\n' ∉ t) → (s = [] ∨ s.getLast? = some '\n') → pyLines s = a.map nl := by
  intro a s hf
  induction hf with
  | nil => intros; rfl
  | last t hne =>
    intro ha he
    rcases he with he | he
    · exact absurd he hne
    · exact absurd (List.mem_of_getLast? he) (ha t List.mem_cons_self)
  | cons t ts s hf ih =>
    intro ha he
    rw [pyLines_cons _ _ (ha t List.mem_cons_self), ih (fun u hu => ha u (List.mem_cons_of_mem _ hu))]
    · rfl
    · by_cases h0 : s = []
      · exact Or.inl h0
      · right
        rcases he with he | he
        · simp at he
        · rw [List.getLast?_append, List.getLast?_cons] at he
          cases s with
          | nil => exact absurd rfl h0
          | cons x xs =>
            simp only [List.getLast?_cons] at he ⊢
            simpa using he

/-- `C79_cards_partial`, with the lines and texts of each card -/
theorem cards_full (d : Deck) (texts : List (List Char)) (s : List Char) (hd : d.Ok) (ht : List.Forall₂ (Expand 0) texts d.lines)
    (hs : FileOf texts s) (hamp : ∀ b ∈ d.blocks, ∀ m ∈ b.cards, ∀ x ∈ m.2.more, Indented x.2)
    (hlone : ∀ b ∈ d.blocks, ∀ t ∈ b.lines, ∀ k, 0 < k → t ≠ List.replicate k ' ' ++ ['c'] ∧ t ≠ List.replicate k ' ' ++ ['C'])
    (hend : s.getLast? = some '\n') : ∃ cs, getCards s = .ok cs ∧ view cs = d.says
      ∧ ∀ c ∈ cs, kindOf c.ctype ≠ none → getInput c.lines c.ctype = .ok c.input ∧ ∃ b ∈ d.blocks, ∃ m ∈ b.cards, c.lines = m.2.lines.map nl := by
  have B1 := block1_of hd.cells (hamp _ (by simp [Deck.blocks])) (hlone _ (by simp [Deck.blocks]))
  have B2 := block1_of hd.surfaces (hamp _ (by simp [Deck.blocks])) (hlone _ (by simp [Deck.blocks]))
  have B3 := block1_of hd.data (hamp _ (by simp [Deck.blocks])) (hlone _ (by simp [Deck.blocks]))
  -- the lines that matter
  obtain ⟨body, rest, hlines, hbody, htail⟩ : ∃ body rest, d.lines = body ++ rest
      ∧ body = (match d.message with | none => [] | some m => m.1 ++ [m.2]) ++ d.title :: (d.cells.lines ++ d.blank1 :: (d.surfaces.lines ++
          d.blank2 :: (d.data.lines ++ (match d.after with | none => [] | some a => [a.1]))))
      ∧ (d.after = none → rest = []) := by
    refine ⟨_, (match d.after with | none => [] | some a => a.2), ?_, rfl, fun h => by rw [h]⟩
    rw [Deck.lines]
    cases d.after <;> cases d.message <;> simp
  have hplain : ∀ t ∈ body, Plain t := by
    intro t ht
    rw [hbody, List.mem_append, List.mem_cons, List.mem_append, List.mem_cons, List.mem_append, List.mem_cons, List.mem_append] at ht
    rcases ht with ht | rfl | ht | rfl | ht | rfl | ht | ht
    · cases hm : d.message with
      | none => rw [hm] at ht; exact absurd ht List.not_mem_nil
      | some m =>
        rw [hm] at ht
        obtain ⟨_, h2, h3⟩ := hd.message m hm
        rcases List.mem_append.mp ht with ht | ht
        · exact (h2 t ht).1
        · rw [List.mem_singleton.mp ht]
          exact h3.plain
    · exact hd.title.1
    · exact block_plain B1 t ht
    · exact hd.blank1.plain
    · exact block_plain B2 t ht
    · exact hd.blank2.plain
    · exact block_plain B3 t ht
    · cases ha : d.after with
      | none => rw [ha] at ht; exact absurd ht List.not_mem_nil
      | some a =>
        rw [ha] at ht
        rw [List.mem_singleton.mp ht]
        exact (hd.after a ha).plain
  rw [hlines] at ht
  obtain ⟨A, B, hAB, hA, hB⟩ := forall2_append ht
  rw [hAB] at hs
  obtain ⟨s', hs'⟩ := pyLines_file hs (noNl_all hA hplain) (fun _ => Or.inr hend)
  have hmap := expand_all hA
  -- the loop over what follows the title
  have hloop : ∀ (X : List (List Char)), X.map (replaceTab 0) = (d.cells.lines ++ d.blank1 :: (d.surfaces.lines ++ d.blank2 :: (d.data.lines ++
      (match d.after with | none => [] | some a => [a.1])))).map nl →
      (d.after = none → pyLines s' = []) →
      info (loop 3 false [] [] (X ++ pyLines s')) = d.cells.cards.map (fun m => (m.2.lines.map nl, (3 : Int))) ++ (d.surfaces.cards.map (fun m => (m.2.lines.map nl, (4 : Int)))
        ++ d.data.cards.map (fun m => (m.2.lines.map nl, (5 : Int))))
      ∧ ∀ r ∈ loop 3 false [] [] (X ++ pyLines s'), Harmless r ∨ ∃ c n, Card1 c ∧ (n = 3 ∨ n = 4 ∨ n = 5) ∧ r = (c.lines.map nl, n) := by
    intro X hX hnone
    have hTail : ∃ tail, (X ++ pyLines s').map (replaceTab 0) = d.cells.lines.map nl ++ nl d.blank1 :: (d.surfaces.lines.map nl ++ nl d.blank2 ::
        (d.data.lines.map nl ++ tail)) ∧ (tail = [] ∨ ∃ t ls, Empty t ∧ tail = nl t :: ls) := by
      rw [List.map_append, hX]
      cases ha : d.after with
      | none => exact ⟨[], by simp [hnone ha], Or.inl rfl⟩
      | some a => exact ⟨nl a.1 :: (pyLines s').map (replaceTab 0), by simp, Or.inr ⟨a.1, _, hd.after a ha, rfl⟩⟩
    obtain ⟨tail, h1, h2⟩ := hTail
    rw [loop_eq, h1]
    exact loopT_deck d B1 B2 B3 hd.blank1 hd.blank2 tail h2
  have hnone : d.after = none → pyLines s' = [] := by
    intro ha
    have hrest := htail ha
    rw [hrest] at hB
    cases hB
    rw [List.append_nil] at hs
    -- the file is exactly these lines
    have h1 := pyLines_exact A s hs (noNl_all hA hplain) (Or.inr hend)
    rw [h1] at hs'
    have h2 := congrArg List.length hs'
    rw [List.length_append] at h2
    exact List.length_eq_zero_iff.mp (by omega)
  -- from the raw cards to the result
  have hfin : ∀ (pre : List Raw) (X : List (List Char)), rawCards s = (pre ++ loop 3 false [] [] (X ++ pyLines s'), none) →
      X.map (replaceTab 0) = (d.cells.lines ++ d.blank1 :: (d.surfaces.lines ++ d.blank2 :: (d.data.lines ++
      (match d.after with | none => [] | some a => [a.1])))).map nl →
      info pre = [] → (∀ r ∈ pre, ∃ i, getInput r.1 r.2 = .ok i) → ∃ cs, getCards s = .ok cs ∧ view cs = d.says
      ∧ ∀ c ∈ cs, kindOf c.ctype ≠ none → getInput c.lines c.ctype = .ok c.input ∧ ∃ b ∈ d.blocks, ∃ m ∈ b.cards, c.lines = m.2.lines.map nl := by
    intro pre X hraw hX hpre hok
    obtain ⟨h1, h2⟩ := hloop X hX hnone
    obtain ⟨cs, h3, h4, h5⟩ := makeCards_ok (pre ++ loop 3 false [] [] (X ++ pyLines s')) (by
      intro r hr
      rcases List.mem_append.mp hr with hr | hr
      · exact hok r hr
      · rcases h2 r hr with h | ⟨c, n, hc, hn, rfl⟩
        · exact getInput_harmless h
        · obtain ⟨i, hi, _⟩ := getInput_card hc n (by omega) (by omega)
          exact ⟨i, hi⟩)
    refine ⟨cs, ?_, ?_, ?_⟩
    · unfold getCards
      rw [hraw]
      simp only [h3]
    · rw [h4, info_append, hpre, List.nil_append, h1, List.filterMap_append, List.filterMap_append, view_block B1 3 .cell rfl (by decide) (by decide),
        view_block B2 4 .surface rfl (by decide) (by decide), view_block B3 5 .data rfl (by decide) (by decide), Deck.says, List.append_assoc]
    · intro c hc hk
      refine ⟨(h5 c hc).2, ?_⟩
      have hm : (c.lines, c.ctype) ∈ info (pre ++ loop 3 false [] [] (X ++ pyLines s')) := by
        refine List.mem_filter.mpr ⟨(h5 c hc).1, ?_⟩
        by_contra hn
        apply hk
        simp only [decide_eq_true_eq] at hn
        unfold kindOf
        rw [if_neg (fun h => hn (Or.inl h)), if_neg (fun h => hn (Or.inr (Or.inl h))), if_neg (fun h => hn (Or.inr (Or.inr h)))]
      rw [info_append, hpre, List.nil_append, h1] at hm
      simp only [Deck.blocks, List.mem_cons, List.not_mem_nil, or_false, exists_eq_or_imp, exists_eq_left]
      rcases List.mem_append.mp hm with hm | hm
      · obtain ⟨m, hm1, hm2⟩ := List.mem_map.mp hm
        exact Or.inl ⟨m, hm1, (Prod.mk.inj hm2).1.symm⟩
      · rcases List.mem_append.mp hm with hm | hm
        · obtain ⟨m, hm1, hm2⟩ := List.mem_map.mp hm
          exact Or.inr (Or.inl ⟨m, hm1, (Prod.mk.inj hm2).1.symm⟩)
        · obtain ⟨m, hm1, hm2⟩ := List.mem_map.mp hm
          exact Or.inr (Or.inr ⟨m, hm1, (Prod.mk.inj hm2).1.symm⟩)
  have htitle : ∃ i, getInput [nl d.title] cidTitle = .ok i := by
    obtain ⟨c, hc, hw⟩ := plain_filled hd.title.1 hd.title.2
    exact getInput_filled _ _ (c := c) (by simp [nl, hc]) hw
  cases hm : d.message with
  | none =>
    rw [hm, List.nil_append] at hbody
    rw [hbody, List.map_cons] at hmap
    cases A with
    | nil => exact absurd hmap (by simp)
    | cons a A =>
      rw [List.map_cons, List.map_cons] at hmap
      obtain ⟨ht1, ht2⟩ := List.cons.inj hmap
      rw [List.map_cons, List.cons_append] at hs'
      obtain ⟨hk1, hk2⟩ := hd.titleKind hm
      refine hfin [([nl d.title], cidTitle)] (A.map nl) ?_ ht2 rfl (fun r hr => ?_)
      · unfold rawCards
        rw [hs']
        simp only [ht1]
        rw [if_neg (fun h => hk1 (startsWith_of_kw hd.title.1 h (by decide) (by decide))),
          if_neg (fun h => hk2 (startsWith_of_kw hd.title.1 h (by decide) (by decide)))]
        rfl
      · rw [List.mem_singleton.mp hr]
        exact htitle
  | some m =>
    obtain ⟨⟨f, r, hf, hst⟩, hm2, hm3⟩ := hd.message m hm
    rw [hm] at hbody
    dsimp only at hbody
    rw [hf] at hbody
    rw [hbody] at hA
    have hA' := hA
    simp only [List.append_assoc, List.cons_append, List.nil_append, List.singleton_append] at hA'
    obtain ⟨a1, a2, ha12, ha1, ha2⟩ := forall2_append (u := f :: r) (v := m.2 :: d.title :: _) hA'
    cases ha2 with
    | @cons y _ a3 _ hy ha3 =>
    cases ha3 with
    | @cons tt _ a4 _ htt ha4 =>
    have hmsg := messageBlock_spec (nl tt :: (a4.map nl ++ pyLines s')) (a1.map nl) (f :: r) (nl y) m.2 (expand_all ha1)
      (by rw [hf] at hm2; exact hm2) (replaceTab_expand hy) hm3
    cases ha1 with
    | @cons f0 _ r0 _ hf0 hr0 =>
    have hl0 : pyLines s = nl f0 :: (r0.map nl ++ nl y :: nl tt :: (a4.map nl ++ pyLines s')) := by
      rw [hs', ha12]
      simp
    have hfp : Plain f := (hm2 f (by rw [hf]; exact List.mem_cons_self)).1
    have hfe := (hm2 f (by rw [hf]; exact List.mem_cons_self)).2
    refine hfin [((f :: r).map nl, cidMessage), ([nl m.2], cidBlank), ([nl d.title], cidTitle)] (a4.map nl) ?_ (expand_all ha4) rfl
      (fun x hx => ?_)
    · have hkw : lower ((lstrip (nl f)).take 8) = "message:".toList :=
        kw_of_startsWith hfp hst (x := 'm') (ws := "essage:".toList) rfl (by decide)
      unfold rawCards
      rw [hl0]
      simp only [replaceTab_expand hf0, if_pos hkw]
      have : messageBlock (nl f0 :: (r0.map nl ++ nl y :: nl tt :: (a4.map nl ++ pyLines s')))
          = some ((f :: r).map nl, nl m.2, nl tt :: (a4.map nl ++ pyLines s')) := hmsg
      rw [this]
      simp only [replaceTab_expand htt]
    · simp only [List.mem_cons, List.not_mem_nil, or_false] at hx
      rcases hx with rfl | rfl | rfl
      · obtain ⟨c, hc, hw⟩ := plain_filled hfp hfe
        exact getInput_filled _ _ (c := c) (by simp [nl, hc]) hw
      · exact getInput_harmless (Or.inr rfl)
      · exact htitle

/-- C79, restricted: every line that continues a card has five blanks at its beginning, no comment consists of `c` alone after blanks, and the
last line ends with a newline character. Missing: each of the three conditions is needed (see the theorems below). -/
theorem C79_cards_partial (d : Deck) (texts : List (List Char)) (s : List Char) (hd : d.Ok) (ht : List.Forall₂ (Expand 0) texts d.lines)
    (hs : FileOf texts s) (hamp : ∀ b ∈ d.blocks, ∀ m ∈ b.cards, ∀ x ∈ m.2.more, Indented x.2)
    (hlone : ∀ b ∈ d.blocks, ∀ t ∈ b.lines, ∀ k, 0 < k → t ≠ List.replicate k ' ' ++ ['c'] ∧ t ≠ List.replicate k ' ' ++ ['C'])
    (hend : s.getLast? = some '\n') : ∃ cs, getCards s = .ok cs ∧ view cs = d.says := by
  obtain ⟨cs, h1, h2, _⟩ := cards_full d texts s hd ht hs hamp hlone hend
  exact ⟨cs, h1, h2⟩

/-- C79: no line is lost or changed, whatever the file: the lines of the cards, one after the other, are the lines of the file (tabs expanded), up to
the blank line after the data block. (The first line of a file that starts with `continue` is left out by the program.) -/
theorem C79_lines (s : List Char) (texts lines : List (List Char)) (hs : FileOf texts s) (ht : List.Forall₂ (Expand 0) texts lines)
    (hn : ∀ t ∈ lines, Plain t) (hend : s.getLast? = some '\n') (hc : ∀ t, lines.head? = some t → ¬ StartsWith "continue".toList t)
    (cs : List PyCard) (h : getCards s = .ok cs) :
    ∃ rest, lines.map (· ++ ['\n']) = cs.flatMap (·.lines) ++ rest ∧ (rest ≠ [] → ∃ c, cs.getLast? = some c ∧ c.ctype = -2) := by
  have hf := pyLines_file (a := texts) (b := []) (by simpa using hs) (noNl_all ht hn) (fun _ => Or.inr hend)
  obtain ⟨s', hs'⟩ := hf
  have hx := expand_all ht
  have hs0 : pyLines s = texts.map nl := pyLines_exact texts s hs (noNl_all ht hn) (Or.inr hend)
  unfold getCards at h
  cases hm : makeCards (rawCards s).1 with
  | error e => rw [hm] at h; cases h
  | ok cs' =>
    cases hr : (rawCards s).2 with
    | some e => rw [hm, hr] at h; cases h
    | none =>
      rw [hm, hr] at h
      dsimp only at h
      have hcs := Except.ok.inj h
      subst hcs
      have hraw : rawCards s = ((rawCards s).1, none) := by rw [← hr]
      obtain ⟨rest, h1, h2⟩ := rawCards_flat s _ hraw (by
        intro l ls hl hk
        rw [hs0] at hl
        cases ht with
        | nil => cases hl
        | @cons a t as ts ha hts =>
          rw [List.map_cons] at hl
          rw [← (List.cons.inj hl).1, replaceTab_expand ha] at hk
          exact hc t rfl (startsWith_of_kw (hn t List.mem_cons_self) hk (by decide) (by decide)))
      have hl := makeCards_lines _ _ hm
      rw [hs0, hx, ← hl, List.flatMap_map] at h1
      refine ⟨rest, h1, fun hr => ?_⟩
      obtain ⟨r, hr1, hr2⟩ := h2 hr
      rw [← hl, List.getLast?_map] at hr1
      cases hg : cs'.getLast? with
      | none => rw [hg] at hr1; cases hr1
      | some c =>
        rw [hg] at hr1
        have := Option.some.inj hr1
        refine ⟨c, rfl, ?_⟩
        rw [← this] at hr2
        exact hr2

end Geouned.Card
