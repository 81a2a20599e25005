import Verif.Card.Props
/-!
# C79: a deck that meets the conditions, and decks that are read wrongly
-/
namespace Geouned.Card

theorem notComment_of {x : Char} {r : List Char} (k : Nat) (h0 : x ≠ ' ') (h1 : x ≠ '$') (h2 : x ≠ 'c') (h3 : x ≠ 'C') :
    ¬ IsComment (List.replicate k ' ' ++ x :: r) := by
  have key : ∀ (k j : Nat) (y : Char) (a b : List Char), y ≠ ' ' → x ≠ y → List.replicate k ' ' ++ x :: a ≠ List.replicate j ' ' ++ y :: b := by
    intro k
    induction k with
    | zero =>
      intro j y a b hy hxy he
      cases j with
      | zero => exact hxy (List.cons.inj he).1
      | succ j => exact h0 (List.cons.inj he).1
    | succ k ih =>
      intro j y a b hy hxy he
      cases j with
      | zero => exact hy (List.cons.inj he).1.symm
      | succ j => exact ih j y a b hy hxy (List.cons.inj he).2
  rintro ⟨j, _, rest, hd | ⟨hc | hc, _⟩⟩
  · exact key k j '$' r rest (by decide) h1 hd
  · exact key k j 'c' r rest (by decide) h2 hc
  · exact key k j 'C' r rest (by decide) h3 hc

theorem notStarts_of {x w0 : Char} {r w : List Char} (h0 : x ≠ ' ') (hw0 : w0 ≠ ' ') (h1 : x.toLower ≠ w0) : ¬ StartsWith (w0 :: w) (x :: r) := by
  rintro ⟨k, rest, v, ht, hv⟩
  cases k with
  | zero =>
    cases v with
    | nil => cases hv
    | cons y v =>
      have h2 : x = y := (List.cons.inj ht).1
      subst h2
      exact h1 (List.cons.inj hv).1
  | succ k => exact h0 (List.cons.inj ht).1

theorem notIndented_of {x : Char} {r : List Char} (h : x ≠ ' ') : ¬ Indented (x :: r) := by
  rintro ⟨rest, h1⟩
  exact h (List.cons.inj h1).1

theorem notIndented_nil : ¬ Indented [] := by
  rintro ⟨rest, h1⟩
  cases h1

theorem expand_self (t : List Char) (h : '\t' ∉ t) : ∀ n, Expand n t t := by
  induction t with
  | nil => intro n; exact .nil n
  | cons c t ih =>
    intro n
    exact .char n c t t (fun he => h (he ▸ List.mem_cons_self)) (ih (fun hm => h (List.mem_cons_of_mem _ hm)) (n + 1))

theorem expand_selfs (ts : List (List Char)) (h : ∀ t ∈ ts, '\t' ∉ t) : List.Forall₂ (Expand 0) ts ts := by
  induction ts with
  | nil => exact .nil
  | cons t ts ih => exact .cons (expand_self t (h t List.mem_cons_self) 0) (ih (fun u hu => h u (List.mem_cons_of_mem _ hu)))

/-- all lines with a newline character -/
def fileText (ts : List (List Char)) : List Char := ts.flatMap (· ++ ['\n'])

theorem fileOf_text (ts : List (List Char)) : FileOf ts (fileText ts) := by
  induction ts with
  | nil => exact .nil
  | cons t ts ih =>
    have := FileOf.cons t ts _ ih
    simpa [fileText] using this

/-- a card of one line that starts with a digit -/
theorem oneLine_ok {x : Char} {r : List Char} (hp : Plain (x :: r)) (hx : x ≠ ' ' ∧ x ≠ '$' ∧ x ≠ 'c' ∧ x ≠ 'C' ∧ x.toLower ≠ 'f')
    (ha : '&' ∉ x :: r) : CardText.Ok ⟨x :: r, []⟩ where
  plain := by intro t ht; rw [CardText.lines, List.flatMap_nil, List.mem_singleton] at ht; rw [ht]; exact hp
  filled := by
    intro t ht he
    rw [CardText.body, List.map_nil, List.mem_singleton] at ht
    rw [ht] at he
    exact hx.1 (he x List.mem_cons_self)
  nocomment := by
    intro t ht
    rw [CardText.body, List.map_nil, List.mem_singleton] at ht
    rw [ht]
    exact notComment_of 0 hx.1 hx.2.1 hx.2.2.1 hx.2.2.2.1
  comments := by intro m hm; exact absurd hm List.not_mem_nil
  first := notIndented_of hx.1
  nofc := notStarts_of hx.1 (by decide) hx.2.2.2.2
  cont := by intro i p t _ h; simp [CardText.body] at h
  closed := by
    intro p hp2 hamp
    simp only [CardText.body, List.map_nil, List.getLast?_singleton, Option.some.injEq] at hp2
    subst hp2
    obtain ⟨rest, hr⟩ := hamp
    apply ha
    rw [hr]
    simp

/-! ## A deck that is read correctly -/

/-- a file: message block, title, two cells (the first with comments inside, `&` before an indented line, a `$` comment), one surface, a TR card, and text
after the end -/
def sampleTexts : List (List Char) :=
  ["MESSAGE: hello".toList, "".toList, "a title".toList, "c cells".toList, "1 1 -7.8 -1 & more".toList, "C inside".toList, "     2 $ text".toList,
   "c".toList, "2 0 1".toList, "".toList, "1 so\t5".toList, "  ".toList, "TR1 0 0 5".toList, "".toList, "c anything".toList]

/-- the same as a deck: the tab after `so` becomes four blanks -/
def sampleDeck : Deck :=
  { message := some (["MESSAGE: hello".toList], [])
    title := "a title".toList
    cells := ⟨[(["c cells".toList], ⟨"1 1 -7.8 -1 & more".toList, [(["C inside".toList], "     2 $ text".toList)]⟩),
      (["c".toList], ⟨"2 0 1".toList, []⟩)], []⟩
    blank1 := []
    surfaces := ⟨[([], ⟨"1 so    5".toList, []⟩)], []⟩
    blank2 := "  ".toList
    data := ⟨[([], ⟨"TR1 0 0 5".toList, []⟩)], []⟩
    after := some ([], ["c anything".toList]) }

theorem sample_ok : sampleDeck.Ok where
  message := by
    intro m hm
    have : m = (["MESSAGE: hello".toList], []) := (Option.some.inj hm).symm
    subst this
    refine ⟨⟨_, _, rfl, 0, " hello".toList, "MESSAGE:".toList, rfl, by decide⟩, ?_, ?_⟩
    · intro t ht
      rw [List.mem_singleton.mp ht]
      exact ⟨by unfold Plain; decide, by unfold Empty; decide⟩
    · intro c hc; exact absurd hc List.not_mem_nil
  title := ⟨by unfold Plain; decide, by unfold Empty; decide⟩
  titleKind := by intro h; cases h
  cells := by
    refine ⟨?_, ?_, ?_⟩
    · intro m hm
      simp only [sampleDeck, List.mem_cons, List.not_mem_nil, or_false] at hm
      rcases hm with rfl | rfl
      · refine ⟨?_, ?_, ?_, ?_, ?_, ?_, ?_, ?_⟩
        · have : ∀ t ∈ ["1 1 -7.8 -1 & more".toList, "C inside".toList, "     2 $ text".toList], ∀ c ∈ t, white c = true → c = ' ' := by decide
          exact this
        · have : ∀ t ∈ ["1 1 -7.8 -1 & more".toList, "     2 $ text".toList], ¬ ∀ c ∈ t, c = ' ' := by decide
          exact this
        · intro t ht
          have ht' : t = "1 1 -7.8 -1 & more".toList ∨ t = "     2 $ text".toList := by
            simpa [CardText.body] using ht
          rcases ht' with rfl | rfl
          · exact notComment_of 0 (by decide) (by decide) (by decide) (by decide)
          · exact notComment_of (x := '2') 5 (by decide) (by decide) (by decide) (by decide)
        · intro m hm t ht
          rw [List.mem_singleton.mp hm] at ht
          rw [List.mem_singleton.mp ht]
          exact ⟨0, by omega, " inside".toList, Or.inr ⟨Or.inr rfl, Or.inr rfl⟩⟩
        · exact notIndented_of (by decide)
        · exact notStarts_of (by decide) (by decide) (by decide)
        · intro i p t _ h
          match i with
          | 0 =>
            have : t = "     2 $ text".toList := (Option.some.inj h).symm
            rw [this]
            exact Or.inl ⟨"2 $ text".toList, rfl⟩
          | i + 1 => simp [CardText.body] at h
        · intro p hp hamp
          have : p = "     2 $ text".toList := (Option.some.inj hp).symm
          rw [this] at hamp
          obtain ⟨rest, hr⟩ := hamp
          have h1 : '&' ∈ "     2 $ text".toList := by rw [hr]; simp
          exact absurd h1 (by decide)
      · exact oneLine_ok (by unfold Plain; decide) (by decide) (by decide)
    · intro m hm t ht
      simp only [sampleDeck, List.mem_cons, List.not_mem_nil, or_false] at hm
      rcases hm with rfl | rfl
      · rw [List.mem_singleton.mp ht]
        exact ⟨⟨0, by omega, " cells".toList, Or.inr ⟨Or.inl rfl, Or.inr rfl⟩⟩, by unfold Plain; decide⟩
      · rw [List.mem_singleton.mp ht]
        exact ⟨⟨0, by omega, [], Or.inr ⟨Or.inl rfl, Or.inl rfl⟩⟩, by unfold Plain; decide⟩
    · intro t ht; exact absurd ht List.not_mem_nil
  surfaces := by
    refine ⟨?_, ?_, ?_⟩
    · intro m hm
      rw [List.mem_singleton.mp hm]
      exact oneLine_ok (by unfold Plain; decide) (by decide) (by decide)
    · intro m hm t ht
      rw [List.mem_singleton.mp hm] at ht
      exact absurd ht List.not_mem_nil
    · intro t ht; exact absurd ht List.not_mem_nil
  data := by
    refine ⟨?_, ?_, ?_⟩
    · intro m hm
      rw [List.mem_singleton.mp hm]
      exact oneLine_ok (by unfold Plain; decide) (by decide) (by decide)
    · intro m hm t ht
      rw [List.mem_singleton.mp hm] at ht
      exact absurd ht List.not_mem_nil
    · intro t ht; exact absurd ht List.not_mem_nil
  blank1 := by intro c hc; exact absurd hc List.not_mem_nil
  blank2 := by unfold Empty; decide
  after := by
    intro a ha
    have : a = ([], ["c anything".toList]) := (Option.some.inj ha).symm
    subst this
    intro c hc; exact absurd hc List.not_mem_nil

theorem sample_expand : List.Forall₂ (Expand 0) sampleTexts sampleDeck.lines := by
  have e : Expand 0 "1 so\t5".toList "1 so    5".toList :=
    .char _ _ _ _ (by decide) (.char _ _ _ _ (by decide) (.char _ _ _ _ (by decide) (.char _ _ _ _ (by decide)
      (.tab 4 4 _ _ (by decide) (by decide) (by decide) (.char _ _ _ _ (by decide) (.nil _))))))
  have f : ∀ t : List Char, '\t' ∉ t → Expand 0 t t := fun t h => expand_self t h 0
  exact .cons (f _ (by decide)) (.cons (f _ (by decide)) (.cons (f _ (by decide)) (.cons (f _ (by decide)) (.cons (f _ (by decide))
    (.cons (f _ (by decide)) (.cons (f _ (by decide)) (.cons (f _ (by decide)) (.cons (f _ (by decide)) (.cons (f _ (by decide)) (.cons e
    (.cons (f _ (by decide)) (.cons (f _ (by decide)) (.cons (f _ (by decide)) (.cons (f _ (by decide)) .nil))))))))))))))

/-- the conditions of `C79_cards_partial` hold for the sample -/
example : ∃ cs, getCards (fileText sampleTexts) = .ok cs ∧ view cs = sampleDeck.says := by
  refine C79_cards_partial sampleDeck sampleTexts _ sample_ok sample_expand (fileOf_text _) ?_ ?_ (by decide +kernel)
  · intro b hb m hm x hx
    simp only [Deck.blocks, sampleDeck, List.mem_cons, List.not_mem_nil, or_false] at hb
    rcases hb with rfl | rfl | rfl
    · simp only [List.mem_cons, List.not_mem_nil, or_false] at hm
      rcases hm with rfl | rfl
      · rw [List.mem_singleton.mp hx]
        exact ⟨"2 $ text".toList, rfl⟩
      · exact absurd hx List.not_mem_nil
    · rw [List.mem_singleton.mp hm] at hx
      exact absurd hx List.not_mem_nil
    · rw [List.mem_singleton.mp hm] at hx
      exact absurd hx List.not_mem_nil
  · have hl : ∀ t : List Char, (t.headD 'x' ≠ ' ') → ∀ k, 0 < k → t ≠ List.replicate k ' ' ++ ['c'] ∧ t ≠ List.replicate k ' ' ++ ['C'] := by
      intro t ht k hk
      obtain ⟨j, rfl⟩ := Nat.exists_eq_succ_of_ne_zero (by omega : k ≠ 0)
      constructor <;> (intro h; rw [h] at ht; exact ht rfl)
    have hl2 : ∀ k, 0 < k → "     2 $ text".toList ≠ List.replicate k ' ' ++ ['c'] ∧ "     2 $ text".toList ≠ List.replicate k ' ' ++ ['C'] := by
      intro k hk
      constructor <;>
        (intro h
         have h2 : '2' ∈ "     2 $ text".toList := by decide
         rw [h] at h2
         rcases List.mem_append.mp h2 with h2 | h2
         · exact absurd (List.eq_of_mem_replicate h2) (by decide)
         · exact absurd h2 (by decide))
    intro b hb t ht
    by_cases he : t = "     2 $ text".toList
    · rw [he]; exact hl2
    · apply hl
      have : ∀ b ∈ sampleDeck.blocks, ∀ t ∈ b.lines, t = "     2 $ text".toList ∨ t.headD 'x' ≠ ' ' := by
        intro b hb
        simp only [Deck.blocks, List.mem_cons, List.not_mem_nil, or_false] at hb
        rcases hb with rfl | rfl | rfl
        · have : ∀ t ∈ sampleDeck.cells.lines, t = "     2 $ text".toList ∨ t.headD 'x' ≠ ' ' := by decide +kernel
          exact this
        · have : ∀ t ∈ sampleDeck.surfaces.lines, t = "     2 $ text".toList ∨ t.headD 'x' ≠ ' ' := by decide +kernel
          exact this
        · have : ∀ t ∈ sampleDeck.data.lines, t = "     2 $ text".toList ∨ t.headD 'x' ≠ ' ' := by decide +kernel
          exact this
      rcases this b hb t ht with h | h
      · exact absurd h he
      · exact h

/-- what the sample says -/
example : sampleDeck.says = [(.cell, ["1 1 -7.8 -1 ".toList, "     2 ".toList]), (.cell, ["2 0 1".toList]), (.surface, ["1 so    5".toList]),
    (.data, ["TR1 0 0 5".toList])] := by decide +kernel

/-- the conditions of `C79_lines` hold for the sample; what follows the blank line after the data is left out -/
example : ∃ cs rest, getCards (fileText sampleTexts) = .ok cs ∧ sampleDeck.lines.map (· ++ ['\n']) = cs.flatMap (·.lines) ++ rest ∧ rest ≠ [] := by
  have hr : (match getCards (fileText sampleTexts) with | .ok cs => decide ((cs.flatMap (·.lines)).length < sampleDeck.lines.length) | .error _ => false) = true := by
    decide +kernel
  cases h : getCards (fileText sampleTexts) with
  | error e => rw [h] at hr; cases hr
  | ok cs =>
    rw [h] at hr
    have hp : ∀ t ∈ sampleDeck.lines, ∀ c ∈ t, white c = true → c = ' ' := by decide +kernel
    obtain ⟨rest, h1, _⟩ := C79_lines _ _ _ (fileOf_text sampleTexts) sample_expand hp (by decide +kernel)
      (by
        intro t ht
        have : t = 'M' :: "ESSAGE: hello".toList := (Option.some.inj ht).symm
        rw [this]
        exact notStarts_of (w0 := 'c') (by decide) (by decide) (by decide)) cs h
    refine ⟨cs, rest, rfl, h1, fun h0 => ?_⟩
    rw [h0, List.append_nil] at h1
    have h2 := congrArg List.length h1
    rw [List.length_map] at h2
    have h3 := of_decide_eq_true hr
    omega

/-- a blank line in place of the title: the program raises `IndexError` -/
theorem C79_blank_title (k : Nat) (s : List Char) : getCards (List.replicate k ' ' ++ '\n' :: s) = .error .index := by
  have hb : '\n' ∉ List.replicate k ' ' := fun h => absurd (List.eq_of_mem_replicate h) (by decide)
  have hp : Plain (List.replicate k ' ') := fun c hc _ => List.eq_of_mem_replicate hc
  have hx : replaceTab 0 (nl (List.replicate k ' ')) = nl (List.replicate k ' ') :=
    replaceTab_expand (expand_self _ (fun h => absurd (List.eq_of_mem_replicate h) (by decide)) 0)
  have hl : lstrip (nl (List.replicate k ' ')) = [] := by
    rw [nl, white_replicate]
    decide
  have hraw : (rawCards (List.replicate k ' ' ++ '\n' :: s)).1 = ([nl (List.replicate k ' ')], cidTitle) :: loop 3 false [] [] (pyLines s) := by
    unfold rawCards
    rw [pyLines_cons _ _ hb]
    simp only [hx, hl]
    rfl
  unfold getCards
  rw [hraw]
  have hg : getInput [nl (List.replicate k ' ')] cidTitle = .error .index := by
    unfold getInput
    rw [if_neg (by decide)]
    have : firstWord [nl (List.replicate k ' ')].flatten = none := by
      unfold firstWord
      rw [List.flatten_singleton, hl]
    rw [this]
  simp only [makeCards, hg]
  rfl

/-! ## Decks that are read wrongly -/

/-- an empty block -/
theorem emptyBlock_ok : Block.Ok ⟨[], []⟩ :=
  ⟨fun _ h => absurd h List.not_mem_nil, fun _ h => absurd h List.not_mem_nil, fun _ h => absurd h List.not_mem_nil⟩

/-- the view of a result, for comparison -/
def seen (r : Except Err (List PyCard)) : Option (List (Kind × List (List Char))) :=
  match r with
  | .ok cs => some (view cs)
  | .error _ => none

/-- a deck with a title and the given blocks -/
def plainDeck (cells data : Block) : Deck :=
  { message := none, title := "t".toList, cells := cells, blank1 := [], surfaces := ⟨[], []⟩, blank2 := [], data := data, after := none }

theorem plainDeck_ok {cells data : Block} (h1 : cells.Ok) (h2 : data.Ok) : (plainDeck cells data).Ok where
  message := by intro m hm; cases hm
  title := by
    have h1 : Plain "t".toList := by unfold Plain; decide
    have h2 : ¬ Empty "t".toList := by unfold Empty; decide
    exact ⟨h1, h2⟩
  titleKind := fun _ => ⟨notStarts_of (w0 := 'm') (by decide) (by decide) (by decide), notStarts_of (w0 := 'c') (by decide) (by decide) (by decide)⟩
  cells := h1
  surfaces := emptyBlock_ok
  data := h2
  blank1 := by intro c hc; exact absurd hc List.not_mem_nil
  blank2 := by intro c hc; exact absurd hc List.not_mem_nil
  after := by intro a ha; cases ha

/-- a cell card continued with `&` on a line that is not indented -/
def ampCard : CardText := ⟨['1', ' ', '0', ' ', '-', '1', ' ', '&'], [([], ['2'])]⟩

theorem ampCard_ok : ampCard.Ok where
  plain := by
    intro t ht
    have ht' : t = ['1', ' ', '0', ' ', '-', '1', ' ', '&'] ∨ t = ['2'] := by simpa [CardText.lines, ampCard] using ht
    rcases ht' with rfl | rfl
    · unfold Plain; decide
    · unfold Plain; decide
  filled := by
    intro t ht
    have ht' : t = ['1', ' ', '0', ' ', '-', '1', ' ', '&'] ∨ t = ['2'] := by simpa [CardText.body, ampCard] using ht
    rcases ht' with rfl | rfl
    · unfold Empty; decide
    · unfold Empty; decide
  nocomment := by
    intro t ht
    have ht' : t = ['1', ' ', '0', ' ', '-', '1', ' ', '&'] ∨ t = ['2'] := by simpa [CardText.body, ampCard] using ht
    rcases ht' with rfl | rfl
    · exact notComment_of 0 (by decide) (by decide) (by decide) (by decide)
    · exact notComment_of 0 (by decide) (by decide) (by decide) (by decide)
  comments := by
    intro m hm t ht
    rw [List.mem_singleton.mp hm] at ht
    exact absurd ht List.not_mem_nil
  first := notIndented_of (by decide)
  nofc := notStarts_of (by decide) (by decide) (by decide)
  cont := by
    intro i p t hp h
    match i with
    | 0 =>
      have : p = ['1', ' ', '0', ' ', '-', '1', ' ', '&'] := (Option.some.inj hp).symm
      rw [this]
      exact Or.inr ⟨[], by decide⟩
    | i + 1 => simp [CardText.body, ampCard] at h
  closed := by
    intro p hp hamp
    have : p = ['2'] := (Option.some.inj hp).symm
    rw [this] at hamp
    obtain ⟨rest, hr⟩ := hamp
    have h1 : '&' ∈ ['2'] := by rw [hr]; simp
    exact absurd h1 (by decide)

/-- C79 is false: a card continued with `&` is cut in two, because the program looks for `&` in the text before it -/
theorem C79_ampersand_violated : ∃ (d : Deck), d.Ok ∧ d.says = [(.cell, ["1 0 -1 ".toList, "2".toList])] ∧
    seen (getCards (fileText d.lines)) = some [(.cell, ["1 0 -1 ".toList]), (.cell, ["2".toList])] := by
  refine ⟨plainDeck ⟨[([], ampCard)], []⟩ ⟨[], []⟩, plainDeck_ok ⟨?_, ?_, fun _ h => absurd h List.not_mem_nil⟩ emptyBlock_ok, by decide +kernel,
    by decide +kernel⟩
  · intro m hm
    rw [List.mem_singleton.mp hm]
    exact ampCard_ok
  · intro m hm t ht
    rw [List.mem_singleton.mp hm] at ht
    exact absurd ht List.not_mem_nil

/-- a deck with nothing but a comment: `c` alone after blanks -/
def loneDeck : Deck := plainDeck ⟨[], ["  c".toList]⟩ ⟨[], []⟩

theorem loneDeck_ok : loneDeck.Ok := by
  refine plainDeck_ok ⟨fun _ h => absurd h List.not_mem_nil, fun _ h => absurd h List.not_mem_nil, ?_⟩ emptyBlock_ok
  intro t ht
  rw [List.mem_singleton.mp ht]
  exact ⟨⟨2, by omega, [], Or.inr ⟨Or.inl rfl, Or.inl rfl⟩⟩, by unfold Plain; decide⟩

/-- C79 is false: a comment line that consists of `c` alone, after blanks, becomes a card -/
theorem C79_lone_c_violated : ∃ (d : Deck), d.Ok ∧ d.says = [] ∧ seen (getCards (fileText d.lines)) = some [(.cell, ["  c".toList])] := by
  exact ⟨loneDeck, loneDeck_ok, by decide +kernel, by decide +kernel⟩

/-- C79 is false: without a newline character at the end of the file the last character of the last line is lost -/
theorem C79_newline_violated : ∃ (d : Deck) (s : List Char), d.Ok ∧ FileOf d.lines s ∧ d.says = [(.data, ["TR1 0 0 5".toList])] ∧
    seen (getCards s) = some [(.data, ["TR1 0 0 ".toList])] := by
  refine ⟨plainDeck ⟨[], []⟩ ⟨[([], ⟨"TR1 0 0 5".toList, []⟩)], []⟩, "t\n\n\nTR1 0 0 5".toList, plainDeck_ok emptyBlock_ok ⟨?_, ?_, fun _ h => absurd h List.not_mem_nil⟩,
    ?_, by decide +kernel, by decide +kernel⟩
  · intro m hm
    rw [List.mem_singleton.mp hm]
    exact oneLine_ok (by unfold Plain; decide) (by decide) (by decide)
  · intro m hm t ht
    rw [List.mem_singleton.mp hm] at ht
    exact absurd ht List.not_mem_nil
  · exact .cons "t".toList _ _ (.cons [] _ _ (.cons [] _ _ (.last "TR1 0 0 5".toList (by decide))))

/-- C79 in full is false -/
theorem C79_violated : ¬ C79_statement := by
  intro h
  have h2 : loneDeck.says = [] := by decide +kernel
  have h3 : seen (getCards (fileText loneDeck.lines)) = some [(.cell, ["  c".toList])] := by decide +kernel
  have ht : ∀ t ∈ loneDeck.lines, '\t' ∉ t := by decide +kernel
  obtain ⟨cs, h4, h5⟩ := h loneDeck loneDeck.lines _ loneDeck_ok (expand_selfs _ ht) (fileOf_text _)
  rw [h4] at h3
  simp only [seen, Option.some.injEq] at h3
  rw [h5, h2] at h3
  cases h3

end Geouned.Card
