import Verif.Text.WrapLemmas3
/-!
# Properties of the wrapping of lines

C34 (`CellString.wrap_line`, `CardLine.extend`), C57 (`trim`). Words and lines are defined in `WrapSpec.lean`.
-/
namespace Geouned.Wrap

/-! ## C34: cell definitions -/

/-- **C34**, the condition being on the tidied text. Wrapping a cell definition (one line, no newline in it) ends, keeps the sequence of words, every line fits
(the first one after `offset` characters), and the following lines begin with the blanks of a continuation line,
provided that no stretch without `)`, `:` and blank of the tidied text is as long as the room in a line. -/
theorem C34_wrap_room (size tab offset n : Nat) (s : List Char) (hnl : '\n' ∉ s) (hroom : Room n (normalise s))
    (h1 : n ≤ size - tab) (h2 : n ≤ size - offset) (f : Nat) (hf : (normalise s).length < f) :
    ∃ out, wrapLine size tab offset f s = .ok out ∧ wordsOf out = wordsOf s ∧ Fits size offset out ∧ Continues tab out := by
  have hn1 : 1 ≤ n := hroom [] (List.nil_infix) (by simp)
  have hnl' : '\n' ∉ normalise s := fun h => hnl (mem_normalise (by decide) h)
  unfold wrapLine
  dsimp only
  split
  · next h =>
    refine ⟨_, rfl, words_normalise s, ?_, ?_⟩
    · unfold Fits; rw [linesOf_single hnl']; exact ⟨h, by simp⟩
    · unfold Continues; rw [linesOf_single hnl']; simp
  · next h =>
    have e1 : (size : Int) - 1 - offset = ((size - 1 - offset : Nat) : Int) := by omega
    have := wrapLoop_spec (size := size) (tab := tab) hnl' hroom (by omega) h1 f 0 (size - 1 - offset) [] (by omega) (by omega) (by omega)
    rw [e1]
    obtain ⟨rest, g1, g2, l, ls, g3, g4, g5⟩ := this
    have e2 : ((normalise s).length : Int) = ((normalise s).length : Int) - ((0 : Nat) : Int) := by omega
    rw [show (0 : Int) = ((0 : Nat) : Int) from rfl, e2, g1]
    refine ⟨[] ++ rest, rfl, ?_, ?_, ?_⟩
    · show wordsOf rest = wordsOf s
      rw [g2]
      simp only [List.drop_zero]
      exact words_normalise s
    · show Fits size offset rest
      unfold Fits; rw [g3]
      exact ⟨by omega, fun m hm => (g5 m hm).1⟩
    · show Continues tab rest
      unfold Continues; rw [g3]
      exact fun m hm => (g5 m hm).2

/-- **C34.** Wrapping a cell definition (digits, minus signs, parentheses, colons and blanks; every word that is not a parenthesis or a colon
ends with a digit) ends, keeps the sequence of words, every line fits (the first one after `offset` characters), and the following lines begin
with the blanks of a continuation line, provided that the words fit: a word of `d` characters after `m` opening parentheses is
shorter than the room in a line. -/
theorem C34_wrap (size tab offset d m : Nat) (s : List Char)
    (hch : ∀ c ∈ s, c.isDigit = true ∨ c = '-' ∨ c = '(' ∨ c = ')' ∨ c = ':' ∨ c = ' ')
    (hnum : ∀ w ∈ wordsOf s, w.getLast? ≠ some '-' ∧ w.length ≤ d) (hpar : ¬ List.replicate (m + 1) ['('] <:+: wordsOf s)
    (h1 : m + d < size - tab) (h2 : m + d < size - offset) (f : Nat) (hf : (normalise s).length < f) :
    ∃ out, wrapLine size tab offset f s = .ok out ∧ wordsOf out = wordsOf s ∧ Fits size offset out ∧ Continues tab out :=
  C34_wrap_room size tab offset (m + d + 1) s
    (by intro h; rcases hch _ h with h | h | h | h | h | h <;> exact absurd h (by decide))
    (room_of_words hch hnum hpar) (by omega) (by omega) f hf

/-- The tidying alone keeps the words. -/
theorem C34_normalise (s : List Char) : wordsOf (normalise s) = wordsOf s := words_normalise s

/-- a definition that is wrapped into several lines of at most 12 characters -/
def sample : List Char := " -1 ( 2:3) ( 4 : -15 16) 7 ".toList

example : normalise sample = "-1 (2:3) (4:-15 16) 7".toList := rfl
example : wrapLine 12 3 2 30 sample = .ok "-1 (2:3) \n   (4:-15 \n   16) 7".toList := rfl
example : '\n' ∉ sample := by decide
example : wordsOf sample = ["-1", "(", "2", ":", "3", ")", "(", "4", ":", "-15", "16", ")", "7"].map String.toList := rfl

/-- the hypotheses are met -/
example : (∀ c ∈ sample, c.isDigit = true ∨ c = '-' ∨ c = '(' ∨ c = ')' ∨ c = ':' ∨ c = ' ') ∧
    (∀ w ∈ wordsOf sample, w.getLast? ≠ some '-' ∧ w.length ≤ 3) := by decide

example : ¬ List.replicate (1 + 1) ['('] <:+: wordsOf sample := by
  have e : wordsOf sample = ["-1", "(", "2", ":", "3", ")", "(", "4", ":", "-15", "16", ")", "7"].map String.toList := rfl
  rw [e]
  decide

/-- Without the condition the loop never ends: here one number is longer than the line. -/
theorem C34_too_long_never_ends (f : Nat) : wrapLine 8 2 0 f "1 123456789 2".toList = .error .recursion := by
  have e : normalise "1 123456789 2".toList = "1 123456789 2".toList := rfl
  have loop : ∀ (f : Nat) (nl : List Char), wrapLoop 8 2 "1 123456789 2".toList f 2 7 11 nl = .error .recursion := by
    intro f
    induction f with
    | zero => intro nl; rfl
    | succ f ih =>
      intro nl
      have hs : scanBack "1 123456789 2".toList ((7 : Int) + "1 123456789 2".toList.length + 2).toNat 7 = .ok 1 := rfl
      unfold wrapLoop
      rw [hs]
      exact ih _
  cases f with
  | zero => rfl
  | succ f =>
    have hs : scanBack "1 123456789 2".toList ((7 : Int) + "1 123456789 2".toList.length + 2).toNat 7 = .ok 1 := rfl
    show wrapLoop 8 2 "1 123456789 2".toList (f + 1) 0 7 13 [] = _
    unfold wrapLoop
    rw [hs]
    exact loop f _

/-! ## C34: data cards -/

/-- **C34** for the data cards (`F4`, `SD4`): the card has the words of its title and of all data in their order, its lines fit and
continuation lines are indented, provided that title and each datum fit. -/
theorem C34_card (card : List Char) (size tab : Nat) (ds : List (List Char)) (hc : '\n' ∉ card) (hc' : card.length + 1 ≤ size)
    (hd : ∀ d ∈ ds, '\n' ∉ d ∧ tab + d.length + 1 ≤ size) :
    wordsOf ((CardLine.new card size tab).extend ds).str = wordsOf card ++ ds.flatMap wordsOf ∧
    Fits size 0 ((CardLine.new card size tab).extend ds).str ∧ Continues tab ((CardLine.new card size tab).extend ds).str := by
  obtain ⟨str', left', line', g1, add, g2, g3, l, ls, g4, g5, g6⟩ := extendLoop_spec (size := size) (tab := tab) ds (card ++ [' ']) []
    ((size : Int) - (card.length + 1)) (card.length + 1) hd (by simp) (by simp) (by simp; omega) (by simpa using hc')
  have e : ((CardLine.new card size tab).extend ds).str = (card ++ [' ']) ++ add := by
    simp only [CardLine.extend, CardLine.new]
    rw [g1]
    simpa using g2
  have hn : '\n' ∉ card ++ [' '] := by
    simp only [List.mem_append, List.mem_singleton, not_or]
    exact ⟨hc, by decide⟩
  rw [e]
  refine ⟨?_, ?_, ?_⟩
  · rw [words_append _ _ (by
      intro c hc
      simp only [List.getLast?_append, List.getLast?_singleton, Option.some_or, Option.some.injEq] at hc
      rw [← hc]; decide)]
    have e1 : wordsOf (card ++ [' ']) = wordsOf card := wf_wsTail card [' '] (by simp) []
    rw [e1]
    simp only [List.nil_append] at g3
    rw [g3]
    rfl
  · unfold Fits
    rw [linesOf_append hn g4]
    simp only [List.length_append, List.length_nil, List.length_singleton] at g5 ⊢
    exact ⟨by omega, fun m hm => (g6 m hm).1⟩
  · unfold Continues
    rw [linesOf_append hn g4]
    exact fun m hm => (g6 m hm).2

example : ((CardLine.new "F4:n ".toList 14 6).extend (["10", "11", "125", "13"].map String.toList)).str
    = "F4:n  10 11 \n      125 13 ".toList := rfl

/-! ## C57: surface cards -/

/-- **C57, the part that holds.** If every line that is too long has its last blank within the line length, and what follows fits after
the indentation, then `trim` ends, keeps the words, and all lines fit. -/
theorem C57_trim_partial (size : Nat) (s : List Char) (h : ∀ l ∈ linesOf s, size < l.length → Cuttable size l) :
    ∃ out, trim size s = .ok out ∧ wordsOf out = wordsOf s ∧ ∀ l ∈ linesOf out, l.length ≤ size := by
  unfold trim
  dsimp only
  split
  · next hall =>
    refine ⟨s, rfl, rfl, fun l hl => ?_⟩
    have := List.all_eq_true.1 hall l hl
    simpa using this
  · obtain ⟨outs, h1, h2, h3, h4⟩ := trimLoop_ok (size := size) (linesOf s) (fun l hl => ⟨lines_nl s l hl, h l hl⟩)
    rw [h1]
    obtain ⟨g1, g2⟩ := unlines_lines outs (h2 (linesOf_ne s)) (fun l hl => (h3 l hl).1)
    refine ⟨(unlines outs).dropLast, rfl, ?_, ?_⟩
    · rw [g2, h4, words_lines s]
    · rw [g1]; exact fun l hl => (h3 l hl).2

/-- a card of two lines, the first of which is cut -/
example : trim 12 "1  GQ 1.0 -2.00\n  3".toList = .ok "1  GQ 1.0\n          -2.00\n  3".toList := rfl
example : Cuttable 16 "1  GQ 1.0 -2.000".toList :=
  ⟨"1  GQ 1.0".toList, "-2.000".toList, rfl, by decide, by decide, by decide, by decide⟩

/-- The full claim: a card whose words all fit in a line is wrapped, with the same words, into lines that fit. -/
def C57_statement : Prop :=
  ∀ (size : Nat) (s : List Char), 20 ≤ size → (∀ w ∈ wordsOf s, w.length + 10 ≤ size) →
    ∃ out, trim size s = .ok out ∧ wordsOf out = wordsOf s ∧ ∀ l ∈ linesOf out, l.length ≤ size

/-- **C57 is violated**: the loop looks for the last blank again and again without shortening the line; if that blank is beyond the
line length, it never ends. -/
theorem C57_violated : ¬ C57_statement := by
  intro h
  obtain ⟨out, h1, -⟩ := h 20 "10 GQ 1.234 1.234 1.234 1.2".toList (by decide) (by decide)
  have : trim 20 "10 GQ 1.234 1.234 1.234 1.2".toList = .error .recursion := rfl
  rw [this] at h1
  cases h1

/-- every line with its last blank beyond the line length hangs the program -/
theorem C57_hangs (size : Nat) (a b : List Char) (hb : ' ' ∉ b) (ha : size < a.length) :
    cutLine size (a ++ ' ' :: b) = .error .recursion := by
  unfold cutLine
  dsimp only
  rw [rfindBlank_spec hb, if_neg (by omega)]

end Geouned.Wrap
