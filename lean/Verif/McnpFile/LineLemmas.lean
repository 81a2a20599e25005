import Verif.McnpFile.Lemmas
import Verif.McnpFile.DefLemmas
import Verif.Text.RoomLemmas
/-!
# Lemmas for C102: characters, words of cards, lines of `CardLine`
-/
namespace Geouned.McnpFile

open Geouned.Card

/-! ## characters -/

/-- the characters of cards -/
def Simple (c : Char) : Prop := c = ' ' ∨ c.isAlphanum = true ∨ c ∈ ['.', '+', '-', '/', '(', ')', ':', '=']

instance (c : Char) : Decidable (Simple c) := inferInstanceAs (Decidable (_ ∨ _))

theorem alnum_range {c : Char} (h : c.isAlphanum = true) : (48 ≤ c.toNat ∧ c.toNat ≤ 57) ∨ (65 ≤ c.toNat ∧ c.toNat ≤ 90) ∨ (97 ≤ c.toNat ∧ c.toNat ≤ 122) := by
  simp only [Char.isAlphanum, Char.isAlpha, Char.isUpper, Char.isLower, Char.isDigit, Bool.or_eq_true, Bool.and_eq_true, decide_eq_true_eq, ge_iff_le,
    UInt32.le_iff_toNat_le] at h
  simp only [Char.toNat]
  rcases h with (h | h) | h
  · exact Or.inr (Or.inl h)
  · exact Or.inr (Or.inr h)
  · exact Or.inl h

theorem alnum_ne {c d : Char} (h : c.isAlphanum = true) (hd : d.isAlphanum = false) : c ≠ d := by
  rintro rfl
  rw [h] at hd
  cases hd

theorem alnum_white {c : Char} (h : c.isAlphanum = true) : white c = false := by
  have := alnum_range h
  simp only [white, Bool.or_eq_false_iff, Bool.and_eq_false_iff, decide_eq_false_iff_not, List.mem_cons, List.not_mem_nil, or_false, not_or]
  omega

theorem simple_white {c : Char} (h : Simple c) (hw : white c = true) : c = ' ' := by
  rcases h with h | h | h
  · exact h
  · rw [alnum_white h] at hw; cases hw
  · simp only [List.mem_cons, List.not_mem_nil, or_false] at h
    rcases h with rfl | rfl | rfl | rfl | rfl | rfl | rfl | rfl <;> exact absurd hw (by decide)

theorem simple_ne {c d : Char} (h : Simple c) (hd : ¬ Simple d) : c ≠ d := by
  rintro rfl
  exact hd h

/-- a line of a card without comment -/
def Tidy (t : List Char) : Prop := ∀ c ∈ t, Simple c

instance (t : List Char) : Decidable (Tidy t) := inferInstanceAs (Decidable (∀ c ∈ t, Simple c))

instance (t : List Char) : Decidable (Plain t) := inferInstanceAs (Decidable (∀ c ∈ t, white c = true → c = ' '))

theorem Tidy.plain {t : List Char} (h : Tidy t) : Plain t := fun c hc hw => simple_white (h c hc) hw

theorem Tidy.content {t : List Char} (h : Tidy t) : content t = t := by
  unfold Card.content
  rw [List.takeWhile_eq_self_iff]
  intro c hc
  have h1 := simple_ne (d := '$') (h c hc) (by decide)
  have h2 := simple_ne (d := '&') (h c hc) (by decide)
  simp [h1, h2]

theorem Tidy.noAmp {t : List Char} (h : Tidy t) : NoAmp t := .of_notMem fun hm => absurd (h _ hm) (by decide)

theorem Tidy.nl {t : List Char} (h : Tidy t) : '\n' ∉ t := fun hm => absurd (h _ hm) (by decide)

theorem Tidy.append {a b : List Char} (ha : Tidy a) (hb : Tidy b) : Tidy (a ++ b) := fun c hc => (List.mem_append.mp hc).elim (ha c) (hb c)

theorem Tidy.cons {x : Char} {b : List Char} (ha : Simple x) (hb : Tidy b) : Tidy (x :: b) := fun c hc => by
  rcases List.mem_cons.mp hc with rfl | hc
  · exact ha
  · exact hb c hc

theorem tidy_nil : Tidy [] := fun _ h => by cases h

theorem tidy_blanks (n : Nat) : Tidy (List.replicate n ' ') := fun c hc => Or.inl (List.eq_of_mem_replicate hc)

theorem tidy_int (n : Int) : Tidy (Text.strInt n) := by
  intro c hc
  rcases (Text.strInt_word n).2 c hc with h | h
  · exact Or.inr (Or.inl (by simp [Char.isAlphanum, h]))
  · exact Or.inr (Or.inr (by simp [h]))

theorem tidy_pad {t : List Char} (h : Tidy t) (n : Nat) : Tidy (padRight n t) := h.append (tidy_blanks _)

theorem Token.tidy {w : List Char} (h : Token w) : Tidy w := by
  intro c hc
  rcases h.2 c hc with h | h
  · exact Or.inr (Or.inl h)
  · refine Or.inr (Or.inr ?_)
    simp only [List.mem_cons, List.not_mem_nil, or_false] at h ⊢
    rcases h with rfl | rfl | rfl | rfl <;> simp

theorem NumText.tidy {w : List Char} (h : NumText w) : Tidy w := by
  obtain ⟨n, w, rfl, h, -⟩ := h
  exact (tidy_blanks n).append h.tidy

theorem NumText.ink {w : List Char} (h : NumText w) : ∃ c ∈ w, c ≠ ' ' ∧ c ≠ 'c' ∧ c ≠ 'C' := by
  obtain ⟨n, w, rfl, -, c, hc, hd⟩ := h
  refine ⟨c, by simp [hc], ?_, ?_, ?_⟩ <;> (rintro rfl; exact absurd hd (by decide))

theorem int_ink (n : Int) : ∃ c ∈ Text.strInt n, c ≠ ' ' ∧ c ≠ 'c' ∧ c ≠ 'C' := by
  obtain ⟨h1, h2⟩ := Text.strInt_word n
  obtain ⟨c, hc⟩ := List.exists_mem_of_ne_nil _ h1
  refine ⟨c, hc, ?_, ?_, ?_⟩ <;> exact Text.digit_ne (h2 c hc) (by decide) (by decide)

theorem tidy_cont {t : List Char} (h : Tidy t) (hb : ∃ r, t = ' ' :: ' ' :: ' ' :: ' ' :: ' ' :: r) (hf : ∃ c ∈ t, c ≠ ' ' ∧ c ≠ 'c' ∧ c ≠ 'C') : Cont t :=
  ⟨h.plain, hb, hf, h.noAmp⟩

/-- a first line that begins with a character that is not `f` -/
theorem tidy_first {x : Char} {t : List Char} (h : Tidy (x :: t)) (h0 : x ≠ ' ') (h1 : x ≠ '$') (h2 : x ≠ 'c') (h3 : x ≠ 'C') (hf : x.toLower ≠ 'f') : First (x :: t) := by
  refine ⟨h.plain, ⟨x, t, rfl, h0, h1, h2, h3⟩, ?_, h.noAmp⟩
  rintro ⟨k, rest, w, he, hw⟩
  cases k with
  | succ k => simp [List.replicate_succ] at he; exact h0 he.1
  | zero =>
    cases w with
    | nil => simp at hw
    | cons a w =>
      simp at he hw
      rw [he.1] at hf
      exact hf hw.1

theorem first_int (n : Int) {r : List Char} (hr : Tidy r) : First (Text.strInt n ++ r) := by
  obtain ⟨h1, h2⟩ := Text.strInt_word n
  have ht := (tidy_int n).append hr
  obtain ⟨x, t, he⟩ := List.exists_cons_of_ne_nil h1
  rw [he] at ht ⊢
  have hx := h2 x (by rw [he]; simp)
  rw [List.cons_append] at ht ⊢
  refine tidy_first ht ?_ ?_ ?_ ?_ ?_
  · exact Text.digit_ne hx (by decide) (by decide)
  · exact Text.digit_ne hx (by decide) (by decide)
  · exact Text.digit_ne hx (by decide) (by decide)
  · exact Text.digit_ne hx (by decide) (by decide)
  · have : x.toLower = x := by
      unfold Char.toLower
      rw [dif_neg]
      rintro ⟨ha, hb⟩
      rcases hx with hx | rfl
      · simp only [Char.isDigit, Bool.and_eq_true, decide_eq_true_eq, ge_iff_le, UInt32.le_iff_toNat_le] at hx
        simp only [UInt32.le_iff_toNat_le] at ha hb
        have e1 : (57 : UInt32).toNat = 57 := rfl
        have e2 : (65 : UInt32).toNat = 65 := rfl
        have e3 : 'A'.val.toNat = 65 := rfl
        have e4 : '9'.val.toNat = 57 := rfl
        omega
      · exact absurd ha (by decide)
    rw [this]
    exact Text.digit_ne hx (by decide) (by decide)

/-! ## words -/

theorem words_blank {t : List Char} (h : ∀ c ∈ t, c = ' ') : Wrap.wordsOf t = [] := by
  have : t = List.replicate t.length ' ' := List.eq_replicate_iff.mpr ⟨rfl, h⟩
  rw [this]
  have := Wrap.wf_replicate t.length []
  rw [List.append_nil] at this
  unfold Wrap.wordsOf
  rw [this]
  rfl

theorem words_says (first : List Char) (rest : List (List Char)) : words (card first rest).says = (first :: rest).flatMap (fun t => Wrap.wordsOf (content t)) := by
  unfold CardText.says words
  rw [card_body]
  generalize first :: rest = l
  induction l with
  | nil => rfl
  | cons t l ih =>
    rw [List.map_cons, List.flatMap_cons, ← ih]
    by_cases hb : (content t).any (fun c => decide (c ≠ ' ')) = true
    · rw [List.filter_cons_of_pos (p := fun t : List Char => t.any (fun c => decide (c ≠ ' '))) hb, List.flatMap_cons]
    · rw [List.filter_cons_of_neg (p := fun t : List Char => t.any (fun c => decide (c ≠ ' '))) hb]
      have : Wrap.wordsOf (content t) = [] := by
        apply words_blank
        intro c hc
        by_contra hne
        exact hb (List.any_eq_true.mpr ⟨c, hc, by simpa using hne⟩)
      rw [this, List.nil_append]

theorem words_tidy (first : List Char) (rest : List (List Char)) (h : ∀ t ∈ first :: rest, Tidy t) :
    words (card first rest).says = (first :: rest).flatMap Wrap.wordsOf := by
  rw [words_says]
  generalize first :: rest = l at h
  induction l with
  | nil => rfl
  | cons t l ih =>
    rw [List.flatMap_cons, List.flatMap_cons, (h t (by simp)).content, ih (fun u hu => h u (List.mem_cons_of_mem _ hu))]

/-- a word in front -/
theorem words_token {w : List Char} (hne : w ≠ []) (hw : ∀ c ∈ w, Wrap.isSep c = false) (r : List Char) (hr : ∀ c, r.head? = some c → Wrap.isSep c = true) :
    Wrap.wordsOf (w ++ r) = w :: Wrap.wordsOf r := by
  have := Text.word_sep hne hw r hr []
  simpa [Wrap.wordsOf] using this

theorem words_space (r : List Char) : Wrap.wordsOf (' ' :: r) = Wrap.wordsOf r := by
  unfold Wrap.wordsOf
  rw [Wrap.wf_ws _ (by decide)]
  rfl

theorem words_spaces (n : Nat) (r : List Char) : Wrap.wordsOf (List.replicate n ' ' ++ r) = Wrap.wordsOf r := Wrap.wf_replicate n r

theorem words_int (n : Int) (r : List Char) (hr : ∀ c, r.head? = some c → Wrap.isSep c = true) : Wrap.wordsOf (Text.strInt n ++ r) = Text.strInt n :: Wrap.wordsOf r :=
  words_token (Text.strInt_word n).1 (Text.strInt_sep n) r hr

theorem words_int1 (n : Int) : Wrap.wordsOf (Text.strInt n) = [Text.strInt n] := by
  have := words_int n [] (by simp)
  simpa [Wrap.wordsOf, Wrap.wordsFrom] using this

theorem words_blank_mid (a b : List Char) : Wrap.wordsOf (a ++ ' ' :: b) = Wrap.wordsOf a ++ Wrap.wordsOf b := by
  have h1 : a ++ ' ' :: b = (a ++ [' ']) ++ b := by simp
  rw [h1, Wrap.words_append (a ++ [' ']) b (by intro c hc; simp at hc; rw [← hc]; decide)]
  congr 1
  exact Wrap.wf_wsTail a [' '] (by simp) []

theorem words_blank_end (a : List Char) (n : Nat) : Wrap.wordsOf (a ++ List.replicate n ' ') = Wrap.wordsOf a := by
  refine Wrap.wf_wsTail a _ ?_ []
  intro c hc
  rw [List.eq_of_mem_replicate hc]
  decide

theorem words_pad (t : List Char) (n : Nat) : Wrap.wordsOf (padRight n t) = Wrap.wordsOf t := words_blank_end _ _

theorem token_sep {w : List Char} (h : Token w) : ∀ c ∈ w, Wrap.isSep c = false := by
  intro c hc
  rcases h.2 c hc with h | h
  · have := alnum_range h
    simp only [Wrap.isSep, Wrap.special, Bool.or_eq_false_iff, decide_eq_false_iff_not, Char.isWhitespace]
    refine ⟨⟨⟨⟨?_, ?_⟩, ?_⟩, ?_⟩, ⟨?_, ?_⟩, ?_⟩ <;> (rintro rfl; revert h; decide)
  · simp only [List.mem_cons, List.not_mem_nil, or_false] at h
    rcases h with rfl | rfl | rfl | rfl <;> decide

theorem words_token1 {w : List Char} (h : Token w) : Wrap.wordsOf w = [w] := by
  have := words_token h.1 (token_sep h) [] (by simp)
  simpa [Wrap.wordsOf, Wrap.wordsFrom] using this

/-! ## the lines of `CardLine` -/

theorem extendLoop_lines {size tab : Nat} (P : Char → Prop) : ∀ (ds : List (List Char)) (str line : List Char) (left : Int),
    (∀ d ∈ ds, '\n' ∉ d ∧ ∃ c ∈ d, P c) →
    ∃ add, (Wrap.extendLoop size tab ds str left line).1 ++ (Wrap.extendLoop size tab ds str left line).2.2 = str ++ (line ++ add)
      ∧ (∀ m ∈ (Wrap.linesOf add).tail, ∃ r, m = List.replicate tab ' ' ++ r ∧ ∃ c ∈ r, P c) ∧ ∀ c ∈ add, c = ' ' ∨ c = '\n' ∨ ∃ d ∈ ds, c ∈ d
  | [], str, line, left, _ => ⟨[], by simp [Wrap.extendLoop], by simp [Wrap.linesOf], by simp⟩
  | d :: ds, str, line, left, hd => by
    have hd1 := hd d (by simp)
    have hds : ∀ d ∈ ds, '\n' ∉ d ∧ ∃ c ∈ d, P c := fun x hx => hd x (by simp [hx])
    have hnl : '\n' ∉ d ++ [' '] := by simp [hd1.1]
    have mem : ∀ {x : List Char} {add : List Char}, (∀ c ∈ add, c = ' ' ∨ c = '\n' ∨ ∃ e ∈ ds, c ∈ e) →
        (∀ c ∈ add, c = ' ' ∨ c = '\n' ∨ ∃ e ∈ d :: ds, c ∈ e) := by
      intro x add h c hc
      rcases h c hc with h | h | ⟨e, he, h⟩
      · exact Or.inl h
      · exact Or.inr (Or.inl h)
      · exact Or.inr (Or.inr ⟨e, by simp [he], h⟩)
    have memd : ∀ c ∈ d ++ [' '], c = ' ' ∨ c = '\n' ∨ ∃ e ∈ d :: ds, c ∈ e := by
      intro c hc
      rcases List.mem_append.mp hc with h | h
      · exact Or.inr (Or.inr ⟨d, by simp, h⟩)
      · exact Or.inl (List.mem_singleton.mp h)
    unfold Wrap.extendLoop
    dsimp only
    split
    · obtain ⟨add, g1, g2, g3⟩ := extendLoop_lines P ds str (line ++ (d ++ [' '])) (left - (d ++ [' ']).length) hds
      refine ⟨(d ++ [' ']) ++ add, by rw [g1]; simp, ?_, ?_⟩
      · cases hl : Wrap.linesOf add with
        | nil => exact absurd hl (Wrap.linesOf_ne _)
        | cons l ls =>
          rw [Wrap.linesOf_append hnl hl]
          rw [hl] at g2
          exact g2
      · intro c hc
        rcases List.mem_append.mp hc with h | h
        · exact memd c h
        · exact mem (x := []) g3 c h
    · obtain ⟨add, g1, g2, g3⟩ := extendLoop_lines P ds (str ++ line ++ ['\n']) (List.replicate tab ' ' ++ (d ++ [' ']))
        ((size : Int) - (List.replicate tab ' ' ++ (d ++ [' '])).length) hds
      refine ⟨'\n' :: (List.replicate tab ' ' ++ (d ++ [' ']) ++ add), by rw [g1]; simp, ?_, ?_⟩
      · have e : Wrap.linesOf ('\n' :: (List.replicate tab ' ' ++ (d ++ [' ']) ++ add)) = [] :: Wrap.linesOf (List.replicate tab ' ' ++ (d ++ [' ']) ++ add) := by
          have := Wrap.linesOf_nl [] (by simp) (List.replicate tab ' ' ++ (d ++ [' ']) ++ add)
          simpa using this
        rw [e, List.tail_cons]
        have hn2 : '\n' ∉ List.replicate tab ' ' ++ (d ++ [' ']) := by
          simp only [List.mem_append, not_or] at hnl ⊢
          exact ⟨Wrap.nl_replicate tab, hnl⟩
        cases hl : Wrap.linesOf add with
        | nil => exact absurd hl (Wrap.linesOf_ne _)
        | cons l ls =>
          rw [Wrap.linesOf_append hn2 hl]
          rw [hl] at g2
          intro m hm
          rcases List.mem_cons.mp hm with rfl | hm
          · obtain ⟨c, hc, hp⟩ := hd1.2
            exact ⟨_, by rw [List.append_assoc], c, by simp [hc], hp⟩
          · exact g2 m hm
      · intro c hc
        rcases List.mem_cons.mp hc with rfl | hc
        · exact Or.inr (Or.inl rfl)
        · rcases List.mem_append.mp hc with h | h
          · rcases List.mem_append.mp h with h | h
            · exact Or.inl (List.eq_of_mem_replicate h)
            · exact memd c h
          · exact mem (x := []) g3 c h

theorem extend_lines {size tab : Nat} (P : Char → Prop) (head : List Char) (hh : '\n' ∉ head) (ds : List (List Char)) (hd : ∀ d ∈ ds, '\n' ∉ d ∧ ∃ c ∈ d, P c) :
    ∃ l ls, Wrap.linesOf ((Wrap.CardLine.new head size tab).extend ds).str = (head ++ ' ' :: l) :: ls
      ∧ (∀ c ∈ l, c = ' ' ∨ ∃ d ∈ ds, c ∈ d)
      ∧ ∀ m ∈ ls, ∃ r, m = List.replicate tab ' ' ++ r ∧ (∃ c ∈ r, P c) ∧ ∀ c ∈ r, c = ' ' ∨ ∃ d ∈ ds, c ∈ d := by
  obtain ⟨add, h1, h2, h3⟩ := extendLoop_lines (size := size) (tab := tab) P ds (head ++ [' ']) [] ((size : Int) - (head.length + 1)) hd
  have e : ((Wrap.CardLine.new head size tab).extend ds).str = (head ++ [' ']) ++ add := by
    simp only [Wrap.CardLine.extend, Wrap.CardLine.new]
    simpa using h1
  have hn : '\n' ∉ head ++ [' '] := by simp [hh]
  have mem : ∀ m ∈ Wrap.linesOf add, ∀ c ∈ m, c = ' ' ∨ ∃ d ∈ ds, c ∈ d := by
    intro m hm c hc
    have hcn : c ≠ '\n' := fun h => Wrap.lines_nl add m hm (h ▸ hc)
    have : c ∈ add ++ ['\n'] := by
      rw [← Wrap.unlines_linesOf]
      unfold Wrap.unlines
      exact List.mem_flatMap.mpr ⟨m, hm, by simp [hc]⟩
    rcases List.mem_append.mp this with h | h
    · rcases h3 c h with h | h | h
      · exact Or.inl h
      · exact absurd h hcn
      · exact Or.inr h
    · exact absurd (List.mem_singleton.mp h) hcn
  cases hl : Wrap.linesOf add with
  | nil => exact absurd hl (Wrap.linesOf_ne _)
  | cons l ls =>
    rw [hl] at h2 mem
    refine ⟨l, ls, by rw [e, Wrap.linesOf_append hn hl]; simp, mem l (by simp), fun m hm => ?_⟩
    obtain ⟨r, hr, hc⟩ := h2 m hm
    refine ⟨r, hr, hc, fun c hcr => mem m (List.mem_cons_of_mem _ hm) c (by rw [hr]; simp [hcr])⟩

end Geouned.McnpFile
