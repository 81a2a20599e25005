import Verif.Text.WrapLemmas
/-! Lemmas for the loop of `wrap_line`, for `CardLine` and for `trim` -/
namespace Geouned.Wrap

/-! ### `wrap_line` -/

theorem exists_break {n : Nat} {s : List Char} (hr : Room n s) {a b : Nat} (hb : b < s.length) (hn : n ≤ b + 1 - a) :
    ∃ j c, a ≤ j ∧ j ≤ b ∧ s[j]? = some c ∧ isBreak c = true := by
  refine Classical.byContradiction fun h => ?_
  have hu : ((s.drop a).take (b + 1 - a)) <:+: s :=
    (List.take_prefix _ _).isInfix.trans (List.drop_suffix _ _).isInfix
  have := hr _ hu (by
    intro c hc
    obtain ⟨i, hi⟩ := List.getElem?_of_mem hc
    rw [List.getElem?_take] at hi
    split at hi
    · rw [List.getElem?_drop] at hi
      have hnb : ¬ isBreak c = true := fun hbr => h ⟨a + i, c, by omega, by omega, hi, hbr⟩
      simp only [isBreak, Bool.or_eq_true, decide_eq_true_eq, not_or] at hnb
      exact ⟨hnb.1.1, hnb.1.2, hnb.2⟩
    · simp at hi)
  rw [List.length_take, List.length_drop] at this
  omega

theorem pyGet_nat {s : List Char} {i : Nat} {c : Char} (h : s[i]? = some c) : pyGet s (i : Int) = .ok c := by
  unfold pyGet
  have h1 : ¬ ((i : Int) < 0) := by omega
  have h2 : ¬ ((i : Int) < -(s.length : Int)) := by omega
  simp only [h1, if_false, Int.toNat_natCast, h, h2]

theorem scanBack_spec {s : List Char} {a : Nat} : ∀ (k b : Nat), b < k → b < s.length →
    (∃ j c, a ≤ j ∧ j ≤ b ∧ s[j]? = some c ∧ isBreak c = true) →
    ∃ (j : Nat) (c : Char), scanBack s k (b : Int) = .ok (j : Int) ∧ a ≤ j ∧ j ≤ b ∧ s[j]? = some c ∧ isBreak c = true
  | 0, b, h, _, _ => by omega
  | k + 1, b, hk, hb, hex => by
    have hg : s[b]? = some s[b] := List.getElem?_eq_getElem hb
    unfold scanBack
    rw [pyGet_nat hg]
    simp only [bind, Except.bind]
    split
    · next hbr =>
      obtain ⟨j, c, h1, h2, -, -⟩ := hex
      exact ⟨b, s[b], rfl, by omega, Nat.le_refl _, hg, hbr⟩
    · next hbr =>
      obtain ⟨j, c, h1, h2, h3, h4⟩ := hex
      have hj : j ≠ b := by
        rintro rfl
        rw [hg] at h3
        cases h3
        exact hbr h4
      cases b with
      | zero => omega
      | succ b =>
        have e : ((b + 1 : Nat) : Int) - 1 = (b : Int) := by omega
        rw [e]
        obtain ⟨j', c', g1, g2, g3, g4, g5⟩ := scanBack_spec k b (by omega) (by omega) ⟨j, c, h1, by omega, h3, h4⟩
        exact ⟨j', c', g1, g2, by omega, g4, g5⟩

theorem pySlice_nat (s : List Char) (a b : Nat) : pySlice s (a : Int) (b : Int) = (s.take b).drop a := by
  unfold pySlice pyBound
  have h1 : ¬ ((a : Int) < 0) := by omega
  have h2 : ¬ ((b : Int) < 0) := by omega
  simp only [h1, h2, if_false, Int.toNat_natCast]

theorem break_sep {c : Char} (h : isBreak c = true) : isSep c = true := by
  simp only [isBreak, Bool.or_eq_true, decide_eq_true_eq] at h
  rcases h with (rfl | rfl) | rfl <;> decide

theorem words_tab (tab : Nat) (t : List Char) : wordsOf ('\n' :: (List.replicate tab ' ' ++ t)) = wordsOf t := by
  unfold wordsOf
  rw [wf_ws _ ws_nl, wf_replicate]; simp

/-- what has been written after a point of the loop -/
structure Tail (size tab : Nat) (s : List Char) (init room : Nat) (rest : List Char) : Prop where
  words : wordsOf rest = wordsOf (s.drop init)
  lines : ∃ l ls, linesOf rest = l :: ls ∧ l.length ≤ room ∧ ∀ m ∈ ls, m.length ≤ size ∧ ∃ r, m = List.replicate tab ' ' ++ r

theorem wrapLoop_spec {size tab n : Nat} {s : List Char} (hnl : '\n' ∉ s) (hr : Room n s) (htab : tab ≤ size) (hn : n ≤ size - tab) :
    ∀ (f init icount : Nat) (newline : List Char), s.length - init < f → icount < s.length → n ≤ icount + 1 - init →
    ∃ rest, wrapLoop size tab s f init icount ((s.length : Int) - init) newline = .ok (newline ++ rest) ∧
      Tail size tab s init (icount + 1 - init) rest := by
  have hn1 : 1 ≤ n := hr [] (List.nil_infix) (by simp)
  intro f
  induction f with
  | zero => intro init icount newline h; omega
  | succ f ih =>
    intro init icount newline hf hic hni
    have hki : icount < ((icount : Int) + s.length + 2).toNat := by omega
    obtain ⟨j, c, h1, h2, h3, h4, h5⟩ := scanBack_spec (a := init) _ icount hki hic (exists_break hr hic hni)
    have hj : j < s.length := (List.getElem?_eq_some_iff.1 h4).1
    have e1 : ((j : Int) + 1) = ((j + 1 : Nat) : Int) := by omega
    have hline : s.drop init = (s.take (j + 1)).drop init ++ s.drop (j + 1) := by
      conv => lhs; rw [← List.take_append_drop (j + 1) s]
      rw [List.drop_append_of_le_length (by rw [List.length_take]; omega)]
    have hlen : ((s.take (j + 1)).drop init).length = j + 1 - init := by
      rw [List.length_drop, List.length_take]; omega
    have hlast : ∀ d, ((s.take (j + 1)).drop init).getLast? = some d → isSep d = true := by
      intro d hd
      rw [List.getLast?_eq_getElem?, hlen, List.getElem?_drop, List.getElem?_take] at hd
      have : init + (j + 1 - init - 1) = j := by omega
      rw [this] at hd
      simp only [show j < j + 1 by omega, if_true] at hd
      rw [h4] at hd
      cases hd
      exact break_sep h5
    have hnlL : '\n' ∉ (s.take (j + 1)).drop init := fun h => hnl (List.mem_of_mem_take (List.mem_of_mem_drop h))
    unfold wrapLoop
    rw [h1]
    simp only [bind, Except.bind]
    rw [e1, pySlice_nat]
    split
    · next h0 =>
      have hend : j + 1 = s.length := by omega
      refine ⟨_, rfl, ?_, ?_⟩
      · rw [hline, words_append _ _ hlast]
        have : s.drop (j + 1) = [] := by rw [hend]; simp
        rw [this]
        simp [wordsOf, wordsFrom]
      · exact ⟨_, [], linesOf_single hnlL, by rw [hlen]; omega, by simp⟩
    · next h0 =>
      split
      · next hlt =>
        have e2 : (j : Int) + ((size : Int) - tab) = ((j + (size - tab) : Nat) : Int) := by omega
        have e3 : (s.length : Int) - init - ((j : Int) - init + 1) = (s.length : Int) - ((j + 1 : Nat) : Int) := by omega
        rw [e2, e3]
        obtain ⟨rest, g1, g2, l, ls, g3, g4, g5⟩ := ih (j + 1) (j + (size - tab))
          (newline ++ List.drop init (List.take (j + 1) s) ++ '\n' :: List.replicate tab ' ') (by omega) (by omega) (by omega)
        rw [g1]
        refine ⟨(s.take (j + 1)).drop init ++ '\n' :: (List.replicate tab ' ' ++ rest), by simp, ?_, ?_⟩
        · rw [hline, words_append _ _ hlast, words_append _ _ hlast, words_tab, g2]
        · refine ⟨_, _, linesOf_nl _ hnlL _, by rw [hlen]; omega, ?_⟩
          rw [linesOf_append (nl_replicate tab) g3]
          intro m hm
          rcases List.mem_cons.1 hm with rfl | hm
          · refine ⟨?_, l, rfl⟩
            rw [List.length_append, List.length_replicate]; omega
          · exact g5 m hm
      · next hge =>
        rw [pySlice_nat]
        refine ⟨(s.take (j + 1)).drop init ++ '\n' :: (List.replicate tab ' ' ++ s.drop (j + 1)), by simp, ?_, ?_⟩
        · rw [hline, words_append _ _ hlast, words_append _ _ hlast, words_tab]
        · refine ⟨_, _, linesOf_nl _ hnlL _, by rw [hlen]; omega, ?_⟩
          rw [linesOf_append (nl_replicate tab) (linesOf_single (a := s.drop (j + 1)) (fun h => hnl (List.mem_of_mem_drop h)))]
          intro m hm
          rcases List.mem_cons.1 hm with rfl | hm
          · refine ⟨?_, _, rfl⟩
            rw [List.length_append, List.length_replicate, List.length_drop]; omega
          · simp at hm

/-! ### `CardLine` -/

/-- what `extend` adds: the words of the data, in order; the line being written goes on to be at most `size` long -/
theorem extendLoop_spec {size tab : Nat} : ∀ (ds : List (List Char)) (str line : List Char) (left : Int) (last : Nat),
    (∀ d ∈ ds, '\n' ∉ d ∧ tab + d.length + 1 ≤ size) →
    '\n' ∉ line → (∀ c, line.getLast? = some c → isSep c = true) →
    (last : Int) + line.length + left = size → last + line.length ≤ size →
    ∃ (str' : List Char) (left' : Int) (line' : List Char), extendLoop size tab ds str left line = (str', left', line') ∧
      ∃ add, str' ++ line' = str ++ (line ++ add) ∧ wordsOf (line ++ add) = wordsOf line ++ ds.flatMap wordsOf ∧
        ∃ l ls, linesOf add = l :: ls ∧ last + line.length + l.length ≤ size ∧ (∀ m ∈ ls, m.length ≤ size ∧ ∃ r, m = List.replicate tab ' ' ++ r)
  | [], str, line, left, last, _, hnl, hsep, hleft, hle =>
    ⟨str, left, line, rfl, [], by simp, by simp, [], [], rfl, by simpa using hle, by simp⟩
  | d :: ds, str, line, left, last, hd, hnl, hsep, hleft, hle => by
    have hd1 := hd d (by simp)
    have hds : ∀ d ∈ ds, '\n' ∉ d ∧ tab + d.length + 1 ≤ size := fun x hx => hd x (by simp [hx])
    have hwd : wordsOf (d ++ [' ']) = wordsOf d := wf_wsTail d [' '] (by simp) []
    have hnl' : '\n' ∉ d ++ [' '] := by
      simp only [List.mem_append, List.mem_singleton, not_or]
      exact ⟨hd1.1, by decide⟩
    have hbl : ∀ (x : List Char) c, (x ++ (d ++ [' '])).getLast? = some c → isSep c = true := by
      intro x c hc
      rw [← List.append_assoc] at hc
      simp only [List.getLast?_append, List.getLast?_singleton, Option.some_or, Option.some.injEq] at hc
      rw [← hc]; decide
    unfold extendLoop
    dsimp only
    split
    · next h =>
      rw [List.length_append, List.length_singleton] at h
      obtain ⟨str', left', line', g1, add, g2, g3, l, ls, g4, g5, g6⟩ := extendLoop_spec ds str (line ++ (d ++ [' '])) (left - (d ++ [' ']).length) last hds
        (by simp only [List.mem_append, not_or] at hnl' ⊢; exact ⟨hnl, hnl'⟩) (hbl line)
        (by simp only [List.length_append, List.length_singleton]; omega)
        (by simp only [List.length_append, List.length_singleton]; omega)
      simp only [List.length_append, List.length_singleton] at g5
      refine ⟨str', left', line', g1, d ++ [' '] ++ add, by rw [g2]; simp, ?_, (d ++ [' ']) ++ l, ls, linesOf_append hnl' g4, ?_, g6⟩
      · rw [← List.append_assoc line, g3, words_append _ _ hsep, hwd]
        simp
      · simp only [List.length_append, List.length_singleton]; omega
    · next h =>
      obtain ⟨str', left', line', g1, add, g2, g3, l, ls, g4, g5, g6⟩ := extendLoop_spec ds (str ++ line ++ ['\n']) (List.replicate tab ' ' ++ (d ++ [' ']))
        ((size : Int) - (List.replicate tab ' ' ++ (d ++ [' '])).length) 0 hds
        (by
          simp only [List.mem_append, not_or] at hnl' ⊢
          exact ⟨nl_replicate tab, hnl'⟩) (hbl _) (by omega)
        (by simp only [List.length_append, List.length_replicate, List.length_singleton]; omega)
      refine ⟨str', left', line', g1, '\n' :: (List.replicate tab ' ' ++ (d ++ [' ']) ++ add), by rw [g2]; simp, ?_, [], _, linesOf_nl [] (by simp) _, by simpa using hle, ?_⟩
      · rw [words_append _ _ hsep]
        congr 1
        have e : wordsOf ('\n' :: (List.replicate tab ' ' ++ (d ++ [' ']) ++ add)) = wordsOf (List.replicate tab ' ' ++ (d ++ [' ']) ++ add) := by
          unfold wordsOf; rw [wf_ws _ ws_nl]; simp
        rw [e, g3]
        have : wordsOf (List.replicate tab ' ' ++ (d ++ [' '])) = wordsOf d := by
          rw [← hwd]; exact wf_replicate tab _
        rw [this]; simp
      · have hn2 : '\n' ∉ List.replicate tab ' ' ++ (d ++ [' ']) := by
          simp only [List.mem_append, not_or] at hnl' ⊢
          exact ⟨nl_replicate tab, hnl'⟩
        rw [linesOf_append hn2 g4]
        intro m hm
        rcases List.mem_cons.1 hm with rfl | hm
        · refine ⟨?_, _, by rw [List.append_assoc]⟩
          rw [List.length_append]; omega
        · exact g6 m hm

/-! ### `trim` -/

/-- the last blank -/
theorem rfindBlank_spec {a b : List Char} (hb : ' ' ∉ b) : rfindBlank (a ++ ' ' :: b) = a.length := by
  unfold rfindBlank
  have h : (a ++ ' ' :: b).reverse.findIdx? (· = ' ') = some b.length := by
    rw [List.reverse_append, List.reverse_cons, List.append_assoc, List.findIdx?_append]
    have h1 : b.reverse.findIdx? (· = ' ') = none := by
      rw [List.findIdx?_eq_none_iff]
      intro x hx
      simp only [decide_eq_false_iff_not]
      rintro rfl
      exact hb (List.mem_reverse.1 hx)
    rw [h1]
    simp [List.findIdx?_cons]
  rw [h]
  simp only [List.length_append, List.length_cons]
  omega

theorem cutLine_ok {size : Nat} {a b : List Char} (hb : ' ' ∉ b) (ha : a.length ≤ size) (h : strip b ≠ []) :
    cutLine size (a ++ ' ' :: b) = .ok (a ++ '\n' :: List.replicate 10 ' ' ++ b) := by
  unfold cutLine
  dsimp only
  rw [rfindBlank_spec hb]
  have h1 : ((a.length : Nat) : Int) ≤ (size : Int) := by omega
  have e : ((a.length : Nat) : Int) + 1 = ((a.length + 1 : Nat) : Int) := by omega
  rw [if_pos h1, e, pySlice_nat]
  have e0 : pySlice (a ++ ' ' :: b) 0 (a.length : Int) = a := by
    have := pySlice_nat (a ++ ' ' :: b) 0 a.length
    simp only [Int.natCast_zero] at this
    rw [this]; simp
  have e1 : ((a ++ ' ' :: b).take (a ++ ' ' :: b).length).drop (a.length + 1) = b := by
    rw [List.take_length, List.drop_append]
    simp
  rw [e0, e1, if_neg h]


/-- the lines put together again -/
def unlines (ls : List (List Char)) : List Char := ls.flatMap (· ++ ['\n'])

theorem unlines_lines : ∀ ls : List (List Char), ls ≠ [] → (∀ l ∈ ls, '\n' ∉ l) →
    linesOf (unlines ls).dropLast = ls ∧ wordsOf (unlines ls).dropLast = ls.flatMap wordsOf
  | [], h, _ => absurd rfl h
  | [l], _, h => by
    have h := h l (by simp)
    have e : (unlines [l]).dropLast = l := by simp [unlines]
    rw [e]
    exact ⟨linesOf_single h, by simp⟩
  | l :: l' :: ls, _, h => by
    obtain ⟨h1, h2⟩ := unlines_lines (l' :: ls) (by simp) (fun x hx => h x (.tail _ hx))
    have h := h l (by simp)
    have e : (unlines (l :: l' :: ls)).dropLast = l ++ '\n' :: (unlines (l' :: ls)).dropLast := by
      have hne : unlines (l' :: ls) ≠ [] := by simp [unlines]
      have : unlines (l :: l' :: ls) = (l ++ ['\n']) ++ unlines (l' :: ls) := by simp [unlines]
      rw [this, List.dropLast_append_of_ne_nil hne]
      simp
    rw [e]
    refine ⟨by rw [linesOf_nl l h, h1], ?_⟩
    have e2 : l ++ '\n' :: (unlines (l' :: ls)).dropLast = (l ++ ['\n']) ++ (unlines (l' :: ls)).dropLast := by simp
    rw [e2, words_append _ _ (by
      intro c hc
      simp only [List.getLast?_append, List.getLast?_singleton, Option.some_or, Option.some.injEq] at hc
      rw [← hc]; decide), h2]
    have : wordsOf (l ++ ['\n']) = wordsOf l := wf_wsTail l ['\n'] (by simp) []
    rw [this]; simp

theorem lines_nl : ∀ s : List Char, ∀ l ∈ linesOf s, '\n' ∉ l
  | [], l, h => by simp [linesOf] at h; simp [h]
  | c :: s, l, h => by
    have ih := lines_nl s
    unfold linesOf at h
    split at h
    · rcases List.mem_cons.1 h with rfl | h
      · simp
      · exact ih l h
    · next hc =>
      split at h
      · simp at h; subst h; simp; exact fun h => hc h.symm
      · next l0 ls0 he =>
        rcases List.mem_cons.1 h with rfl | h
        · have := ih l0 (by rw [he]; simp)
          simp only [List.mem_cons, not_or]
          exact ⟨fun h => hc h.symm, this⟩
        · exact ih l (by rw [he]; simp [h])

theorem unlines_linesOf : ∀ s : List Char, unlines (linesOf s) = s ++ ['\n']
  | [] => rfl
  | c :: s => by
    have ih := unlines_linesOf s
    unfold linesOf
    split
    · next h => subst h; simp only [unlines, List.flatMap_cons] at ih ⊢; rw [ih]; simp
    · split
      · next h => exact absurd h (linesOf_ne s)
      · next l ls h =>
        rw [h] at ih
        simp only [unlines, List.flatMap_cons, List.append_assoc] at ih ⊢
        show c :: (l ++ (['\n'] ++ List.flatMap (fun x => x ++ ['\n']) ls)) = _
        rw [ih]; rfl

theorem words_lines (s : List Char) : wordsOf s = (linesOf s).flatMap wordsOf := by
  have h := (unlines_lines (linesOf s) (linesOf_ne s) (lines_nl s)).2
  rw [unlines_linesOf, List.dropLast_concat] at h
  exact h

/-- a long line that `cut_line` can cut -/
def Cuttable (size : Nat) (l : List Char) : Prop :=
  ∃ a b, l = a ++ ' ' :: b ∧ ' ' ∉ b ∧ a.length ≤ size ∧ 10 + b.length ≤ size ∧ strip b ≠ []

theorem trimOne_ok {size : Nat} {l : List Char} (hnl : '\n' ∉ l) (h : size < l.length → Cuttable size l) :
    ∃ outs, trimOne size l = .ok ((unlines outs).dropLast) ∧ outs ≠ [] ∧ (∀ m ∈ outs, '\n' ∉ m ∧ m.length ≤ size) ∧ outs.flatMap wordsOf = wordsOf l := by
  unfold trimOne
  split
  · next hl =>
    obtain ⟨a, b, rfl, h1, h2, h3, h4⟩ := h hl
    simp only [List.mem_append, List.mem_cons, not_or] at hnl
    refine ⟨[a, List.replicate 10 ' ' ++ b], ?_, by simp, ?_, ?_⟩
    · rw [cutLine_ok h1 h2 h4]
      congr 1
      have : unlines [a, List.replicate 10 ' ' ++ b] = (a ++ '\n' :: List.replicate 10 ' ' ++ b) ++ ['\n'] := by simp [unlines]
      rw [this, List.dropLast_concat]
    · intro m hm
      simp only [List.mem_cons, List.not_mem_nil, or_false] at hm
      rcases hm with rfl | rfl
      · exact ⟨hnl.1, h2⟩
      · refine ⟨?_, by rw [List.length_append, List.length_replicate]; exact h3⟩
        rw [List.mem_append, not_or]
        exact ⟨nl_replicate 10, hnl.2.2⟩
    · have e : a ++ ' ' :: b = (a ++ [' ']) ++ b := by simp
      rw [e, words_append _ _ (by
        intro c hc
        simp only [List.getLast?_append, List.getLast?_singleton, Option.some_or, Option.some.injEq] at hc
        rw [← hc]; decide)]
      have e1 : wordsOf (a ++ [' ']) = wordsOf a := wf_wsTail a [' '] (by simp) []
      have e2 : wordsOf (List.replicate 10 ' ' ++ b) = wordsOf b := wf_replicate 10 b
      rw [e1]
      simp only [List.flatMap_cons, List.flatMap_nil, e2, List.append_nil]
  · next hl =>
    exact ⟨[l], by simp [unlines], by simp, by simp; exact ⟨hnl, by omega⟩, by simp⟩

theorem trimLoop_ok {size : Nat} : ∀ ls : List (List Char), (∀ l ∈ ls, '\n' ∉ l ∧ (size < l.length → Cuttable size l)) →
    ∃ outs, trimLoop size ls = .ok (unlines outs) ∧ (ls ≠ [] → outs ≠ []) ∧ (∀ m ∈ outs, '\n' ∉ m ∧ m.length ≤ size) ∧
      outs.flatMap wordsOf = ls.flatMap wordsOf
  | [], _ => ⟨[], rfl, fun h => absurd rfl h, by simp, rfl⟩
  | l :: ls, h => by
    obtain ⟨o1, h1, h2, h3, h4⟩ := trimOne_ok (h l (by simp)).1 (h l (by simp)).2
    obtain ⟨o2, g1, -, g3, g4⟩ := trimLoop_ok ls (fun x hx => h x (by simp [hx]))
    refine ⟨o1 ++ o2, ?_, by simp [h2], ?_, by simp [h4, g4]⟩
    · simp only [trimLoop, h1, g1, bind, Except.bind]
      congr 1
      have hne : unlines o1 ≠ [] := by cases o1 with | nil => exact absurd rfl h2 | cons x o1 => simp [unlines]
      have hlast : unlines o1 = (unlines o1).dropLast ++ ['\n'] := by
        have : (unlines o1).getLast hne = '\n' := by
          have hx : o1 = o1.dropLast ++ [o1.getLast h2] := (List.dropLast_concat_getLast h2).symm
          have : unlines o1 = unlines o1.dropLast ++ (o1.getLast h2 ++ ['\n']) := by
            conv => lhs; rw [hx]
            simp [unlines]
          simp only [this, ← List.append_assoc, List.getLast_concat]
        conv => lhs; rw [← List.dropLast_concat_getLast hne, this]
      have : unlines (o1 ++ o2) = unlines o1 ++ unlines o2 := by simp [unlines]
      rw [this]
      conv => rhs; rw [hlast]
      simp
    · intro m hm
      rcases List.mem_append.1 hm with hm | hm
      · exact h3 m hm
      · exact g3 m hm

end Geouned.Wrap
