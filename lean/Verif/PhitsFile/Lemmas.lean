import Verif.PhitsFile.Good
import Verif.McnpFile.SurfLemmas
/-!
# Lemmas for C109: sections and cards, heads of cells, options, comments
-/
namespace Geouned.PhitsFile

open Geouned.McnpFile
open Geouned.Card (fileText)

/-! ## sections -/

/-- the lines that carry something, without their comments -/
def body (ls : List (List Char)) : List (List Char) := (ls.map content).filter inked

/-- a line that does not begin a section -/
def NoTitle (t : List Char) : Prop := '\n' ∉ t ∧ (content t).head? ≠ some '['

theorem body_append (a b : List (List Char)) : body (a ++ b) = body a ++ body b := by simp [body]

theorem body_cons (t : List Char) (b : List (List Char)) : body (t :: b) = body [t] ++ body b := body_append [t] b

theorem split_cons (t : List Char) (ts : List (List Char)) : split (t :: ts) = if inked (content t) = false then split ts
    else if (content t).head? = some '[' then ([], (content t, (split ts).1) :: (split ts).2)
    else (content t :: (split ts).1, (split ts).2) := rfl

theorem cards_cons (t : List Char) (ts : List (List Char)) : cards (t :: ts) = if five t then (Wrap.wordsOf t ++ (cards ts).1, (cards ts).2)
    else ([], (Wrap.wordsOf t ++ (cards ts).1) :: (cards ts).2) := rfl

theorem split_body (a b : List (List Char)) (h : ∀ t ∈ a, NoTitle t) : split (a ++ b) = (body a ++ (split b).1, (split b).2) := by
  induction a with
  | nil => rfl
  | cons t a ih =>
    have ih := ih (fun u hu => h u (List.mem_cons_of_mem _ hu))
    have ht := h t (by simp)
    rw [List.cons_append, split_cons]
    by_cases hi : inked (content t) = false
    · rw [if_pos hi, ih]
      simp [body, hi]
    · rw [if_neg hi, if_neg ht.2, ih]
      have : inked (content t) = true := by simpa using hi
      simp [body, this]

theorem split_title {t : List Char} (h1 : content t = t) (h2 : inked t = true) (h3 : t.head? = some '[') (b : List (List Char)) :
    split (t :: b) = ([], (t, (split b).1) :: (split b).2) := by
  rw [split_cons, h1, if_neg (by simp [h2]), if_pos h3]

/-- a line without content -/
def Silent (t : List Char) : Prop := '\n' ∉ t ∧ inked (content t) = false

theorem Silent.noTitle {t : List Char} (h : Silent t) : NoTitle t := by
  refine ⟨h.1, fun h' => ?_⟩
  have h := h.2
  unfold inked at h
  rw [List.any_eq_false] at h
  exact h '[' (List.mem_of_mem_head? h') (by decide)

theorem body_silent {ls : List (List Char)} (h : ∀ t ∈ ls, Silent t) : body ls = [] := by
  unfold body
  rw [List.filter_eq_nil_iff]
  intro t ht
  obtain ⟨u, hu, rfl⟩ := List.mem_map.mp ht
  rw [(h u hu).2]
  decide

theorem silent_dollar {r : List Char} (h : '\n' ∉ r) : Silent ('$' :: r) := ⟨by simp [h], rfl⟩

theorem silent_blanks (n : Nat) {r : List Char} (hr : '\n' ∉ r) : Silent (List.replicate n ' ' ++ '$' :: r) := by
  have : content (List.replicate n ' ' ++ '$' :: r) = List.replicate n ' ' := by
    unfold content
    rw [List.takeWhile_append_of_pos (by
      intro c hc
      rw [List.eq_of_mem_replicate hc]
      decide)]
    simp
  refine ⟨by simp [hr, List.mem_replicate], ?_⟩
  unfold inked
  rw [this, List.any_eq_false]
  intro c hc
  rw [List.eq_of_mem_replicate hc]
  decide

theorem silent_nil : Silent [] := ⟨by simp, rfl⟩

theorem tidy_content {t : List Char} (h : Tidy t) : content t = t := by
  unfold content
  rw [List.takeWhile_eq_self_iff]
  intro c hc
  have h1 := simple_ne (d := '$') (h c hc) (by decide)
  simp [h1]

theorem tidy_noTitle {t : List Char} (h : Tidy t) : NoTitle t := by
  refine ⟨h.nl, ?_⟩
  rw [tidy_content h]
  intro h'
  exact absurd (h _ (List.mem_of_mem_head? h')) (by decide)

theorem body_tidy {ls : List (List Char)} (h : ∀ t ∈ ls, Tidy t ∧ inked t = true) : body ls = ls := by
  unfold body
  have : ls.map content = ls := by
    conv_rhs => rw [← List.map_id ls]
    exact List.map_congr_left fun t ht => tidy_content (h t ht).1
  rw [this, List.filter_eq_self]
  exact fun t ht => (h t ht).2

theorem cont_inked {t : List Char} (h : Cont t) : inked t = true := by
  obtain ⟨c, hc, hc', _⟩ := h.filled
  exact List.any_eq_true.mpr ⟨c, hc, by simpa using hc'⟩

theorem cont_five {t : List Char} (h : Cont t) : five t = true := by
  obtain ⟨r, rfl⟩ := h.blanks
  rfl

theorem first_inked {t : List Char} (h : First t) : inked t = true := by
  obtain ⟨x, r, rfl, h0, _⟩ := h.start
  exact List.any_eq_true.mpr ⟨x, by simp, by simpa using h0⟩

theorem first_five {t : List Char} (h : First t) : five t = false := by
  obtain ⟨x, r, rfl, h0, _⟩ := h.start
  simp only [five, decide_eq_false_iff_not]
  intro h1
  rw [List.take_succ_cons] at h1
  exact h0 (List.cons.inj h1).1

/-! ## cards -/

theorem cards_append (a b : List (List Char)) (h : (cards b).1 = []) : cards (a ++ b) = ((cards a).1, (cards a).2 ++ (cards b).2) := by
  induction a with
  | nil => rw [List.nil_append]; exact Prod.ext h rfl
  | cons t a ih =>
    rw [List.cons_append, cards_cons, cards_cons, ih]
    split <;> rfl

theorem cards_cont (a : List (List Char)) (h : ∀ t ∈ a, five t = true) : cards a = (a.flatMap Wrap.wordsOf, []) := by
  induction a with
  | nil => rfl
  | cons t a ih =>
    rw [cards_cons, if_pos (h t (by simp)), ih (fun u hu => h u (List.mem_cons_of_mem _ hu))]
    rfl

theorem cards_card {first : List Char} {rest : List (List Char)} (h1 : five first = false) (h2 : ∀ t ∈ rest, five t = true) :
    cards (first :: rest) = ([], [(first :: rest).flatMap Wrap.wordsOf]) := by
  rw [cards_cons, if_neg (by simp [h1]), cards_cont rest h2]
  rfl

/-! ## heads -/

theorem head_of {label : Int} (hl : label.natAbs < 10 ^ 8) (m : Int) (hm : m.natAbs < 10 ^ 8) {t : List Char} (ht : Tidy t) (htl : t.length ≤ 17) :
    ∃ r, padRight 5 (Text.strInt label) ++ ' ' :: padRight 5 (Text.strInt m) ++ ' ' :: t ++ [' '] = Text.strInt label ++ r ++ [' '] ∧ Tidy r
      ∧ (Text.strInt label ++ r ++ [' ']).length ≤ 38
      ∧ Wrap.wordsOf (Text.strInt label ++ r ++ [' ']) = Text.strInt label :: Text.strInt m :: Wrap.wordsOf t := by
  have hl' := Text.strInt_length (d := 8) (by omega) hl
  have hm' := Text.strInt_length (d := 8) (by omega) hm
  have hpl := pad_length (n := 5) hl' (by omega)
  have hpm := pad_length (n := 5) hm' (by omega)
  refine ⟨List.replicate (5 - (Text.strInt label).length) ' ' ++ ' ' :: (padRight 5 (Text.strInt m) ++ ' ' :: t), ?_, ?_, ?_, ?_⟩
  · simp [padRight]
  · exact (tidy_blanks _).append (.cons (by decide) ((tidy_pad (tidy_int _) 5).append (.cons (by decide) ht)))
  · unfold padRight at hpl hpm ⊢
    simp only [List.length_append, List.length_replicate, List.length_cons, List.length_nil] at hpl hpm ⊢
    omega
  · have e : Text.strInt label ++ (List.replicate (5 - (Text.strInt label).length) ' ' ++ ' ' :: (padRight 5 (Text.strInt m) ++ ' ' :: t)) ++ [' ']
        = padRight 5 (Text.strInt label) ++ ' ' :: (padRight 5 (Text.strInt m) ++ ' ' :: (t ++ ' ' :: [])) := by simp [padRight]
    rw [e, words_blank_mid, words_pad, words_int1, words_blank_mid, words_pad, words_int1, words_blank_mid]
    simp [Wrap.wordsOf, Wrap.wordsFrom]

/-- the beginning of a card: number, material, density -/
def HeadOk (label : Int) (mat : List Char) (den : List (List Char)) (h : List Char) : Prop :=
  ∃ r, h = Text.strInt label ++ r ++ [' '] ∧ Tidy r ∧ h.length ≤ 38 ∧ Wrap.wordsOf h = Text.strInt label :: mat :: den

theorem plainHead_ok {label : Int} (hl : label.natAbs < 10 ^ 8) (m : Int) (hm : m.natAbs < 10 ^ 8) : HeadOk label (Text.strInt m) [] (plainHead label m) := by
  obtain ⟨r, h1, h2, h3, h4⟩ := head_of hl m hm (t := []) tidy_nil (by simp)
  refine ⟨r, ?_, h2, ?_, ?_⟩
  · rw [← h1]; simp [plainHead, T]
  · have : plainHead label m = Text.strInt label ++ r ++ [' '] := by rw [← h1]; simp [plainHead, T]
    rw [this]; exact h3
  · have : plainHead label m = Text.strInt label ++ r ++ [' '] := by rw [← h1]; simp [plainHead, T]
    rw [this]; exact h4

theorem denseHead_ok {f : Fmt} (hf : Formats f) {label : Int} (hl : label.natAbs < 10 ^ 8) (m : Int) (hm : m.natAbs < 10 ^ 8) {d : ℚ} (hd : ShortDensity f d) :
    ∃ den, Density f d den ∧ HeadOk label (Text.strInt m) den (denseHead f label m d) := by
  obtain ⟨t, ht, htl, htn, htw⟩ : ∃ t, (if |d| < 1 / 100 then f.e4 d else f.f7 d) = t ∧ t.length ≤ 17 ∧ NumText t ∧ Density f d (Wrap.wordsOf t) := by
    by_cases h : |d| < 1 / 100
    · rw [if_pos h]; exact ⟨_, rfl, hd.1, hf.e4 d, Or.inl ⟨h, rfl⟩⟩
    · rw [if_neg h]; exact ⟨_, rfl, hd.2, hf.f7 d, Or.inr ⟨not_lt.mp h, rfl⟩⟩
  obtain ⟨r, h1, h2, h3, h4⟩ := head_of hl m hm htn.tidy htl
  have e : denseHead f label m d = Text.strInt label ++ r ++ [' '] := by
    unfold denseHead
    rw [ht, ← h1]
  exact ⟨_, htw, r, e, h2, by rw [e]; exact h3, by rw [e]; exact h4⟩

theorem constHead_ok {label : Int} (hl : label.natAbs < 10 ^ 8) (m : Int) (hm : m.natAbs < 10 ^ 8) :
    HeadOk label (Text.strInt m) ['c' :: Text.strInt m] (constHead label m) := by
  have hm' := Text.strInt_length (d := 8) (by omega) hm
  have hpm := pad_length (n := 5) hm' (by omega)
  obtain ⟨r, h1, h2, h3, h4⟩ := head_of hl m hm (t := 'c' :: padRight 5 (Text.strInt m)) (.cons (by decide) (tidy_pad (tidy_int _) 5)) (by
    simp only [List.length_cons]; omega)
  have e : constHead label m = Text.strInt label ++ r ++ [' '] := by
    unfold constHead
    rw [← h1]
    try simp
  refine ⟨r, e, h2, by rw [e]; exact h3, ?_⟩
  rw [e, h4]
  have : 'c' :: padRight 5 (Text.strInt m) = ('c' :: Text.strInt m) ++ List.replicate (5 - (Text.strInt m).length) ' ' := by simp [padRight]
  rw [this, words_blank_end]
  have := words_token (w := 'c' :: Text.strInt m) (by simp) (by
    intro c hc
    rcases List.mem_cons.mp hc with rfl | hc
    · decide
    · exact Text.strInt_sep m c hc) [] (by simp)
  rw [List.append_nil] at this
  rw [this]
  rfl

/-! ## options and comments -/

theorem option_lines {f : Fmt} (hf : Formats f) (i : Input) (c : Cell) :
    ∃ ls us u, optionFormat f i c = fileText (ls ++ us) ∧ (∀ t ∈ ls, Silent t) ∧ (∀ t ∈ us, Cont t ∧ Tidy t) ∧ us.flatMap Wrap.wordsOf = u ∧ UniverseWords i u := by
  obtain ⟨ls, h1, h2⟩ : ∃ ls, (if i.volCARD then
      if c.void then '$' :: tab11 ++ T "Vol=1.0 cm3\n" else '$' :: tab11 ++ T "Vol=" ++ f.e (c.volume * (1 / 1000)) ++ T " cm3\n"
     else []) = fileText ls ∧ ∀ t ∈ ls, Silent t := by
    cases i.volCARD with
    | false => exact ⟨[], rfl, fun t h => by cases h⟩
    | true =>
      cases c.void with
      | true =>
        refine ⟨['$' :: tab11 ++ T "Vol=1.0 cm3"], rfl, fun t h => ?_⟩
        rw [List.mem_singleton] at h
        rw [h]
        exact silent_dollar (by decide)
      | false =>
        refine ⟨['$' :: (tab11 ++ T "Vol=" ++ f.e (c.volume * (1 / 1000)) ++ T " cm3")], ?_, fun t h => ?_⟩
        · simp [fileText, T]
        · rw [List.mem_singleton] at h
          rw [h]
          refine silent_dollar ?_
          have he : '\n' ∉ f.e (c.volume * (1 / 1000)) := fun hn => by
            rcases (hf.e _).2 _ hn with h | h
            · exact absurd h (by decide)
            · exact absurd h (by decide)
          simp only [List.mem_append, not_or]
          exact ⟨⟨⟨by decide, by decide⟩, he⟩, by decide⟩
  unfold optionFormat
  rw [h1]
  cases hu : i.uni with
  | none => exact ⟨ls, [], [], by simp, h2, fun t h => (by cases h), rfl, by unfold UniverseWords; rw [hu]⟩
  | some u =>
    have ht : Tidy (tab11 ++ T "U=" ++ Text.strInt u) := .append (by decide) (tidy_int u)
    refine ⟨ls, [tab11 ++ T "U=" ++ Text.strInt u], ["U=".toList ++ Text.strInt u], ?_, h2, fun t h => ?_, ?_, ?_⟩
    · rw [fileText_append]
      simp [fileText]
    · rw [List.mem_singleton] at h
      subst h
      exact ⟨tidy_cont ht ⟨_, rfl⟩ ⟨'U', by simp [T], by decide⟩, ht⟩
    · rw [List.flatMap_singleton]
      have e : tab11 ++ T "U=" ++ Text.strInt u = List.replicate 11 ' ' ++ ((T "U=" ++ Text.strInt u) ++ []) := by simp [tab11]
      rw [e, words_spaces, words_token (w := T "U=" ++ Text.strInt u) (by simp [T]) (nosep_append (by decide) (Text.strInt_sep u)) [] (by simp)]
      rfl
    · unfold UniverseWords
      rw [hu]
      exact ⟨_, isNum_int u, rfl⟩

theorem dollar_silent (s : List Char) : ∃ ls, dollarLines s = fileText ls ∧ ∀ t ∈ ls, Silent t := by
  refine ⟨((Wrap.linesOf s).filter (fun x => x ≠ [])).map (fun x => tab11 ++ '$' :: x), ?_, ?_⟩
  · simp [dollarLines, fileText, List.flatMap_map]
  · intro t ht
    obtain ⟨x, hx, rfl⟩ := List.mem_map.mp ht
    exact silent_blanks 11 (fun h => (mem_linesOf (List.mem_filter.mp hx).1 h).2 rfl)

theorem comment_silent (c : Cell) : ∃ ls, commentFormat c = fileText ls ∧ ∀ t ∈ ls, Silent t := by
  obtain ⟨l2, h2, h2'⟩ : ∃ ls, (if Wrap.strip c.comments = [] then [] else dollarLines (Wrap.strip c.comments)) = fileText ls ∧ ∀ t ∈ ls, Silent t := by
    split
    · exact ⟨[], rfl, fun t h => by cases h⟩
    · exact dollar_silent _
  unfold commentFormat McnpFile.commentFormat
  rw [h2]
  cases c.matInfo with
  | none => exact ⟨l2, rfl, h2'⟩
  | some m =>
    dsimp only
    split
    · exact ⟨l2, rfl, h2'⟩
    · obtain ⟨l1, h1, h1'⟩ := dollar_silent m
      exact ⟨l1 ++ l2, by rw [fileText_append, h1], fun t ht => (List.mem_append.mp ht).elim (h1' t) (h2' t)⟩

theorem commentLine_silent (s : List Char) : ∃ ls, commentLine s = fileText ls ∧ ∀ t ∈ ls, Silent t := by
  refine ⟨T "$ " :: (((Wrap.linesOf (Wrap.strip s)).filter (fun c => c ≠ [])).map (fun c => T "$ " ++ c) ++ [T "$ "]), ?_, ?_⟩
  · unfold commentLine
    simp [fileText, List.flatMap_map, T]
  · intro t ht
    rcases List.mem_cons.mp ht with rfl | ht
    · exact silent_dollar (by decide)
    rcases List.mem_append.mp ht with ht | ht
    · obtain ⟨x, hx, rfl⟩ := List.mem_map.mp ht
      refine silent_dollar (r := ' ' :: x) ?_
      simp only [List.mem_cons, not_or]
      exact ⟨by decide, fun h => (mem_linesOf (List.mem_filter.mp hx).1 h).2 rfl⟩
    · rw [List.mem_singleton] at ht
      rw [ht]
      exact silent_dollar (by decide)

end Geouned.PhitsFile
