import Verif.PhitsFile.Lemmas
/-!
# Lemmas for C109 and C110: cards of cells
-/
namespace Geouned.PhitsFile

open Geouned.McnpFile
open Geouned.Card (fileText)

/-- a line without comment that begins no section -/
def Clean (t : List Char) : Prop := ∀ c ∈ t, c ≠ '$' ∧ c ≠ '[' ∧ c ≠ '\n'

theorem Clean.content {t : List Char} (h : Clean t) : content t = t := by
  unfold PhitsFile.content
  rw [List.takeWhile_eq_self_iff]
  intro c hc
  simpa using (h c hc).1

theorem Clean.noTitle {t : List Char} (h : Clean t) : NoTitle t := by
  refine ⟨fun h' => (h _ h').2.2 rfl, ?_⟩
  rw [h.content]
  intro h'
  exact (h _ (List.mem_of_mem_head? h')).2.1 rfl

theorem tidy_clean {t : List Char} (h : Tidy t) : Clean t := fun c hc =>
  ⟨simple_ne (h c hc) (by decide), simple_ne (h c hc) (by decide), simple_ne (h c hc) (by decide)⟩

theorem body_clean {ls : List (List Char)} (h : ∀ t ∈ ls, Clean t ∧ inked t = true) : body ls = ls := by
  unfold body
  have : ls.map content = ls := by
    conv_rhs => rw [← List.map_id ls]
    exact List.map_congr_left fun t ht => (h t ht).1.content
  rw [this, List.filter_eq_self]
  exact fun t ht => (h t ht).2

theorem headed {label : Int} {r d0 : List Char} : inked (Text.strInt label ++ r ++ [' '] ++ d0) = true ∧ five (Text.strInt label ++ r ++ [' '] ++ d0) = false := by
  obtain ⟨h1, h2⟩ := Text.strInt_word label
  obtain ⟨x, t, he⟩ := List.exists_cons_of_ne_nil h1
  have hx := h2 x (by rw [he]; simp)
  have hx' : x ≠ ' ' := Text.digit_ne hx (by decide) (by decide)
  rw [he]
  refine ⟨List.any_eq_true.mpr ⟨x, by simp, by simpa using hx'⟩, ?_⟩
  simp only [five, List.cons_append, List.take_succ_cons]
  refine decide_eq_false fun h => ?_
  exact hx' (List.cons.inj h).1

/-- header, region, options and comments make a card -/
theorem card_text {f : Fmt} (hf : Formats f) (i : Input) (c : Cell) {label : Int} {mat : List Char} {den : List (List Char)} {h : List Char} (hh : HeadOk label mat den h)
    {out : List Char} {d0 : List Char} {ds : List (List Char)} (hl : Wrap.linesOf out = d0 :: ds) (h0 : Clean d0)
    (hds : ∀ t ∈ ds, Clean t ∧ five t = true ∧ inked t = true) {tl : List (List Char)} (htl : ∀ t ∈ tl, Silent t) :
    ∃ ls u, h ++ out ++ '\n' :: optionFormat f i c ++ fileText tl = fileText ls ∧ (∀ t ∈ ls, NoTitle t) ∧ UniverseWords i u
      ∧ cards (body ls) = ([], [Text.strInt label :: mat :: (den ++ (Wrap.wordsOf out ++ u))]) := by
  obtain ⟨r, rfl, hr, hlen, hw⟩ := hh
  obtain ⟨os, us, u, ho, hos, hus, huw, hu⟩ := option_lines hf i c
  have hhead : '\n' ∉ Text.strInt label ++ r ++ [' '] := ((tidy_int _).append hr |>.append (by decide : Tidy [' '])).nl
  have hlines := Wrap.linesOf_append hhead hl
  have hfc : Clean (Text.strInt label ++ r ++ [' '] ++ d0) := by
    intro x hx
    rcases List.mem_append.mp hx with hx | hx
    · exact tidy_clean ((tidy_int _).append hr |>.append (by decide : Tidy [' '])) x hx
    · exact h0 x hx
  refine ⟨(Text.strInt label ++ r ++ [' '] ++ d0) :: (ds ++ ((os ++ us) ++ tl)), u, ?_, ?_, hu, ?_⟩
  · have e : fileText ((Text.strInt label ++ r ++ [' '] ++ d0) :: ds) = Text.strInt label ++ r ++ [' '] ++ out ++ ['\n'] := by
      rw [← hlines, fileText_lines]
    rw [show ((Text.strInt label ++ r ++ [' '] ++ d0) :: (ds ++ ((os ++ us) ++ tl))) = ((Text.strInt label ++ r ++ [' '] ++ d0) :: ds) ++ ((os ++ us) ++ tl) from rfl,
      fileText_append, e, fileText_append _ tl, ho]
    simp
  · intro t ht
    rcases List.mem_cons.mp ht with rfl | ht
    · exact hfc.noTitle
    rcases List.mem_append.mp ht with ht | ht
    · exact (hds t ht).1.noTitle
    rcases List.mem_append.mp ht with ht | ht
    · rcases List.mem_append.mp ht with ht | ht
      · exact (hos t ht).noTitle
      · exact tidy_noTitle (hus t ht).2
    · exact (htl t ht).noTitle
  · have eb : body ((Text.strInt label ++ r ++ [' '] ++ d0) :: (ds ++ ((os ++ us) ++ tl))) = (Text.strInt label ++ r ++ [' '] ++ d0) :: (ds ++ us) := by
      rw [show ((Text.strInt label ++ r ++ [' '] ++ d0) :: (ds ++ ((os ++ us) ++ tl))) = ((Text.strInt label ++ r ++ [' '] ++ d0) :: ds) ++ ((os ++ us) ++ tl) from rfl,
        body_append, body_append, body_append, body_silent hos, body_silent htl, body_clean (ls := _ :: ds), body_clean (ls := us)]
      · simp
      · exact fun t ht => ⟨tidy_clean (hus t ht).2, cont_inked (hus t ht).1⟩
      · intro t ht
        rcases List.mem_cons.mp ht with rfl | ht
        · exact ⟨hfc, headed.1⟩
        · exact ⟨(hds t ht).1, (hds t ht).2.2⟩
    rw [eb, cards_card headed.2]
    · rw [show ((Text.strInt label ++ r ++ [' '] ++ d0) :: (ds ++ us)) = ((Text.strInt label ++ r ++ [' '] ++ d0) :: ds) ++ us from rfl,
        List.flatMap_append, ← hlines, ← Wrap.words_lines, huw, Wrap.words_append _ _ (sep_last _ (by decide)), hw]
      simp
    · intro t ht
      rcases List.mem_append.mp ht with ht | ht
      · exact (hds t ht).2.1
      · exact cont_five (hus t ht).1

/-! ## an ordinary card -/

theorem putCell_ok {f : Fmt} (hf : Formats f) (i : Input) {c : Cell} (hdef : GoodDef c.definition) {mat : List Char} {den : List (List Char)} {h : List Char}
    (hh : HeadOk c.label mat den h) (r : Nat) (hr : 30 ≤ r) (mats : List Int) :
    ∃ K, ∀ k, K ≤ k → ∃ t ls reg u, putCell f i r k h c mats = .ok ⟨t, c, mats⟩ ∧ t = fileText ls ∧ (∀ t ∈ ls, NoTitle t) ∧ RegionWords c.toCell reg
      ∧ UniverseWords i u ∧ cards (body ls) = ([], [Text.strInt c.label :: mat :: (den ++ (reg ++ u))]) := by
  obtain ⟨op, l, es, hd, hw, hb, hfl, hN, hdep⟩ := hdef
  have hlen : h.length ≤ 38 := by obtain ⟨_, _, _, h3, _⟩ := hh; exact h3
  obtain ⟨K, hK⟩ := def_lines (c := c.toCell) hd hw hb hfl hN hdep r h.length hr hlen
  obtain ⟨cl, hcl, hcs⟩ := comment_silent c
  refine ⟨K, fun k hk => ?_⟩
  obtain ⟨out, h1, h2, ⟨d0, ds, h3, h4, h5⟩, -⟩ := hK k hk
  obtain ⟨ls, u, g1, g2, g3, g4⟩ := card_text hf i c hh h3 (tidy_clean h4) (fun t ht => ⟨tidy_clean (h5 t ht).2.1, cont_five (h5 t ht).1, cont_inked (h5 t ht).1⟩) hcs
  refine ⟨_, ls, _, u, ?_, g1, g2, h2, g3, g4⟩
  unfold putCell
  rw [h1]
  dsimp only
  rw [hcl]

/-! ## the inner void -/

theorem nosep_ne {c : Char} (h : Wrap.isSep c = false) : c ≠ ' ' ∧ c ≠ '(' ∧ c ≠ ')' ∧ c ≠ ':' ∧ c.isWhitespace = false := by
  refine ⟨?_, ?_, ?_, ?_, ?_⟩
  · rintro rfl; exact absurd h (by decide)
  · rintro rfl; exact absurd h (by decide)
  · rintro rfl; exact absurd h (by decide)
  · rintro rfl; exact absurd h (by decide)
  · simp only [Wrap.isSep, Bool.or_eq_false_iff] at h
    exact h.1

theorem squeeze_word : ∀ {s : List Char}, (∀ c ∈ s, Wrap.isSep c = false) → Wrap.squeeze s = s
  | [], _ => rfl
  | c :: s, h => by
    unfold Wrap.squeeze
    rw [if_neg (by rintro ⟨h1, _⟩; exact (nosep_ne (h c (by simp))).1 h1), squeeze_word (fun x hx => h x (List.mem_cons_of_mem _ hx))]

theorem absorb_word {x : Char} (hx : Wrap.special x = true) : ∀ {s : List Char}, (∀ c ∈ s, Wrap.isSep c = false) → Wrap.absorb x s = s
  | [], _ => rfl
  | c :: s, h => by
    unfold Wrap.absorb
    have hc := h c (by simp)
    rw [if_neg (by rintro rfl; simp [Wrap.isSep, hx] at hc), if_neg (by rintro ⟨h1, _⟩; exact (nosep_ne hc).1 h1),
      absorb_word hx (fun y hy => h y (List.mem_cons_of_mem _ hy))]

theorem sepIf_word {p : Char → Char → Bool} (hp : ∀ a b, p a b = true → Wrap.isSep a = true ∨ Wrap.isSep b = true) :
    ∀ {s : List Char}, (∀ c ∈ s, Wrap.isSep c = false) → Wrap.sepIf p s = s
  | [], _ => rfl
  | [a], _ => rfl
  | a :: b :: s, h => by
    unfold Wrap.sepIf
    rw [if_neg (by
      intro h1
      rcases hp a b h1 with h2 | h2
      · rw [h a (by simp)] at h2; cases h2
      · rw [h b (by simp)] at h2; cases h2), sepIf_word hp (fun y hy => h y (List.mem_cons_of_mem _ hy))]

theorem dropWs_word {s : List Char} (h : ∀ c ∈ s, Wrap.isSep c = false) : s.dropWhile Char.isWhitespace = s := by
  cases s with
  | nil => rfl
  | cons c s => rw [List.dropWhile_cons, if_neg (by rw [(nosep_ne (h c (by simp))).2.2.2.2]; decide)]

theorem strip_word {s : List Char} (h : ∀ c ∈ s, Wrap.isSep c = false) : Wrap.strip (' ' :: (s ++ [' '])) = s := by
  unfold Wrap.strip
  have e1 : (' ' :: (s ++ [' '])).dropWhile Char.isWhitespace = (s ++ [' ']).dropWhile Char.isWhitespace := rfl
  rw [e1]
  cases s with
  | nil => rfl
  | cons c s =>
    rw [List.cons_append, List.dropWhile_cons, if_neg (by rw [(nosep_ne (h c (by simp))).2.2.2.2]; decide)]
    rw [← List.cons_append, List.reverse_append]
    have e2 : ([' '].reverse ++ (c :: s).reverse).dropWhile Char.isWhitespace = (c :: s).reverse.dropWhile Char.isWhitespace := rfl
    rw [e2, dropWs_word (fun x hx => h x (List.mem_reverse.mp hx)), List.reverse_reverse]

theorem normalise_word {s : List Char} (h : ∀ c ∈ s, Wrap.isSep c = false) : Wrap.normalise (' ' :: (s ++ [' '])) = s := by
  unfold Wrap.normalise
  dsimp only
  rw [strip_word h, squeeze_word h, absorb_word (by decide) h, absorb_word (by decide) h, absorb_word (by decide) h]
  have key : ∀ a : Char, (a = '(' ∨ a = ')') → Wrap.isSep a = true := by rintro a (rfl | rfl) <;> decide
  rw [sepIf_word _ h, sepIf_word _ h, sepIf_word _ h, sepIf_word _ h]
  all_goals
    intro a b hab
    simp only [Bool.and_eq_true, decide_eq_true_eq] at hab
    first
      | exact Or.inl (key a (Or.inr hab.1))
      | exact Or.inr (key b (Or.inl hab.2))

theorem spanC_word : ∀ {s : List Char}, (∀ c ∈ s, c ≠ '(' ∧ c ≠ ')' ∧ c ≠ '^') → Text.spanC (s ++ [')']) = some (s, [])
  | [], _ => rfl
  | c :: s, h => by
    have hc := h c (by simp)
    rw [List.cons_append]
    unfold Text.spanC
    rw [if_neg hc.2.1, if_neg (by rintro (h1 | h1); exact hc.1 h1; exact hc.2.2 h1), spanC_word (fun y hy => h y (List.mem_cons_of_mem _ hy))]
    rfl

theorem findC_none : ∀ {s : List Char}, '(' ∉ s → Text.findC s = none
  | [], _ => rfl
  | c :: s, h => by
    unfold Text.findC
    rw [if_neg (by rintro rfl; exact h (by simp)), findC_none (fun h' => h (List.mem_cons_of_mem _ h'))]
    rfl

/-- `remove_redundant` of a number in parentheses -/
theorem removeRedundant_int (n : Int) : Text.removeRedundantC ('(' :: (Text.strInt n ++ [')'])) = ' ' :: (Text.strInt n ++ [' ']) := by
  have hs := (Text.strInt_word n).2
  have hch : ∀ c ∈ Text.strInt n, c ≠ '(' ∧ c ≠ ')' ∧ c ≠ '^' ∧ c ≠ ':' ∧ c ≠ '[' ∧ c ≠ ']' ∧ c ≠ ';' := by
    intro c hc
    refine ⟨?_, ?_, ?_, ?_, ?_, ?_, ?_⟩ <;> exact Text.digit_ne (hs c hc) (by decide) (by decide)
  have e1 : Text.findC ('(' :: (Text.strInt n ++ [')'])) = some ([], Text.strInt n, []) := by
    unfold Text.findC
    rw [if_pos rfl, spanC_word (fun c hc => ⟨(hch c hc).1, (hch c hc).2.1, (hch c hc).2.2.1⟩)]
  have e2 : '(' ∉ ' ' :: (Text.strInt n ++ [' ']) := by
    simp only [List.mem_cons, List.mem_append, not_or]
    exact ⟨by decide, fun h => (hch _ h).1 rfl, by decide, by simp⟩
  have e3 : Text.maskedC [] (Text.strInt n) [] = ' ' :: (Text.strInt n ++ [' ']) := by
    unfold Text.maskedC Text.redundantC
    rw [if_pos (fun h => (hch _ h).2.2.2.1 rfl), if_pos rfl]
  have e4 : ∀ k, Text.passC (k + 1) [] ('(' :: (Text.strInt n ++ [')'])) = ' ' :: (Text.strInt n ++ [' ']) := by
    intro k
    unfold Text.passC
    rw [e1]
    dsimp only
    rw [List.append_nil, List.nil_append, e3]
    cases k with
    | zero => simp [Text.passC]
    | succ k =>
      unfold Text.passC
      have : Text.findC [] = none := rfl
      rw [this]
      simp
  have e5 : ∀ k, Text.passesC k (' ' :: (Text.strInt n ++ [' '])) = ' ' :: (Text.strInt n ++ [' ']) := by
    intro k
    cases k with
    | zero => rfl
    | succ k => unfold Text.passesC; rw [findC_none e2]; rfl
  unfold Text.removeRedundantC
  have e6 : Text.passesC (('(' :: (Text.strInt n ++ [')'])).length + 1) ('(' :: (Text.strInt n ++ [')'])) = ' ' :: (Text.strInt n ++ [' ']) := by
    rw [Text.passesC, e1]
    simp only [Option.isNone_some, Bool.false_eq_true, if_false]
    rw [List.length_cons, e4, e5]
  rw [e6]
  have e7 : ∀ c ∈ ' ' :: (Text.strInt n ++ [' ']), Text.reverseRepl c = c := by
    intro c hc
    unfold Text.reverseRepl
    have : c = ' ' ∨ c ∈ Text.strInt n := by simp at hc; tauto
    rcases this with rfl | hc
    · rfl
    · have := hch c hc
      rw [if_neg this.2.2.2.2.1, if_neg this.2.2.2.2.2.1, if_neg this.2.2.2.2.2.2]
  conv_rhs => rw [← List.map_id (' ' :: (Text.strInt n ++ [' ']))]
  exact List.map_congr_left e7

/-- the definition of the inside of the sphere -/
theorem sphere_text (l n : Int) (hn : n.natAbs < 10 ^ 8) (r k off : Nat) (hr : 30 ≤ r) (hoff : off ≤ 38) :
    Text.cellDef 80 11 off r k (.lst .and l [.int n]) = .ok (Text.strInt n) := by
  obtain ⟨r, rfl⟩ : ∃ q, r = q + 1 := ⟨r - 1, by omega⟩
  have e1 : Text.writeSeq Text.charStyle (r + 1) (.lst .and l [.int n]) = .ok ('(' :: (Text.strInt n ++ [')'])) := by
    unfold Text.writeSeq
    split <;> rfl
  have hl := Text.strInt_length (d := 8) (by omega) hn
  unfold Text.cellDef
  rw [e1]
  show Wrap.wrapLine 80 11 off k (Text.removeRedundantC ('(' :: (Text.strInt n ++ [')']))) = _
  rw [removeRedundant_int]
  unfold Wrap.wrapLine
  dsimp only
  rw [normalise_word (Text.strInt_sep n), if_pos (by omega)]

end Geouned.PhitsFile
