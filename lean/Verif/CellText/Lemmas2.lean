import Verif.CellText.Lemmas
import Mathlib.Data.List.TakeWhile
/-!
# Searching for a key
-/
namespace Geouned.CellText

variable {V : Type}

/-- a word of small letters -/
def Word (w : List Char) : Prop := w ≠ [] ∧ ∀ c ∈ w, c.isAlpha = true

theorem isAlpha_lower {c : Char} (h : c.toLower.isAlpha = true) : c ≠ ' ' ∧ c ≠ '=' ∧ c ≠ '\n' ∧ c ≠ '*' ∧ c ≠ '(' ∧ c ≠ ')' := by
  refine ⟨?_, ?_, ?_, ?_, ?_, ?_⟩ <;> (rintro rfl; revert h; decide)

theorem matchKey_some {word x r : List Char} (h : matchKey word x = some r) :
    ∃ w b r', x = w ++ (b ++ '=' :: r') ∧ low w = word ∧ Blanks b ∧ r = r'.dropWhile (· = ' ') := by
  unfold matchKey at h
  split at h
  · next h1 =>
    split at h
    · next r' heq =>
      refine ⟨x.take word.length, (x.drop word.length).takeWhile (· = ' '), r', ?_, h1, ?_, (Option.some.inj h).symm⟩
      · rw [← heq, List.takeWhile_append_dropWhile, List.take_append_drop]
      · intro c hc
        simpa using List.mem_takeWhile_imp hc
    · cases h
  · cases h

theorem matchKey_ok {word w b r : List Char} (h1 : low w = word) (h2 : Blanks b) : matchKey word (w ++ (b ++ '=' :: r)) = some (r.dropWhile (· = ' ')) := by
  have hl : word.length = w.length := by rw [← h1]; simp [low]
  unfold matchKey
  rw [hl, List.take_left', if_pos h1, List.drop_left']
  · have : (b ++ '=' :: r).dropWhile (· = ' ') = '=' :: r := by
      rw [List.dropWhile_append_of_pos (by simpa [Blanks] using h2), List.dropWhile_cons]
      simp
    rw [this]
    rfl
  · rfl
  · rfl

theorem matchKey_noeq {word x : List Char} (h : '=' ∉ x) : matchKey word x = none := by
  cases hm : matchKey word x with
  | none => rfl
  | some r =>
    obtain ⟨w, b, r', rfl, _⟩ := matchKey_some hm
    simp at h

theorem word_chars {word w : List Char} (hw : Word word) (h : low w = word) : ∀ c ∈ w, c ≠ ' ' ∧ c ≠ '=' ∧ c ≠ '\n' ∧ c ≠ '*' ∧ c ≠ '(' ∧ c ≠ ')' := by
  intro c hc
  exact isAlpha_lower (hw.2 _ (by rw [← h]; exact List.mem_map.mpr ⟨c, hc, rfl⟩))

/-- after a text that ends with a blank or a line end and contains no equals sign -/
theorem matchKey_white {word v s : List Char} (hw : Word word) (hv : '=' ∉ v) (hl : v.getLast? = some ' ' ∨ v.getLast? = some '\n')
    (hs : (s.dropWhile (· = ' ')).head? ≠ some '=') : matchKey word (v ++ s) = none := by
  cases hm : matchKey word (v ++ s) with
  | none => rfl
  | some r =>
    exfalso
    obtain ⟨w, b, r', he, h1, h2, _⟩ := matchKey_some hm
    rcases List.append_eq_append_iff.mp he with ⟨z, hz1, hz2⟩ | ⟨z, hz1, hz2⟩
    · -- the word reaches beyond `v`
      have hmem : ∀ c, v.getLast? = some c → c ∈ w := fun c hc => by rw [hz1]; exact List.mem_append_left _ (List.mem_of_getLast? hc)
      rcases hl with h | h
      · exact (word_chars hw h1 _ (hmem _ h)).1 rfl
      · exact (word_chars hw h1 _ (hmem _ h)).2.2.1 rfl
    · -- `v` reaches beyond the word
      rcases List.append_eq_append_iff.mp hz2 with ⟨y, hy1, hy2⟩ | ⟨y, hy1, hy2⟩
      · cases y with
        | nil =>
          rw [List.nil_append] at hy2
          rw [← hy2] at hs
          exact hs (by rw [List.dropWhile_cons]; simp)
        | cons c y =>
          have : c = '=' := (List.cons.inj hy2).1.symm
          subst this
          rw [hz1, hy1] at hv
          simp at hv
      · rw [hy2, List.dropWhile_append_of_pos (by
          intro c hc
          have := h2 c (by rw [hy1]; exact List.mem_append_right _ hc)
          simpa using this), List.dropWhile_cons] at hs
        simp at hs

/-- before the next equals sign -/
theorem matchKey_key {word y a r : List Char} (hw : Word word) (hy : ∀ c ∈ y, c ≠ ' ' ∧ c ≠ '=') (ha : Blanks a) (hne : low y ≠ word) :
    matchKey word (y ++ (a ++ '=' :: r)) = none := by
  cases hm : matchKey word (y ++ (a ++ '=' :: r)) with
  | none => rfl
  | some r0 =>
    exfalso
    obtain ⟨w, b, r', he, h1, h2, _⟩ := matchKey_some hm
    rcases List.append_eq_append_iff.mp he with ⟨z, hz1, hz2⟩ | ⟨z, hz1, hz2⟩
    · cases z with
      | nil => rw [List.append_nil] at hz1; rw [hz1] at h1; exact hne h1
      | cons c z =>
        have hc := word_chars hw h1 c (by rw [hz1]; simp)
        cases a with
        | nil => exact hc.2.1 (List.cons.inj hz2).1.symm
        | cons d a => exact hc.1 ((List.cons.inj hz2).1.symm.trans (ha d List.mem_cons_self))
    · cases z with
      | nil => rw [List.append_nil] at hz1; rw [← hz1] at h1; exact hne h1
      | cons c z =>
        have hc := hy c (by rw [hz1]; simp)
        cases b with
        | nil => exact hc.2 (List.cons.inj hz2).1.symm
        | cons d b => exact hc.1 ((List.cons.inj hz2).1.symm.trans (h2 d List.mem_cons_self))

/-- a stretch in which no match begins -/
theorem searchKey_skip {word u s : List Char} (h : ∀ a v, u = a ++ v → v ≠ [] → matchKey word (v ++ s) = none) :
    searchKey word (u ++ s) = (searchKey word s).map (fun x => (u ++ x.1, x.2)) := by
  induction u with
  | nil =>
    cases h : searchKey word s <;> simp [h]
  | cons c u ih =>
    have h1 := h [] (c :: u) rfl (by simp)
    rw [List.cons_append] at h1 ⊢
    conv => lhs; unfold searchKey
    rw [h1]
    dsimp only
    rw [ih (fun a v he hv => h (c :: a) v (by rw [he]; rfl) hv)]
    cases searchKey word s <;> simp

theorem searchKey_here {word u s r : List Char} (hu : u ≠ []) (h : matchKey word (u ++ s) = some r) : searchKey word (u ++ s) = some ([], r) := by
  cases u with
  | nil => exact absurd rfl hu
  | cons c u =>
    rw [List.cons_append] at h ⊢
    unfold searchKey
    rw [h]

theorem searchKey_noeq {word s : List Char} (h : '=' ∉ s) : searchKey word s = none := by
  have := searchKey_skip (word := word) (u := s) (s := []) (fun a v he _ => matchKey_noeq (by
    rw [List.append_nil]
    intro hv
    exact h (by rw [he]; exact List.mem_append_right _ hv)))
  rw [List.append_nil] at this
  rw [this]
  rfl

/-! ## parameters -/

/-- the text of a parameter after its equals sign -/
def Param.tail (p : Param) (b : List Char) : List Char := b ++ (p.val.text ++ p.gap)

/-- the star -/
def Param.starText (p : Param) : List Char := if p.star then ['*'] else []

theorem Param.text_eq {p : Param} {a b : List Char} (h : p.eq = a ++ '=' :: b) : p.text = p.starText ++ (p.key ++ (a ++ '=' :: p.tail b)) := by
  unfold Param.text Param.tail Param.starText
  rw [h]
  simp

theorem digit_ne {c : Char} (h : c.isDigit = true) : c ≠ '=' ∧ c ≠ ' ' ∧ c ≠ '\n' ∧ c ≠ '(' ∧ c ≠ ')' ∧ c ≠ 'k' ∧ c ≠ 'K' ∧ c ≠ 'r' ∧ c ≠ 'R' := by
  refine ⟨?_, ?_, ?_, ?_, ?_, ?_, ?_, ?_, ?_⟩ <;> (rintro rfl; revert h; decide)

/-- the characters of a number -/
def NumChar (c : Char) : Prop := c.isDigit = true ∨ c = '.' ∨ c = '+' ∨ c = '-' ∨ c = 'e' ∨ c = 'E'

theorem sign_mem {s : List Char} (h : Sign s) : ∀ c ∈ s, NumChar c := by
  rcases h with rfl | rfl | rfl
  · simp
  · intro c hc; rw [List.mem_singleton.mp hc]; unfold NumChar; simp
  · intro c hc; rw [List.mem_singleton.mp hc]; unfold NumChar; simp

theorem mantissa_mem {s : List Char} (h : Mantissa s) : ∀ c ∈ s, NumChar c := by
  cases h with
  | int a ha => exact fun c hc => Or.inl (ha.2 c hc)
  | point a b ha hb _ =>
    intro c hc
    rw [List.mem_append, List.mem_cons] at hc
    rcases hc with hc | rfl | hc
    · exact Or.inl (ha c hc)
    · exact Or.inr (Or.inl rfl)
    · exact Or.inl (hb c hc)

theorem number_mem {P : Prop} {t : List Char} (h : Number P t) : ∀ c ∈ t, NumChar c := by
  cases h with
  | plain s m hs hm =>
    intro c hc
    rcases List.mem_append.mp hc with hc | hc
    · exact sign_mem hs c hc
    · exact mantissa_mem hm c hc
  | exp s m e g d hs hm he hg hd _ =>
    intro c hc
    rw [List.mem_append, List.mem_append, List.mem_cons, List.mem_append] at hc
    rcases hc with (hc | hc) | rfl | hc | hc
    · exact sign_mem hs c hc
    · exact mantissa_mem hm c hc
    · rcases he with rfl | rfl <;> (unfold NumChar; simp)
    · exact sign_mem hg c hc
    · exact Or.inl (hd.2 c hc)

/-- the characters of values and gaps -/
def ValChar (c : Char) : Prop := NumChar c ∨ c = ' ' ∨ c = '\n' ∨ c = '(' ∨ c = ')'

theorem numChar_ne {c : Char} (h : NumChar c) : c ≠ '=' ∧ c ≠ ' ' ∧ c ≠ '\n' ∧ c ≠ '(' ∧ c ≠ ')' ∧ c ≠ 'k' ∧ c ≠ 'K' ∧ c ≠ 'r' ∧ c ≠ 'R' ∧ c ≠ 'c' ∧ c ≠ 'C' ∧ c ≠ '*' := by
  rcases h with h | rfl | rfl | rfl | rfl | rfl
  · refine ⟨?_, ?_, ?_, ?_, ?_, ?_, ?_, ?_, ?_, ?_, ?_, ?_⟩ <;> (rintro rfl; revert h; decide)
  all_goals decide

theorem gap_val {g : List Char} (h : Gap g) : ∀ c ∈ g, ValChar c := by
  intro c hc
  rcases gap_mem h c hc with h | h
  · exact Or.inr (Or.inl h)
  · exact Or.inr (Or.inr (Or.inl h))

theorem words_val {P : Prop} {w : Words} (hn : ∀ x ∈ w, Number P x.1) (hg : ∀ x ∈ w, Gap x.2) : ∀ c ∈ wordsText w, ValChar c := by
  intro c hc
  obtain ⟨x, hx, hc⟩ := List.mem_flatMap.mp hc
  rcases List.mem_append.mp hc with hc | hc
  · exact Or.inl (number_mem (hn x hx) c hc)
  · exact gap_val (hg x hx) c hc

theorem parens_val {P : Prop} {g : List Char} {w : Words} (h : Gap g) (hn : ∀ x ∈ w, Number P x.1) (hg : ∀ x ∈ w, Gap x.2) : ∀ c ∈ parens g w, ValChar c := by
  intro c hc
  unfold parens at hc
  simp only [List.cons_append, List.mem_cons, List.mem_append, List.not_mem_nil, or_false] at hc
  rcases hc with rfl | (hc | hc) | rfl
  · exact Or.inr (Or.inr (Or.inr (Or.inl rfl)))
  · exact gap_val h c hc
  · exact words_val hn hg c hc
  · exact Or.inr (Or.inr (Or.inr (Or.inr rfl)))

theorem digits_val {d : List Char} (h : Digits d) : ∀ c ∈ d, ValChar c := fun c hc => Or.inl (Or.inl (h.2 c hc))

theorem val_chars {P : Prop} {p : Param} (h : p.ValOk P) : ∀ c ∈ p.val.text, ValChar c := by
  unfold Param.ValOk at h
  cases hv : p.val with
  | uni t =>
    rw [hv] at h
    obtain ⟨_, _, s, d, rfl, hs, hd⟩ := h
    intro c hc
    rcases List.mem_append.mp hc with hc | hc
    · exact Or.inl (sign_mem hs c hc)
    · exact digits_val hd c hc
  | fill t tr =>
    rw [hv] at h
    obtain ⟨_, hd, ht⟩ := h
    cases tr with
    | none => exact digits_val hd
    | some x =>
      obtain ⟨h1, h2, h3, _⟩ := ht x rfl
      intro c hc
      obtain ⟨g, o, w⟩ := x
      rw [PVal.text, List.mem_append, List.mem_append] at hc
      rcases hc with (hc | hc) | hc
      · exact digits_val hd c hc
      · exact gap_val h1 c hc
      · exact parens_val h2 h3.number h3.gap c hc
  | trcl tr =>
    rw [hv] at h
    cases tr with
    | number t => exact digits_val h.2
    | entries g w => exact parens_val h.2.1 h.2.2.number h.2.2.gap
  | mat t =>
    rw [hv] at h
    exact digits_val h.2.2
  | other w =>
    rw [hv] at h
    exact words_val h.2.1.number h.2.1.gap

theorem valChar_noeq {s : List Char} (h : ∀ c ∈ s, ValChar c) : '=' ∉ s := by
  intro he
  rcases h _ he with h | h | h | h | h
  · exact (numChar_ne h).1 rfl
  all_goals exact absurd h (by decide)

theorem same_chars {word t : List Char} (h : Same word t) (hw : ∀ c ∈ word, c.isAlpha = true) : ∀ c ∈ t, c ≠ ' ' ∧ c ≠ '=' ∧ c ≠ '\n' ∧ c ≠ '*' ∧ c ≠ '(' ∧ c ≠ ')' := by
  intro c hc
  exact isAlpha_lower (hw _ (by rw [← h]; exact List.mem_map.mpr ⟨c, hc, rfl⟩))

/-- the characters of a key -/
theorem key_chars {P : Prop} {p : Param} (h : p.ValOk P) : p.key ≠ [] ∧ ∀ c ∈ p.key, c ≠ ' ' ∧ c ≠ '=' ∧ c ≠ '\n' ∧ c ≠ '*' ∧ c ≠ '(' ∧ c ≠ ')' := by
  have hs : ∀ word : List Char, word ≠ [] → (∀ c ∈ word, c.isAlpha = true) → Same word p.key →
      p.key ≠ [] ∧ ∀ c ∈ p.key, c ≠ ' ' ∧ c ≠ '=' ∧ c ≠ '\n' ∧ c ≠ '*' ∧ c ≠ '(' ∧ c ≠ ')' := by
    intro word hne hw h
    refine ⟨?_, same_chars h hw⟩
    intro h0
    rw [h0] at h
    exact hne h.symm
  unfold Param.ValOk at h
  cases hv : p.val with
  | uni t => rw [hv] at h; exact hs _ (by decide) (by decide) h.1
  | fill t tr => rw [hv] at h; exact hs _ (by decide) (by decide) h.1
  | trcl tr =>
    rw [hv] at h
    cases tr with
    | number t => exact hs _ (by decide) (by decide) h.1
    | entries g w => exact hs _ (by decide) (by decide) h.1
  | mat t => rw [hv] at h; exact hs _ (by decide) (by decide) h.1
  | other w =>
    rw [hv] at h
    obtain ⟨_, _, ⟨c, r, hk, _⟩, hc, _⟩ := h
    refine ⟨by rw [hk]; simp, fun x hx => ?_⟩
    have hx' := hc x hx
    refine ⟨?_, ?_, ?_, ?_, ?_, ?_⟩ <;> (rintro rfl; revert hx'; decide)

/-- the key ends with the word -/
def Ends (word : List Char) (p : Param) : Prop := ∃ a v, p.key = a ++ v ∧ low v = word

/-- a text that begins like a parameter -/
def StartP (s : List Char) : Prop := (s.dropWhile (· = ' ')).head? ≠ some '='

theorem startP_nil : StartP [] := by simp [StartP]

theorem startP_key {p : Param} {P : Prop} (h : p.ValOk P) (s : List Char) : StartP (p.text ++ s) := by
  obtain ⟨hne, hc⟩ := key_chars h
  unfold StartP Param.text
  cases hk : p.key with
  | nil => exact absurd hk hne
  | cons c r =>
    have := hc c (by rw [hk]; simp)
    cases p.star with
    | true => simp [List.dropWhile_cons]
    | false => simp [List.dropWhile_cons, this.1, this.2.1]

theorem getLast_append_ne {a b : List Char} (hb : b ≠ []) : (a ++ b).getLast? = b.getLast? := by
  cases h : b.getLast? with
  | none => exact absurd (List.getLast?_eq_none_iff.mp h) hb
  | some x => rw [List.getLast?_append, h]; rfl

theorem gap_last {g : List Char} (hg : Gap g) (hne : g ≠ []) : g.getLast? = some ' ' ∨ g.getLast? = some '\n' := by
  cases h : g.getLast? with
  | none => exact absurd (List.getLast?_eq_none_iff.mp h) hne
  | some c =>
    rcases gap_mem hg c (List.mem_of_getLast? h) with rfl | rfl
    · exact Or.inl rfl
    · exact Or.inr rfl

/-- the stretch after the equals sign -/
theorem tail_skip {word : List Char} (hw : Word word) {u g s : List Char} (hu : '=' ∉ u) (hg : Gap g) (hs : StartP s) (hend : g = [] → '=' ∉ s) :
    searchKey word (u ++ g ++ s) = (searchKey word s).map (fun x => (u ++ g ++ x.1, x.2)) := by
  have hgeq : '=' ∉ g := valChar_noeq (gap_val hg)
  refine searchKey_skip (fun a v he hv => ?_)
  have hveq : '=' ∉ v := by
    intro h
    have : '=' ∈ u ++ g := by rw [he]; exact List.mem_append_right _ h
    rcases List.mem_append.mp this with h | h
    · exact hu h
    · exact hgeq h
  by_cases h0 : g = []
  · refine matchKey_noeq (fun h => ?_)
    rcases List.mem_append.mp h with h | h
    · exact hveq h
    · exact hend h0 h
  · refine matchKey_white hw hveq ?_ hs
    have h1 : v.getLast? = g.getLast? := by
      rw [← getLast_append_ne (a := a) hv, ← he, getLast_append_ne h0]
    rw [h1]
    exact gap_last hg h0

/-- the search goes past a parameter whose key does not end with the word -/
theorem param_skip {word : List Char} (hw : Word word) {P : Prop} {p : Param} (h : p.ValOk P) {a b : List Char} (he : p.eq = a ++ '=' :: b) (ha : Blanks a)
    (hb : Gap b) (hg : Gap p.gap) (hn : ¬ Ends word p) {s : List Char} (hs : StartP s) (hend : p.gap = [] → '=' ∉ s) :
    searchKey word (p.text ++ s) = (searchKey word s).map (fun x => (p.text ++ x.1, x.2)) := by
  obtain ⟨hne, hc⟩ := key_chars h
  rw [Param.text_eq he]
  have h1 : searchKey word (p.tail b ++ s) = (searchKey word s).map (fun x => (p.tail b ++ x.1, x.2)) := by
    have := tail_skip hw (u := b ++ p.val.text) (g := p.gap) (s := s) (by
      intro h0
      rcases List.mem_append.mp h0 with h0 | h0
      · exact valChar_noeq (gap_val hb) h0
      · exact valChar_noeq (val_chars h) h0) hg hs hend
    unfold Param.tail
    simpa only [List.append_assoc] using this
  have h2 : searchKey word (a ++ '=' :: (p.tail b ++ s)) = (searchKey word (p.tail b ++ s)).map (fun x => (a ++ '=' :: x.1, x.2)) := by
    have := searchKey_skip (word := word) (u := a ++ ['=']) (s := p.tail b ++ s) (fun x v hx hv => by
      refine Option.eq_none_iff_forall_not_mem.mpr (fun r hr => ?_)
      obtain ⟨w, c, r', h3, h4, _⟩ := matchKey_some hr
      cases v with
      | nil => exact hv rfl
      | cons d v =>
        cases w with
        | nil => exact hw.1 h4.symm
        | cons e w =>
          have h5 : d = e := (List.cons.inj h3).1
          have h6 := word_chars hw h4 e List.mem_cons_self
          have h7 : d ∈ a ++ ['='] := by rw [hx]; simp
          rw [h5] at h7
          rcases List.mem_append.mp h7 with h7 | h7
          · exact h6.1 (ha e h7)
          · exact h6.2.1 (List.mem_singleton.mp h7))
    simpa only [List.append_assoc, List.cons_append, List.nil_append] using this
  have h3 : searchKey word (p.key ++ (a ++ '=' :: (p.tail b ++ s))) = (searchKey word (a ++ '=' :: (p.tail b ++ s))).map (fun x => (p.key ++ x.1, x.2)) := by
    refine searchKey_skip (fun x v hx hv => matchKey_key hw (fun c hcv => ?_) ha (fun hlow => hn ⟨x, v, hx, hlow⟩))
    have := hc c (by rw [hx]; exact List.mem_append_right _ hcv)
    exact ⟨this.1, this.2.1⟩
  have h4 : ∀ t, searchKey word (p.starText ++ (p.key ++ (a ++ '=' :: t))) = (searchKey word (p.key ++ (a ++ '=' :: t))).map (fun x => (p.starText ++ x.1, x.2)) := by
    intro t
    refine searchKey_skip (fun x v hx hv => ?_)
    have hv1 : v = ['*'] := by
      unfold Param.starText at hx
      split at hx
      · rcases List.append_eq_singleton_iff.mp hx.symm with ⟨_, h⟩ | ⟨_, h⟩
        · exact h
        · exact absurd h hv
      · exact absurd (List.append_eq_nil_iff.mp hx.symm).2 hv
    subst hv1
    rw [← List.append_assoc]
    refine matchKey_key hw ?_ ha ?_
    · intro c hcv
      rcases List.mem_append.mp hcv with hcv | hcv
      · rw [List.mem_singleton.mp hcv]; decide
      · exact ⟨(hc c hcv).1, (hc c hcv).2.1⟩
    · intro hlow
      exact (word_chars hw hlow '*' (by simp)).2.2.2.1 rfl
  have e : p.starText ++ (p.key ++ (a ++ '=' :: p.tail b)) ++ s = p.starText ++ (p.key ++ (a ++ '=' :: (p.tail b ++ s))) := by simp
  rw [e, h4, h3, h2, h1]
  cases searchKey word s <;> simp

/-- the search stops at a parameter with this key -/
theorem param_found {word : List Char} (hw : Word word) {P : Prop} {p : Param} (h : p.ValOk P) {a b : List Char} (he : p.eq = a ++ '=' :: b) (ha : Blanks a)
    (hk : low p.key = word) (s : List Char) :
    searchKey word (p.text ++ s) = some (p.starText, (p.tail b ++ s).dropWhile (· = ' ')) := by
  obtain ⟨hne, hc⟩ := key_chars h
  rw [Param.text_eq he]
  have h4 : ∀ t, searchKey word (p.starText ++ (p.key ++ (a ++ '=' :: t))) = (searchKey word (p.key ++ (a ++ '=' :: t))).map (fun x => (p.starText ++ x.1, x.2)) := by
    intro t
    refine searchKey_skip (fun x v hx hv => ?_)
    have hv1 : v = ['*'] := by
      unfold Param.starText at hx
      split at hx
      · rcases List.append_eq_singleton_iff.mp hx.symm with ⟨_, h⟩ | ⟨_, h⟩
        · exact h
        · exact absurd h hv
      · exact absurd (List.append_eq_nil_iff.mp hx.symm).2 hv
    subst hv1
    rw [← List.append_assoc]
    refine matchKey_key hw ?_ ha ?_
    · intro c hcv
      rcases List.mem_append.mp hcv with hcv | hcv
      · rw [List.mem_singleton.mp hcv]; decide
      · exact ⟨(hc c hcv).1, (hc c hcv).2.1⟩
    · intro hlow
      exact (word_chars hw hlow '*' (by simp)).2.2.2.1 rfl
  have e : p.starText ++ (p.key ++ (a ++ '=' :: p.tail b)) ++ s = p.starText ++ (p.key ++ (a ++ '=' :: (p.tail b ++ s))) := by simp
  rw [e, h4, searchKey_here hne (matchKey_ok hk ha)]
  simp

end Geouned.CellText
