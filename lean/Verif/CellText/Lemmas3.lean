import Verif.CellText.Lemmas2
/-!
# The parameters of a card
-/
namespace Geouned.CellText

variable {V : Type}

/-- a parameter that is read correctly -/
structure Nice (p : Param) : Prop where
  val : p.ValOk True
  eq : ∃ a b, p.eq = a ++ '=' :: b ∧ Blanks a ∧ Gap b
  gap : Gap p.gap

structure NiceAll (ps : List Param) : Prop where
  nice : ∀ p ∈ ps, Nice p
  apart : ∀ p ∈ ps.dropLast, p.gap ≠ []

theorem NiceAll.tail {p : Param} {ps : List Param} (h : NiceAll (p :: ps)) : NiceAll ps :=
  ⟨fun q hq => h.nice q (List.mem_cons_of_mem _ hq), fun q hq => h.apart q (by
    cases ps with
    | nil => simp at hq
    | cons x ps => exact List.mem_cons_of_mem _ hq)⟩

theorem NiceAll.gap_nil {p : Param} {ps : List Param} (h : NiceAll (p :: ps)) (h0 : p.gap = []) : ps = [] := by
  cases ps with
  | nil => rfl
  | cons x ps => exact absurd h0 (h.apart p (by simp))

theorem paramsText_nil : paramsText [] = [] := rfl

theorem paramsText_cons (p : Param) (ps : List Param) : paramsText (p :: ps) = p.text ++ paramsText ps := by simp [paramsText]

theorem paramsText_append (l r : List Param) : paramsText (l ++ r) = paramsText l ++ paramsText r := by simp [paramsText]

theorem startP_params {ps : List Param} (h : NiceAll ps) : StartP (paramsText ps) := by
  cases ps with
  | nil => exact startP_nil
  | cons p ps =>
    rw [paramsText_cons]
    exact startP_key (h.nice p List.mem_cons_self).val _

theorem end_params {p : Param} {ps : List Param} (h : NiceAll (p :: ps)) (h0 : p.gap = []) : '=' ∉ paramsText ps := by
  rw [h.gap_nil h0, paramsText_nil]
  simp

theorem keys_none {word : List Char} (hw : Word word) {ps : List Param} (h : NiceAll ps) (hn : ∀ p ∈ ps, ¬ Ends word p) : searchKey word (paramsText ps) = none := by
  induction ps with
  | nil => rfl
  | cons p ps ih =>
    obtain ⟨h1, ⟨a, b, h2, h3, h4⟩, h5⟩ := h.nice p List.mem_cons_self
    rw [paramsText_cons, param_skip hw h1 h2 h3 h4 h5 (hn p List.mem_cons_self) (startP_params h.tail) (end_params h),
      ih h.tail (fun q hq => hn q (List.mem_cons_of_mem _ hq))]
    rfl

theorem keys_found {word : List Char} (hw : Word word) {l r : List Param} {p : Param} (h : NiceAll (l ++ p :: r)) (hn : ∀ q ∈ l, ¬ Ends word q) {a b : List Char}
    (he : p.eq = a ++ '=' :: b) (ha : Blanks a) (hk : low p.key = word) :
    searchKey word (paramsText (l ++ p :: r)) = some (paramsText l ++ p.starText, (p.tail b ++ paramsText r).dropWhile (· = ' ')) := by
  induction l with
  | nil =>
    rw [List.nil_append, paramsText_cons, param_found hw (h.nice p (by simp)).val he ha hk]
    rfl
  | cons q l ih =>
    obtain ⟨h1, ⟨c, d, h2, h3, h4⟩, h5⟩ := h.nice q List.mem_cons_self
    have h6 : NiceAll (l ++ p :: r) := h.tail
    rw [List.cons_append, paramsText_cons, param_skip hw h1 h2 h3 h4 h5 (hn q List.mem_cons_self) (startP_params h6) (end_params h),
      ih h6 (fun q hq => hn q (List.mem_cons_of_mem _ hq)), paramsText_cons]
    simp

/-- with a gap before -/
theorem gap_skip {word : List Char} (hw : Word word) {g : List Char} (hg : Gap g) {ps : List Param} (h : NiceAll ps) :
    searchKey word (g ++ paramsText ps) = (searchKey word (paramsText ps)).map (fun x => (g ++ x.1, x.2)) := by
  by_cases h0 : g = []
  · subst h0
    rw [List.nil_append]
    cases searchKey word (paramsText ps) <;> simp
  · have := tail_skip hw (u := []) (g := g) (s := paramsText ps) (by simp) hg (startP_params h) (fun h => absurd h h0)
    simpa using this

theorem drop_gap {b : List Char} (hb : Gap b) {x : List Char} (hx : x.head? ≠ some ' ') : ∃ b', Gap b' ∧ (b ++ x).dropWhile (· = ' ') = b' ++ x := by
  induction hb with
  | nil =>
    refine ⟨[], .nil, ?_⟩
    cases x with
    | nil => rfl
    | cons c x =>
      have : c ≠ ' ' := fun h => hx (by rw [h]; rfl)
      simp [List.dropWhile_cons, this]
  | blank g _ ih =>
    obtain ⟨b', h1, h2⟩ := ih
    exact ⟨b', h1, by rw [List.cons_append, List.dropWhile_cons]; simpa using h2⟩
  | line g hg _ => exact ⟨_, .line g hg, by rw [List.cons_append, List.dropWhile_cons]; simp⟩

theorem number_first {P : Prop} {t : List Char} (h : Number P t) (r : List Char) : (t ++ r).head? ≠ some ' ' := by
  cases ht : t with
  | nil => exact absurd ht (number_ne h)
  | cons c q =>
    intro h0
    have h1 : c = ' ' := Option.some.inj h0
    exact (numChar_ne (number_mem h c (by rw [ht]; simp))).2.1 h1

theorem sep_params {p : Param} {r : List Param} (h : NiceAll (p :: r)) : Sep (p.gap ++ paramsText r) := by
  refine sep_gap (h.nice p List.mem_cons_self).gap (fun h0 => ?_)
  rw [h.gap_nil h0, paramsText_nil]
  intro c hc
  cases hc

theorem niceAll_right {l r : List Param} (h : NiceAll (l ++ r)) : NiceAll r := by
  induction l with
  | nil => exact h
  | cons q l ih => exact ih h.tail

/-- what may come before the parameter that is looked for -/
theorem starred_ok {g : List Char} (hg : Gap g) {l r : List Param} {p : Param} (h : NiceAll (l ++ p :: r)) :
    starred (g ++ paramsText (l ++ p :: r)) (g ++ (paramsText l ++ p.starText)) = p.star := by
  unfold starred
  cases hs : p.star with
  | true =>
    have : (g ++ (paramsText l ++ p.starText)).getLast? = some '*' := by
      unfold Param.starText
      rw [hs, ← List.append_assoc]
      simp
    rw [this]
    simp
  | false =>
    have hst : p.starText = [] := by unfold Param.starText; rw [hs]; rfl
    rw [hst, List.append_nil]
    have hlast : ∀ (s : List Char), (∀ c, s.getLast? = some c → c ≠ '*') → (match s.getLast? with | some c => decide (c = '*') | none => false) = false := by
      intro s hs
      cases h : s.getLast? with
      | none => rfl
      | some c => simp [hs c h]
    -- the last character of `g ++ paramsText l`
    have hpre : ∀ c, (g ++ paramsText l).getLast? = some c → c ≠ '*' := by
      intro c hc
      rcases List.eq_nil_or_concat l with rfl | ⟨l', q, rfl⟩
      · rw [paramsText_nil, List.append_nil] at hc
        rcases gap_mem hg c (List.mem_of_getLast? hc) with rfl | rfl <;> decide
      · rw [List.concat_eq_append] at hc h
        have hq : Nice q := h.nice q (by simp)
        have hqg : q.gap ≠ [] := h.apart q (by
          rw [List.append_assoc, List.dropLast_append_of_ne_nil (by simp)]
          simp)
        have e : g ++ paramsText (l' ++ [q]) = (g ++ paramsText l' ++ ((if q.star then ['*'] else []) ++ q.key ++ q.eq ++ q.val.text)) ++ q.gap := by
          rw [paramsText_append, paramsText_cons, paramsText_nil]
          unfold Param.text
          simp
        rw [e, getLast_append_ne hqg] at hc
        rcases gap_mem hq.gap c (List.mem_of_getLast? hc) with rfl | rfl <;> decide
    cases hb : (g ++ paramsText l).getLast? with
    | some c => simp [hpre c hb]
    | none =>
      -- the last character of the whole text
      dsimp only
      have hlastp : ∃ l' q, l ++ p :: r = l' ++ [q] := by
        rcases List.eq_nil_or_concat (l ++ p :: r) with h0 | ⟨l', q, h0⟩
        · simp at h0
        · exact ⟨l', q, by rw [h0, List.concat_eq_append]⟩
      obtain ⟨l', q, hlq⟩ := hlastp
      have hq : Nice q := h.nice q (by rw [hlq]; simp)
      rw [hlq]
      obtain ⟨a, b, h2, h3, h4⟩ := hq.eq
      have e : g ++ paramsText (l' ++ [q]) = (g ++ (paramsText l' ++ (q.starText ++ (q.key ++ a)))) ++ ('=' :: q.tail b) := by
        rw [paramsText_append, paramsText_cons, paramsText_nil, Param.text_eq h2]
        simp
      rw [e, getLast_append_ne (by simp)]
      rw [decide_eq_false_iff_not]
      intro hc
      have hm := List.mem_of_getLast? hc
      rcases List.mem_cons.mp hm with h0 | h0
      · exact absurd h0 (by decide)
      · unfold Param.tail at h0
        have hv : ValChar '*' := by
          rcases List.mem_append.mp h0 with h0 | h0
          · exact gap_val h4 _ h0
          · rcases List.mem_append.mp h0 with h0 | h0
            · exact val_chars hq.val _ h0
            · exact gap_val hq.gap _ h0
        rcases hv with h | h | h | h | h
        · exact (numChar_ne h).2.2.2.2.2.2.2.2.2.2.2 rfl
        all_goals exact absurd h (by decide)

/-! ## U -/

theorem word_u : Word ['u'] := ⟨by decide, by decide⟩
theorem word_fill : Word ['f', 'i', 'l', 'l'] := ⟨by decide, by decide⟩
theorem word_trcl : Word ['t', 'r', 'c', 'l'] := ⟨by decide, by decide⟩
theorem word_mat : Word ['m', 'a', 't'] := ⟨by decide, by decide⟩

theorem getU_none {g : List Char} (hg : Gap g) {ps : List Param} (h : NiceAll ps) (hn : ∀ p ∈ ps, ¬ Ends ['u'] p) : getU (g ++ paramsText ps) = .ok none := by
  unfold getU
  rw [gap_skip word_u hg h, keys_none word_u h hn]
  rfl

theorem getU_some {g : List Char} (hg : Gap g) {l r : List Param} {p : Param} (h : NiceAll (l ++ p :: r)) (hn : ∀ q ∈ l, ¬ Ends ['u'] q) {s d : List Char}
    (hv : p.val = .uni (s ++ d)) (hs : Sign s) (hd : Digits d) (hm : s ≠ ['-']) : getU (g ++ paramsText (l ++ p :: r)) = .ok (some (value d)) := by
  have hp : Nice p := h.nice p (by simp)
  obtain ⟨a, b, h2, h3, h4⟩ := hp.eq
  have hk : low p.key = ['u'] := by
    have := hp.val
    unfold Param.ValOk at this
    rw [hv] at this
    exact this.1
  have hnum : Number True (s ++ d) := number_signed True hs hd
  have hsep := sep_params (niceAll_right h)
  obtain ⟨b', hb', hdrop⟩ := drop_gap h4 (x := (s ++ d) ++ (p.gap ++ paramsText r)) (number_first hnum _)
  unfold getU
  rw [gap_skip word_u hg h, keys_found word_u h hn h2 h3 hk]
  have e : p.tail b ++ paramsText r = b ++ ((s ++ d) ++ (p.gap ++ paramsText r)) := by
    unfold Param.tail
    rw [hv]
    simp [PVal.text]
  rw [e, hdrop]
  simp only [Option.map_some]
  rw [searchNum_ok (fun c hc => (gap_quiet hb' c hc).1) hnum (sep_stop hsep)]
  simp only [pyInt_signed hs hd hm]
  rfl

/-! ## TRCL -/

theorem getTrcl_none (F : Arith V) {g : List Char} (hg : Gap g) {ps : List Param} (h : NiceAll ps) (hn : ∀ p ∈ ps, ¬ Ends ['t', 'r', 'c', 'l'] p) :
    getTrcl F (g ++ paramsText ps) = .ok none := by
  unfold getTrcl
  rw [gap_skip word_trcl hg h, keys_none word_trcl h hn]
  rfl

theorem gap_noparen {g : List Char} (h : Gap g) : '(' ∉ g ∧ ')' ∉ g := by
  constructor <;> (intro h0; rcases gap_mem h _ h0 with h | h <;> exact absurd h (by decide))

theorem digits_noparen {d : List Char} (h : Digits d) : '(' ∉ d ∧ ')' ∉ d := by
  constructor <;> (intro h0; exact absurd (h.2 _ h0) (by decide))

theorem getTrcl_number (F : Arith V) {g : List Char} (hg : Gap g) {l r : List Param} {p : Param} (h : NiceAll (l ++ p :: r))
    (hn : ∀ q ∈ l, ¬ Ends ['t', 'r', 'c', 'l'] q) {t : List Char} (hv : p.val = .trcl (.number t)) :
    getTrcl F (g ++ paramsText (l ++ p :: r)) = .ok (some (.number (value t))) := by
  have hp : Nice p := h.nice p (by simp)
  obtain ⟨a, b, h2, h3, h4⟩ := hp.eq
  have hk : low p.key = ['t', 'r', 'c', 'l'] ∧ Digits t := by
    have := hp.val
    unfold Param.ValOk at this
    rw [hv] at this
    exact this
  have hnum : Number True t := number_digits True hk.2
  have hsep := sep_params (niceAll_right h)
  obtain ⟨b', hb', hdrop⟩ := drop_gap h4 (x := t ++ (p.gap ++ paramsText r)) (number_first hnum _)
  unfold getTrcl
  rw [gap_skip word_trcl hg h, keys_found word_trcl h hn h2 h3 hk.1]
  have e : p.tail b ++ paramsText r = b ++ (t ++ (p.gap ++ paramsText r)) := by
    unfold Param.tail
    rw [hv]
    simp [PVal.text, Tr.text]
  rw [e, hdrop]
  simp only [Option.map_some]
  rw [searchNum_ok (fun c hc => (gap_quiet hb' c hc).1) hnum (sep_stop hsep)]
  dsimp only
  rw [if_neg (by
    intro h0
    rcases List.mem_append.mp h0 with h0 | h0
    · exact (gap_noparen hb').1 h0
    · exact (digits_noparen hk.2).1 h0), pyInt_digits hk.2]
  rfl

theorem words_length {P : Prop} {w : Words} (hn : ∀ x ∈ w, Number P x.1) : w.length ≤ (wordsText w).length := by
  induction w with
  | nil => simp
  | cons x w ih =>
    have h1 := ih (fun y hy => hn y (List.mem_cons_of_mem _ hy))
    have h2 := List.length_pos_of_ne_nil (number_ne (hn x List.mem_cons_self))
    rw [wordsText_cons]
    simp only [List.length_cons, List.length_append]
    omega

theorem raw_exists (F : Arith V) (hF : ∀ t, Number False t → ∃ v, F.flt t = some v) {w : Words} (h : ∀ x ∈ w, Number False x.1) :
    ∃ raw, (w.map (·.1)).mapM F.flt = some raw := by
  induction w with
  | nil => exact ⟨[], rfl⟩
  | cons x w ih =>
    obtain ⟨raw, hr⟩ := ih (fun y hy => h y (List.mem_cons_of_mem _ hy))
    obtain ⟨v, hv⟩ := hF _ (h x List.mem_cons_self)
    exact ⟨v :: raw, by rw [List.map_cons, List.mapM_cons, hv, hr]; rfl⟩

theorem getTrcl_entries (F : Arith V) (hF : ∀ t, Number False t → ∃ v, F.flt t = some v) {g : List Char} (hg : Gap g) {l r : List Param} {p : Param} (h : NiceAll (l ++ p :: r))
    (hn : ∀ q ∈ l, ¬ Ends ['t', 'r', 'c', 'l'] q) {o : List Char} {w : Words} (hv : p.val = .trcl (.entries o w)) :
    ∃ v, getTrcl F (g ++ paramsText (l ++ p :: r)) = .ok (some (.list v)) ∧ F.entries p.star w v := by
  have hp : Nice p := h.nice p (by simp)
  obtain ⟨a, b, h2, h3, h4⟩ := hp.eq
  have hk : low p.key = ['t', 'r', 'c', 'l'] ∧ Gap o ∧ WordsOk True w := by
    have := hp.val
    unfold Param.ValOk at this
    rw [hv] at this
    exact this
  obtain ⟨hk, ho, hw⟩ := hk
  obtain ⟨raw, hraw⟩ := raw_exists F hF (fun x hx => number_weaken (hw.number x hx))
  obtain ⟨b', hb', hdrop⟩ := drop_gap h4 (x := '(' :: (o ++ (wordsText w ++ ')' :: (p.gap ++ paramsText r)))) (by simp)
  have e : p.tail b ++ paramsText r = b ++ '(' :: (o ++ (wordsText w ++ ')' :: (p.gap ++ paramsText r))) := by
    unfold Param.tail
    rw [hv]
    simp [PVal.text, Tr.text, parens]
  have hq : ∀ c ∈ b' ++ '(' :: o, Quiet c ∧ c ≠ ')' := by
    intro c hc
    rcases List.mem_append.mp hc with hc | hc
    · exact gap_quiet hb' c hc
    · rcases List.mem_cons.mp hc with rfl | hc
      · unfold Quiet; decide
      · exact gap_quiet ho c hc
  have e2 : b' ++ '(' :: (o ++ (wordsText w ++ ')' :: (p.gap ++ paramsText r))) = (b' ++ '(' :: o) ++ (wordsText w ++ ')' :: (p.gap ++ paramsText r)) := by simp
  have hsearch : ∃ n q, searchNum ((b' ++ '(' :: o) ++ (wordsText w ++ ')' :: (p.gap ++ paramsText r))) = some (b' ++ '(' :: o, n, q) := by
    cases hw' : w with
    | nil => exact absurd hw' hw.some
    | cons x w' =>
      have e3 : wordsText (x :: w') ++ ')' :: (p.gap ++ paramsText r) = x.1 ++ (x.2 ++ (wordsText w' ++ ')' :: (p.gap ++ paramsText r))) := by
        rw [wordsText_cons]; simp
      have hsep : Sep (x.2 ++ (wordsText w' ++ ')' :: (p.gap ++ paramsText r))) := by
        refine sep_gap (hw.gap x (by rw [hw']; simp)) (fun h0 => ?_)
        cases w' with
        | nil =>
          intro c hc
          cases Option.some.inj hc
          simp
        | cons y w'' => exact absurd h0 (hw.apart x (by rw [hw']; simp))
      rw [e3]
      exact ⟨_, _, searchNum_ok (fun c hc => (hq c hc).1) (hw.number x (by rw [hw']; simp)) (sep_stop hsep)⟩
  obtain ⟨n, q, hsearch⟩ := hsearch
  have hloop := entriesLoop_ok F (r := p.gap ++ paramsText r) hw.number hw.gap hw.apart hraw (b' ++ '(' :: o)
    (((b' ++ '(' :: o) ++ (wordsText w ++ ')' :: (p.gap ++ paramsText r))).length + 1) hq (by
      have := words_length hw.number
      simp only [List.length_append, List.length_cons]
      omega)
  refine ⟨_, ?_, raw, hraw, rfl⟩
  unfold getTrcl
  rw [gap_skip word_trcl hg h, keys_found word_trcl h hn h2 h3 hk, e, hdrop, e2]
  simp only [Option.map_some]
  rw [hsearch]
  dsimp only
  rw [if_pos (by simp), hloop, starred_ok hg h]
  simp only [toCosines_eq]
  rfl

/-! ## FILL -/

theorem getFill_none (F : Arith V) {g : List Char} (hg : Gap g) {ps : List Param} (h : NiceAll ps) (hn : ∀ p ∈ ps, ¬ Ends ['f', 'i', 'l', 'l'] p) :
    getFill F (g ++ paramsText ps) = .ok (none, none) := by
  unfold getFill
  rw [gap_skip word_fill hg h, keys_none word_fill h hn]
  rfl

theorem params_noparen {ps : List Param} (h : NiceAll ps) (hv : ∀ p ∈ ps, '(' ∉ p.val.text) : '(' ∉ paramsText ps := by
  intro h0
  obtain ⟨p, hp, h0⟩ := List.mem_flatMap.mp h0
  have hp' := h.nice p hp
  obtain ⟨a, b, h2, h3, h4⟩ := hp'.eq
  rw [Param.text_eq h2] at h0
  unfold Param.tail Param.starText at h0
  simp only [List.mem_append, List.mem_cons] at h0
  rcases h0 with h0 | h0 | h0 | h0 | h0 | h0 | h0
  · split at h0
    · exact absurd (List.mem_singleton.mp h0) (by decide)
    · cases h0
  · exact ((key_chars hp'.val).2 _ h0).2.2.2.2.1 rfl
  · exact absurd (h3 _ h0) (by decide)
  · exact absurd h0 (by decide)
  · exact (gap_noparen h4).1 h0
  · exact hv p hp h0
  · exact (gap_noparen hp'.gap).1 h0

theorem getFill_plain (F : Arith V) {g : List Char} (hg : Gap g) {l r : List Param} {p : Param} (h : NiceAll (l ++ p :: r))
    (hn : ∀ q ∈ l, ¬ Ends ['f', 'i', 'l', 'l'] q) {t : List Char} (hv : p.val = .fill t none) (hr : ∀ q ∈ r, '(' ∉ q.val.text) :
    getFill F (g ++ paramsText (l ++ p :: r)) = .ok (some (value t), none) := by
  have hp : Nice p := h.nice p (by simp)
  obtain ⟨a, b, h2, h3, h4⟩ := hp.eq
  have hk : low p.key = ['f', 'i', 'l', 'l'] ∧ Digits t := by
    have := hp.val
    unfold Param.ValOk at this
    rw [hv] at this
    exact ⟨this.1, this.2.1⟩
  have hnum : Number True t := number_digits True hk.2
  have hsep := sep_params (niceAll_right h)
  obtain ⟨b', hb', hdrop⟩ := drop_gap h4 (x := t ++ (p.gap ++ paramsText r)) (number_first hnum _)
  unfold getFill
  rw [gap_skip word_fill hg h, keys_found word_fill h hn h2 h3 hk.1]
  have e : p.tail b ++ paramsText r = b ++ (t ++ (p.gap ++ paramsText r)) := by
    unfold Param.tail
    rw [hv]
    simp [PVal.text]
  rw [e, hdrop]
  simp only [Option.map_some]
  rw [searchNum_ok (fun c hc => (gap_quiet hb' c hc).1) hnum (sep_stop hsep)]
  dsimp only
  rw [pyInt_digits hk.2]
  dsimp only
  rw [if_neg]
  simp only [List.mem_append]
  rintro (h0 | h0 | h0 | h0)
  · exact (gap_noparen hb').1 h0
  · exact (digits_noparen hk.2).1 h0
  · exact (gap_noparen hp.gap).1 h0
  · exact params_noparen (niceAll_right h).tail hr h0

/-! ### words -/

theorem splitAux_word {t : List Char} (h : ∀ c ∈ t, isWhite c = false) (cur s : List Char) : pySplitAux cur (t ++ s) = pySplitAux (cur ++ t) s := by
  induction t generalizing cur with
  | nil => simp
  | cons c t ih =>
    rw [List.cons_append]
    conv => lhs; unfold pySplitAux
    rw [if_neg (by rw [h c List.mem_cons_self]; decide), ih (fun x hx => h x (List.mem_cons_of_mem _ hx))]
    simp

theorem splitAux_gap {g : List Char} (h : ∀ c ∈ g, isWhite c = true) (s : List Char) : pySplitAux [] (g ++ s) = pySplitAux [] s := by
  induction g with
  | nil => rfl
  | cons c g ih =>
    rw [List.cons_append]
    conv => lhs; unfold pySplitAux
    rw [if_pos (h c List.mem_cons_self), if_pos rfl, ih (fun x hx => h x (List.mem_cons_of_mem _ hx))]

/-- a word followed by white space or nothing -/
theorem split_word {t s : List Char} (h : ∀ c ∈ t, isWhite c = false) (hne : t ≠ []) (hs : ∀ c, s.head? = some c → isWhite c = true) :
    pySplit (t ++ s) = t :: pySplit s := by
  unfold pySplit
  rw [splitAux_word h, List.nil_append]
  cases s with
  | nil => simp [pySplitAux, hne]
  | cons c s =>
    conv => lhs; unfold pySplitAux
    rw [if_pos (hs c rfl), if_neg hne]
    conv => rhs; unfold pySplitAux
    rw [if_pos (hs c rfl), if_pos rfl]

theorem split_gap {g : List Char} (h : ∀ c ∈ g, isWhite c = true) (s : List Char) : pySplit (g ++ s) = pySplit s := splitAux_gap h s

theorem gap_white {g : List Char} (h : Gap g) : ∀ c ∈ g, isWhite c = true := by
  intro c hc
  rcases gap_mem h c hc with rfl | rfl <;> decide

theorem numChar_white {c : Char} (h : NumChar c) : isWhite c = false := by
  have := numChar_ne h
  unfold isWhite
  simp [this.2.1, this.2.2.1]

theorem split_words {P : Prop} {w : Words} (hn : ∀ x ∈ w, Number P x.1) (hg : ∀ x ∈ w, Gap x.2) (ha : ∀ x ∈ w.dropLast, x.2 ≠ []) :
    pySplit (wordsText w) = w.map (·.1) := by
  induction w with
  | nil => rfl
  | cons x w ih =>
    have h1 := ih (fun y hy => hn y (List.mem_cons_of_mem _ hy)) (fun y hy => hg y (List.mem_cons_of_mem _ hy))
      (fun y hy => ha y (by
        cases w with
        | nil => simp at hy
        | cons z w => exact List.mem_cons_of_mem _ hy))
    rw [wordsText_cons, split_word (fun c hc => numChar_white (number_mem (hn x List.mem_cons_self) c hc)) (number_ne (hn x List.mem_cons_self)),
      split_gap (gap_white (hg x List.mem_cons_self)), h1]
    · rfl
    · intro c hc
      cases hx : x.2 with
      | nil =>
        cases w with
        | nil => rw [hx, wordsText_nil] at hc; cases hc
        | cons y w => exact absurd hx (ha x (by simp))
      | cons d g =>
        rw [hx] at hc
        cases Option.some.inj hc
        exact gap_white (hg x List.mem_cons_self) _ (by rw [hx]; simp)

theorem floats_ok (F : Arith V) {ts : List (List Char)} {raw : List V} (h : ts.mapM F.flt = some raw) : floats F ts = .ok raw := by
  induction ts generalizing raw with
  | nil =>
    simp only [List.mapM_nil, Option.pure_def, Option.some.injEq] at h
    rw [← h]
    rfl
  | cons t ts ih =>
    rw [List.mapM_cons] at h
    cases hx : F.flt t with
    | none => rw [hx] at h; simp at h
    | some v =>
      cases hw : ts.mapM F.flt with
      | none => rw [hx, hw] at h; simp at h
      | some vs =>
        rw [hx, hw] at h
        simp only [Option.pure_def, Option.bind_eq_bind, Option.bind_some, Option.some.injEq] at h
        subst h
        have h3 : pyFloat F t = .ok v := by unfold pyFloat; rw [hx]
        unfold floats
        rw [h3, ih hw]
        rfl

theorem dropWhile_to {c : Char} {u s : List Char} (h : c ∉ u) : (u ++ c :: s).dropWhile (· ≠ c) = c :: s ∧ (u ++ c :: s).takeWhile (· ≠ c) = u := by
  induction u with
  | nil => simp [List.dropWhile_cons, List.takeWhile_cons]
  | cons x u ih =>
    have hx : x ≠ c := fun h0 => h (by rw [h0]; simp)
    obtain ⟨h1, h2⟩ := ih (fun h0 => h (List.mem_cons_of_mem _ h0))
    rw [List.cons_append, List.dropWhile_cons, List.takeWhile_cons, if_pos (by simpa using hx), if_pos (by simpa using hx), h1, h2]
    exact ⟨rfl, rfl⟩

theorem words_noparen {P : Prop} {w : Words} (hn : ∀ x ∈ w, Number P x.1) (hg : ∀ x ∈ w, Gap x.2) : ')' ∉ wordsText w := by
  intro h0
  obtain ⟨x, hx, h0⟩ := List.mem_flatMap.mp h0
  rcases List.mem_append.mp h0 with h0 | h0
  · exact (numChar_ne (number_mem (hn x hx) _ h0)).2.2.2.2.1 rfl
  · exact (gap_noparen (hg x hx)).2 h0

theorem getFill_tr (F : Arith V) (hF : ∀ t, Number False t → ∃ v, F.flt t = some v) {g : List Char} (hg : Gap g) {l r : List Param} {p : Param} (h : NiceAll (l ++ p :: r))
    (hn : ∀ q ∈ l, ¬ Ends ['f', 'i', 'l', 'l'] q) {t s o : List Char} {w : Words} (hv : p.val = .fill t (some (s, o, w))) :
    ∃ v, getFill F (g ++ paramsText (l ++ p :: r)) = .ok (some (value t), some v) ∧
      if w.length = 1 then ∀ x ∈ w, v = .number (value x.1) else ∃ k, v = .list k ∧ F.entries p.star w k := by
  have hp : Nice p := h.nice p (by simp)
  obtain ⟨a, b, h2, h3, h4⟩ := hp.eq
  have hk : low p.key = ['f', 'i', 'l', 'l'] ∧ Digits t ∧ Gap s ∧ Gap o ∧ WordsOk False w ∧ (w.length = 1 → ∀ y ∈ w, Digits y.1) := by
    have := hp.val
    unfold Param.ValOk at this
    rw [hv] at this
    exact ⟨this.1, this.2.1, this.2.2 _ rfl⟩
  obtain ⟨hk, hd, hs, ho, hw, h1w⟩ := hk
  have hnum : Number True t := number_digits True hd
  obtain ⟨b', hb', hdrop⟩ := drop_gap h4 (x := t ++ (s ++ '(' :: (o ++ wordsText w ++ ')' :: (p.gap ++ paramsText r)))) (number_first hnum _)
  have e : p.tail b ++ paramsText r = b ++ (t ++ (s ++ '(' :: (o ++ wordsText w ++ ')' :: (p.gap ++ paramsText r)))) := by
    unfold Param.tail
    rw [hv]
    simp [PVal.text, parens]
  have hsep : Sep (s ++ '(' :: (o ++ wordsText w ++ ')' :: (p.gap ++ paramsText r))) := by
    refine sep_gap hs (fun _ => ?_)
    intro c hc
    cases Option.some.inj hc
    simp
  have e2 : b' ++ (t ++ (s ++ '(' :: (o ++ wordsText w ++ ')' :: (p.gap ++ paramsText r)))) = (b' ++ (t ++ s)) ++ '(' :: (o ++ wordsText w ++ ')' :: (p.gap ++ paramsText r)) := by simp
  have hno : '(' ∉ b' ++ (t ++ s) := by
    simp only [List.mem_append]
    rintro (h0 | h0 | h0)
    · exact (gap_noparen hb').1 h0
    · exact (digits_noparen hd).1 h0
    · exact (gap_noparen hs).1 h0
  have hnc : ')' ∉ o ++ wordsText w := by
    intro h0
    rcases List.mem_append.mp h0 with h0 | h0
    · exact (gap_noparen ho).2 h0
    · exact words_noparen hw.number hw.gap h0
  have hstart : getFill F (g ++ paramsText (l ++ p :: r)) = (if (w.map (·.1)).length = 1 then do
              let k ← pyInt ((w.map (·.1)).headD [])
              .ok (some (value t : Int), some (.number k))
            else do
              let l ← floats F (w.map (·.1))
              .ok (some (value t : Int), some (.list (toCosines F p.star l)))) := by
    unfold getFill
    rw [gap_skip word_fill hg h, keys_found word_fill h hn h2 h3 hk, e, hdrop]
    simp only [Option.map_some]
    rw [searchNum_ok (fun c hc => (gap_quiet hb' c hc).1) hnum (sep_stop hsep)]
    dsimp only
    rw [pyInt_digits hd]
    dsimp only
    rw [e2, if_pos (by simp), (dropWhile_to hno).1, List.drop_one, List.tail_cons, if_pos (by simp), (dropWhile_to hnc).2, split_gap (gap_white ho),
      split_words hw.number hw.gap hw.apart, starred_ok hg h]
  rw [hstart, List.length_map]
  by_cases h1 : w.length = 1
  · obtain ⟨x, hx⟩ := List.length_eq_one_iff.mp h1
    have hdx := h1w h1 x (by rw [hx]; simp)
    refine ⟨.number (value x.1), ?_, ?_⟩
    · rw [if_pos h1, hx]
      simp only [List.map_cons, List.headD_cons, pyInt_digits hdx]
      rfl
    · rw [if_pos h1]
      intro y hy
      rw [hx] at hy
      rw [List.mem_singleton.mp hy]
  · obtain ⟨raw, hraw⟩ := raw_exists F hF hw.number
    refine ⟨.list (toCosines F p.star raw), ?_, ?_⟩
    · rw [if_neg h1, floats_ok F hraw]
      rfl
    · rw [if_neg h1]
      exact ⟨_, rfl, raw, hraw, toCosines_eq F p.star raw⟩

end Geouned.CellText
