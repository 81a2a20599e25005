import Verif.Text.CharLemmas
/-! The character model of `remove_redundant` follows the token model -/
namespace Geouned.Text

/-- masked parentheses are parentheses -/
def OKI (w : List Item) : Prop := ∀ ts, .block ts ∈ w → ∃ m, ts = .lp :: (m ++ [.rp])

theorem OKI.append {a b : List Item} (ha : OKI a) (hb : OKI b) : OKI (a ++ b) := fun ts h =>
  (List.mem_append.1 h).elim (ha ts) (hb ts)

theorem OKI.sub {a b : List Item} (h : OKI b) (hs : ∀ x ∈ a, x ∈ b) : OKI a := fun ts ht => h ts (hs _ ht)

theorem OKI.masked {left inner right : List Item} (h : OKI inner) : OKI (masked false left inner right) := by
  unfold Text.masked
  split
  · intro ts ht
    simp only [List.mem_cons, List.mem_append, List.not_mem_nil, or_false, reduceCtorEq, false_or] at ht
    exact h ts ht
  · intro ts ht
    simp only [List.mem_singleton, Item.block.injEq] at ht
    exact ⟨_, ht⟩

/-! ### near characters -/

theorem digit_not_skipped {c : Char} (h : c.isDigit = true ∨ c = '-') : skipped c = false := by
  simp only [skipped, Bool.or_eq_false_iff, decide_eq_false_iff_not]
  exact ⟨⟨⟨digit_ne h (by decide) (by decide), digit_ne h (by decide) (by decide)⟩, digit_ne h (by decide) (by decide)⟩,
    digit_ne h (by decide) (by decide)⟩

theorem nearC_digit {p : Char} (hp : p.isDigit = false) (hp' : p ≠ '-') {w : List Char} (hne : w ≠ []) (hw : ∀ c ∈ w, c.isDigit = true ∨ c = '-')
    (r : List Char) : nearC p (w ++ r) = false := by
  cases w with
  | nil => exact absurd rfl hne
  | cons c w =>
    have hc := hw c (by simp)
    simp only [List.cons_append, nearC, digit_not_skipped hc, Bool.false_eq_true, if_false, Bool.or_eq_false_iff, decide_eq_false_iff_not]
    exact ⟨digit_ne hc hp hp', digit_ne hc (by decide) (by decide)⟩

theorem left_renders : ∀ l : List Item, OKI l → nearC '(' (renders l.reverse).reverse = leftOK l
  | [], _ => rfl
  | x :: l, h => by
    have ih := left_renders l (h.sub (by simp +contextual))
    rw [List.reverse_cons, renders_append, renders_cons, renders_nil, List.append_nil, List.reverse_append]
    match x, h with
    | .tok .lp, _ => simp [renderItem, renderTok, nearC, skipped, leftOK]
    | .tok .rp, _ => simp [renderItem, renderTok, nearC, skipped, leftOK]
    | .tok .blank, _ => simp [renderItem, renderTok, nearC, skipped, leftOK, ih]
    | .tok .colon, _ => simp [renderItem, renderTok, nearC, skipped, leftOK]
    | .tok (.num n), _ =>
      simp only [renderItem, renderTok, leftOK]
      refine nearC_digit (by decide) (by decide) ?_ ?_ _
      · simpa using (strInt_word n).1
      · intro c hc
        exact (strInt_word n).2 c (List.mem_reverse.1 hc)
    | .gone _, _ => simp [renderItem, nearC, skipped, leftOK, ih]
    | .block ts, h =>
      obtain ⟨m, rfl⟩ := h ts (by simp)
      simp [renderItem, renderTok, nearC, skipped, leftOK, hide]

theorem right_renders : ∀ l : List Item, OKI l → nearC ')' (renders l) = rightOK l
  | [], _ => rfl
  | x :: l, h => by
    have ih := right_renders l (h.sub (by simp +contextual))
    rw [renders_cons]
    match x, h with
    | .tok .lp, _ => simp [renderItem, renderTok, nearC, skipped, rightOK]
    | .tok .rp, _ => simp [renderItem, renderTok, nearC, skipped, rightOK]
    | .tok .blank, _ => simp [renderItem, renderTok, nearC, skipped, rightOK, ih]
    | .tok .colon, _ => simp [renderItem, renderTok, nearC, skipped, rightOK]
    | .tok (.num n), _ =>
      simp only [renderItem, renderTok, rightOK]
      exact nearC_digit (by decide) (by decide) (strInt_word n).1 (strInt_word n).2 _
    | .gone _, _ => simp [renderItem, nearC, skipped, rightOK, ih]
    | .block ts, h =>
      obtain ⟨m, rfl⟩ := h ts (by simp)
      simp [renderItem, renderTok, nearC, skipped, rightOK, hide]

theorem hide_colon (ts : List Tok) : ':' ∉ (render ts).map hide := by
  intro h
  obtain ⟨d, hd, he⟩ := List.mem_map.1 h
  rcases render_chars ts d hd with rfl | rfl | rfl | rfl | h
  · exact absurd he (by decide)
  · exact absurd he (by decide)
  · exact absurd he (by decide)
  · exact absurd he (by decide)
  · have h1 := digit_ne h (d := '(') (by decide) (by decide)
    have h2 := digit_ne h (d := ')') (by decide) (by decide)
    have h3 := digit_ne h (d := ':') (by decide) (by decide)
    simp only [hide, h1, h2, h3, if_false] at he

theorem colon_renders (w : List Item) : ':' ∈ renders w ↔ .tok .colon ∈ w := by
  induction w with
  | nil => simp
  | cons x w ih =>
    rw [renders_cons, List.mem_append, ih, List.mem_cons]
    have : ':' ∈ renderItem x ↔ .tok .colon = x := by
      match x with
      | .tok .lp => simp [renderItem, renderTok]
      | .tok .rp => simp [renderItem, renderTok]
      | .tok .blank => simp [renderItem, renderTok]
      | .tok .colon => simp [renderItem, renderTok]
      | .tok (.num n) =>
        simp only [renderItem, renderTok, Item.tok.injEq, reduceCtorEq, iff_false]
        intro h
        exact digit_ne ((strInt_word n).2 _ h) (d := ':') (by decide) (by decide) rfl
      | .gone _ => simp [renderItem]
      | .block ts =>
        simp only [renderItem, reduceCtorEq, iff_false]
        exact hide_colon ts
    rw [this]

theorem redundant_renders {left inner right : List Item} (hl : OKI left) (hr : OKI right) :
    redundantC (renders left) (renders inner) (renders right) = redundant left inner right := by
  unfold redundantC redundant
  rw [right_renders right hr]
  have := left_renders left.reverse (hl.sub (by simp))
  rw [List.reverse_reverse] at this
  rw [this]
  by_cases hc : .tok .colon ∈ inner
  · have hc' := (colon_renders inner).2 hc
    simp only [hc, hc', not_true, if_false]
  · have hc' : ':' ∉ renders inner := fun h => hc ((colon_renders inner).1 h)
    simp only [hc, hc', not_false_eq_true, if_true]

theorem hide_inner : ∀ inner : List Item, NoPar inner → (renders inner).map (fun c => if c = ':' then ';' else c) = (render (origs false inner)).map hide
  | [], _ => rfl
  | x :: w, h => by
    have ih := hide_inner w ⟨fun hx => h.1 (.tail _ hx), fun hx => h.2 (.tail _ hx)⟩
    rw [renders_cons, List.map_append, ih, origs_cons, render_append, List.map_append]
    congr 1
    match x, h with
    | .tok .lp, h => exact absurd (by simp) h.1
    | .tok .rp, h => exact absurd (by simp) h.2
    | .tok .blank, _ => simp [renderItem, Item.orig, renderTok, hide]
    | .tok .colon, _ => simp [renderItem, Item.orig, renderTok, hide]
    | .tok (.num n), _ =>
      simp only [renderItem, Item.orig, render_cons, renderTok, render_nil, List.append_nil]
      apply List.map_congr_left
      intro c hc
      have h := (strInt_word n).2 c hc
      have h1 := digit_ne h (d := '(') (by decide) (by decide)
      have h2 := digit_ne h (d := ')') (by decide) (by decide)
      have h3 := digit_ne h (d := ':') (by decide) (by decide)
      simp only [hide, h1, h2, h3, if_false]
    | .gone _, _ => simp [renderItem, Item.orig, renderTok, hide]
    | .block ts, _ =>
      simp only [renderItem, Item.orig]
      conv => rhs; rw [← List.map_id ((render ts).map hide)]
      apply List.map_congr_left
      intro c hc
      have : c ≠ ':' := by rintro rfl; exact hide_colon ts hc
      simp [this]

theorem masked_renders {left inner right : List Item} (hl : OKI left) (hr : OKI right) (hn : NoPar inner) :
    maskedC (renders left) (renders inner) (renders right) = renders (masked false left inner right) := by
  unfold maskedC masked
  rw [redundant_renders hl hr]
  split
  · simp [renderItem]
  · rw [hide_inner inner hn]
    simp [renderItem, renderTok, hide]

theorem pass_renders : ∀ (k : Nat) (done rest : List Item), OKI done → OKI rest →
    passC k (renders done) (renders rest) = renders (pass false k done rest) ∧ OKI (pass false k done rest)
  | 0, done, rest, h1, h2 => by simp [passC, pass, h1.append h2]
  | k + 1, done, rest, h1, h2 => by
    unfold passC pass
    rw [findC_renders]
    cases hf : findInner rest with
    | none => simp [h1.append h2]
    | some q =>
      obtain ⟨pre, inner, post⟩ := q
      obtain ⟨rfl, hn⟩ := findInner_some hf
      simp only [Option.map_some]
      have hp : OKI pre := h2.sub (by simp +contextual)
      have hi : OKI inner := h2.sub (by simp +contextual)
      have hq : OKI post := h2.sub (by simp +contextual)
      rw [← renders_append, masked_renders (h1.append hp) hq hn, ← renders_append]
      exact pass_renders k _ _ ((h1.append hp).append hi.masked) hq

/-! ### the number of rounds allowed does not matter -/

theorem pass_fuel {keep : Bool} : ∀ (k k' : Nat) (done rest : List Item), lpc rest ≤ k → lpc rest ≤ k' → pass keep k done rest = pass keep k' done rest := by
  have key : ∀ (done rest : List Item) (k : Nat), lpc rest = 0 → pass keep k done rest = done ++ rest := by
    intro done rest k h
    cases k with
    | zero => rfl
    | succ k =>
      unfold pass
      split
      · rfl
      · next hf =>
        obtain ⟨rfl, -⟩ := findInner_some hf
        simp [lpc_cons] at h
  intro k
  induction k with
  | zero =>
    intro k' done rest h _
    rw [key _ _ _ (by omega), key _ _ _ (by omega)]
  | succ k ih =>
    intro k' done rest h h'
    cases k' with
    | zero => rw [key _ _ _ (by omega), key _ _ _ (by omega)]
    | succ k' =>
      unfold pass
      split
      · rfl
      · next hf =>
        obtain ⟨rfl, -⟩ := findInner_some hf
        simp [lpc_cons] at h h'
        exact ih _ _ _ (by omega) (by omega)

theorem lpc_le (w : List Item) : lpc w ≤ w.length := List.count_le_length

theorem lpc_renders : ∀ w : List Item, lpc w ≤ (renders w).length
  | [] => by simp
  | x :: w => by
    have := lpc_renders w
    rw [lpc_cons, renders_cons, List.length_append]
    split
    · next h => subst h; simp [renderItem, renderTok]; omega
    · omega

theorem findInner_pos {w : List Item} (h : (findInner w).isNone = false) : 0 < lpc w := by
  cases hf : findInner w with
  | none => simp [hf] at h
  | some q =>
    obtain ⟨rfl, -⟩ := findInner_some (show findInner w = some (q.1, q.2.1, q.2.2) from hf)
    simp [lpc_cons]; omega

theorem passes_renders : ∀ (k k' : Nat) (w : List Item), OKI w → lpc w < k → lpc w < k' →
    passesC k (renders w) = renders (passes false k' w)
  | 0, _, _, _, h, _ => by omega
  | _, 0, _, _, _, h => by omega
  | k + 1, k' + 1, w, hw, h, h' => by
    unfold passesC passes
    have e : (findC (renders w)).isNone = (findInner w).isNone := by rw [findC_renders]; simp
    rw [e]
    split
    · rfl
    · next hf =>
      have hf' : (findInner w).isNone = false := by
        cases hx : (findInner w).isNone
        · rfl
        · exact absurd hx hf
      have hp := pass_renders (renders w).length [] w (by intro ts h; simp at h) hw
      rw [renders_nil] at hp
      rw [hp.1]
      have e2 := pass_fuel (keep := false) (renders w).length w.length [] w (lpc_renders w) (lpc_le w)
      have hpos := findInner_pos hf'
      have hlt : lpc (pass false (renders w).length [] w) < lpc w := by
        have hr := lpc_renders w
        obtain ⟨m, hm⟩ : ∃ m, (renders w).length = m + 1 := ⟨(renders w).length - 1, by omega⟩
        rw [hm]
        exact lpc_pass_lt hf'
      rw [← e2]
      exact passes_renders k k' _ hp.2 (by omega) (by omega)

theorem reverse_render (ts : List Tok) : ((render ts).map hide).map reverseRepl = render ts := by
  rw [List.map_map]
  conv => rhs; rw [← List.map_id (render ts)]
  apply List.map_congr_left
  intro c hc
  rcases render_chars ts c hc with rfl | rfl | rfl | rfl | h
  · decide
  · decide
  · decide
  · decide
  · have h1 := digit_ne h (d := '(') (by decide) (by decide)
    have h2 := digit_ne h (d := ')') (by decide) (by decide)
    have h3 := digit_ne h (d := ':') (by decide) (by decide)
    have h4 := digit_ne h (d := '[') (by decide) (by decide)
    have h5 := digit_ne h (d := ']') (by decide) (by decide)
    have h6 := digit_ne h (d := ';') (by decide) (by decide)
    simp [hide, reverseRepl, h1, h2, h3, h4, h5, h6]

theorem reverse_tok (t : Tok) : (renderTok t).map reverseRepl = renderTok t := by
  cases t with
  | lp => decide
  | rp => decide
  | colon => decide
  | blank => decide
  | num n =>
    conv => rhs; rw [← List.map_id (renderTok (.num n))]
    apply List.map_congr_left
    intro c hc
    have h := (strInt_word n).2 c hc
    have h4 := digit_ne h (d := '[') (by decide) (by decide)
    have h5 := digit_ne h (d := ']') (by decide) (by decide)
    have h6 := digit_ne h (d := ';') (by decide) (by decide)
    simp [reverseRepl, h4, h5, h6]

theorem reverse_renders (w : List Item) : (renders w).map reverseRepl = render (origs false w) := by
  induction w with
  | nil => rfl
  | cons x w ih =>
    rw [renders_cons, List.map_append, ih, origs_cons, render_append]
    congr 1
    cases x with
    | tok t => simpa [renderItem, Item.orig] using reverse_tok t
    | gone t => simp [renderItem, Item.orig, renderTok, reverseRepl]
    | block ts => exact reverse_render ts

/-- on the characters `remove_redundant` does what it does on the tokens -/
theorem removeRedundantC_render (ts : List Tok) : removeRedundantC (render ts) = render (removeRedundant ts) := by
  unfold removeRedundantC removeRedundant mask
  have h0 : OKI (ts.map .tok) := by intro t h; simp at h
  have h1 := lpc_renders (ts.map .tok)
  have h2 := lpc_le (ts.map .tok)
  rw [renders_tok] at h1
  rw [List.length_map] at h2
  have := passes_renders ((render ts).length + 1) (ts.length + 1) (ts.map .tok) h0 (by omega) (by omega)
  rw [renders_tok] at this
  rw [this, reverse_renders]

/-! ### the writer -/

theorem join_render (sep : List Tok) : ∀ l : List (List Tok), join (render sep) (l.map render) = render (join sep l)
  | [] => rfl
  | [t] => rfl
  | t :: t' :: ts => by
    have := join_render sep (t' :: ts)
    simp only [List.map_cons] at this ⊢
    simp only [join, this, render_append]

theorem level0_render : ∀ es : List Seq, level0Terms charStyle es = (level0Terms mcnpStyle es).map (List.map render)
  | [] => rfl
  | .int n :: es => by
    have := level0_render es
    simp only [level0Terms, this, bind, Except.bind]
    cases level0Terms mcnpStyle es <;> simp [Except.map, charStyle, mcnpStyle, renderTok]
  | .boo _ _ _ :: _ => rfl
  | .lst _ _ _ :: _ => rfl

theorem sep_render (op : Op) : charStyle.sep op = render (mcnpStyle.sep op) := by cases op <;> rfl

theorem writeSeq_render : ∀ (f : Nat) (s : Seq), writeSeq charStyle f s = (writeSeq mcnpStyle f s).map render
  | 0, _ => rfl
  | _ + 1, .int _ => rfl
  | _ + 1, .boo _ _ _ => rfl
  | f + 1, .lst op l es => by
    have ih := writeSeq_render f
    have loop : ∀ es : List Seq, termsLoop charStyle (writeSeq charStyle f) es = (termsLoop mcnpStyle (writeSeq mcnpStyle f) es).map (List.map render) := by
      intro es
      induction es with
      | nil => rfl
      | cons e es ihl =>
        cases e with
        | int n =>
          simp only [termsLoop, ihl, bind, Except.bind]
          cases termsLoop mcnpStyle (writeSeq mcnpStyle f) es <;> simp [Except.map, charStyle, mcnpStyle, renderTok]
        | boo o l b =>
          simp only [termsLoop, ih, ihl, bind, Except.bind]
          cases writeSeq mcnpStyle f (.boo o l b) <;> simp only [Except.map]
          cases termsLoop mcnpStyle (writeSeq mcnpStyle f) es <;> simp
        | lst o l xs =>
          simp only [termsLoop, ih, ihl, bind, Except.bind]
          cases writeSeq mcnpStyle f (.lst o l xs) <;> simp only [Except.map]
          cases termsLoop mcnpStyle (writeSeq mcnpStyle f) es <;> simp
    unfold writeSeq
    split
    · rw [level0_render]
      simp only [bind, Except.bind]
      cases level0Terms mcnpStyle es with
      | error e => rfl
      | ok ts =>
        simp only [Except.map, sep_render, join_render]
        simp [charStyle, mcnpStyle, renderTok]
    · rw [loop]
      simp only [bind, Except.bind]
      cases termsLoop mcnpStyle (writeSeq mcnpStyle f) es with
      | error e => rfl
      | ok ts =>
        simp only [Except.map, sep_render, join_render]
        simp [charStyle, mcnpStyle, renderTok]

/-! ### words of a rendered text -/

/-- no two numbers stand next to each other -/
def NoAdj : List Bool → Prop
  | true :: true :: _ => False
  | _ :: w => NoAdj w
  | [] => True

def isNum : Tok → Bool
  | .num _ => true
  | _ => false

theorem noAdj_cons {b : Bool} {w : List Bool} (h : NoAdj (b :: w)) : NoAdj w := by
  cases w with
  | nil => trivial
  | cons c w => cases b <;> cases c <;> simp_all [NoAdj]

theorem noAdj_append {a b : List Bool} (ha : NoAdj a) (hb : NoAdj b) (h : a.getLast? = some true → b.head? = some true → False) : NoAdj (a ++ b) := by
  induction a with
  | nil => exact hb
  | cons x a ih =>
    have ih := ih (noAdj_cons ha) (fun h1 h2 => h (by cases a with | nil => simp at h1 | cons y a => rw [List.getLast?_cons_cons]; exact h1) h2)
    cases a with
    | nil =>
      cases x
      · simpa [NoAdj] using hb
      · cases b with
        | nil => trivial
        | cons y b =>
          cases y
          · simpa [NoAdj] using hb
          · exact (h rfl rfl).elim
    | cons y a =>
      cases x <;> cases y <;> simp_all [NoAdj]

theorem word_sep {w : List Char} (hne : w ≠ []) (hw : ∀ c ∈ w, Wrap.isSep c = false) (r : List Char) (hr : ∀ c, r.head? = some c → Wrap.isSep c = true) :
    ∀ cur, Wrap.wordsFrom cur (w ++ r) = (cur ++ w) :: Wrap.wordsFrom [] r := by
  induction w with
  | nil => exact absurd rfl hne
  | cons c w ih =>
    intro cur
    have hc := hw c (by simp)
    rw [List.cons_append, Wrap.wf_word _ hc]
    cases w with
    | nil =>
      cases r with
      | nil => simp [Wrap.wordsFrom, Wrap.flush]
      | cons d r =>
        have hd := hr d rfl
        rw [List.nil_append, Wrap.wf_sep _ hd]
        simp [Wrap.flush]
    | cons d w =>
      rw [ih (by simp) (fun x hx => hw x (by simp at hx ⊢; exact .inr hx))]
      simp

theorem strInt_sep (n : Int) : ∀ c ∈ strInt n, Wrap.isSep c = false := by
  intro c hc
  have h := (strInt_word n).2 c hc
  simp only [Wrap.isSep, Wrap.special, Bool.or_eq_false_iff, decide_eq_false_iff_not]
  refine ⟨?_, ⟨digit_ne h (by decide) (by decide), digit_ne h (by decide) (by decide)⟩, digit_ne h (by decide) (by decide)⟩
  simp only [Char.isWhitespace, Bool.or_eq_false_iff, decide_eq_false_iff_not]
  refine ⟨⟨⟨?_, ?_⟩, ?_⟩, ?_⟩
  · exact digit_ne h (by decide) (by decide)
  · exact digit_ne h (by decide) (by decide)
  · exact digit_ne h (by decide) (by decide)
  · exact digit_ne h (by decide) (by decide)

theorem tokensOf_render : ∀ ts : List Tok, NoAdj (ts.map isNum) → tokensOf (Wrap.wordsOf (render ts)) = some (solid ts)
  | [], _ => rfl
  | t :: ts, h => by
    have ih := tokensOf_render ts (noAdj_cons h)
    unfold Wrap.wordsOf at ih ⊢
    rw [render_cons]
    cases t with
    | lp =>
      simp only [renderTok, List.cons_append, List.nil_append]
      rw [Wrap.wf_special _ (by decide)]
      simp [tokensOf, tokOf, ih, solid]
    | rp =>
      simp only [renderTok, List.cons_append, List.nil_append]
      rw [Wrap.wf_special _ (by decide)]
      simp [tokensOf, tokOf, ih, solid]
    | colon =>
      simp only [renderTok, List.cons_append, List.nil_append]
      rw [Wrap.wf_special _ (by decide)]
      simp [tokensOf, tokOf, ih, solid]
    | blank =>
      simp only [renderTok, List.cons_append, List.nil_append]
      rw [Wrap.wf_ws _ (by decide)]
      simpa [solid] using ih
    | num n =>
      simp only [renderTok]
      rw [word_sep (strInt_word n).1 (strInt_sep n)]
      · simp only [List.nil_append, tokensOf, tokOf_strInt, ih]
        simp [solid]
      · intro c hc
        cases ts with
        | nil => simp at hc
        | cons u ts =>
          cases u with
          | num m => simp [isNum, NoAdj] at h
          | lp => simp [renderTok] at hc; subst hc; decide
          | rp => simp [renderTok] at hc; subst hc; decide
          | colon => simp [renderTok] at hc; subst hc; decide
          | blank => simp [renderTok] at hc; subst hc; decide

/-! ### in what is written no two numbers stand next to each other -/

theorem masked_isNum (left inner right : List Item) :
    (origs false (masked false left inner right)).map isNum = (origs false (.tok .lp :: (inner ++ [.tok .rp]))).map isNum := by
  unfold masked
  split <;> simp [origs, Item.orig, isNum]

theorem pass_isNum : ∀ (k : Nat) (done rest : List Item),
    (origs false (pass false k done rest)).map isNum = (origs false (done ++ rest)).map isNum
  | 0, done, rest => rfl
  | k + 1, done, rest => by
    unfold pass
    split
    · rfl
    · next pre inner post hf =>
      obtain ⟨rfl, -⟩ := findInner_some hf
      rw [pass_isNum]
      have := masked_isNum (done ++ pre) inner post
      simp only [origs_append, origs_cons, List.map_append] at this ⊢
      rw [this]
      simp [origs, Item.orig, isNum]

theorem passes_isNum : ∀ (k : Nat) (w : List Item), (origs false (passes false k w)).map isNum = (origs false w).map isNum
  | 0, w => rfl
  | k + 1, w => by
    unfold passes
    split
    · rfl
    · rw [passes_isNum, pass_isNum]; rfl

theorem removeRedundant_isNum (ts : List Tok) : (removeRedundant ts).map isNum = ts.map isNum := by
  unfold removeRedundant mask
  rw [passes_isNum, origs_map_tok]

theorem noAdj_false_cons {w : List Bool} (h : NoAdj w) : NoAdj (false :: w) := by simpa [NoAdj] using h

/-- the texts of the writer, at every rank -/
theorem noAdj_ok (σ : Side) : StyleOK mcnpStyle σ (fun _ t _ => NoAdj (t.map isNum)) where
  num n _ := by simp [mcnpStyle, isNum, NoAdj]
  one h := h
  single h := h
  paren {t b} h := by
    simp only [mcnpStyle, List.map_cons, List.map_append, List.map_nil, isNum]
    exact noAdj_false_cons (noAdj_append h (by simp [NoAdj]) (by simp))
  and {t u b c} h1 h2 := by
    simp only [mcnpStyle, List.map_cons, List.map_append, List.map_nil, isNum]
    exact noAdj_append h1 (by simpa using noAdj_false_cons h2) (by simp)
  or {t u b c} h1 h2 := by
    simp only [mcnpStyle, List.map_cons, List.map_append, List.map_nil, isNum]
    exact noAdj_append h1 (by simpa using noAdj_false_cons h2) (by simp)

/-- there are no blanks in a text without blanks -/
theorem Reads.solid_eq {σ r t b} (h : Reads σ r t b) : solid t = t := by
  induction h with
  | num n h => rfl
  | paren _ ih => simp [solid_cons, ih]
  | one _ ih => exact ih
  | and _ _ ih1 ih2 => simp [ih1, ih2]
  | single _ ih => exact ih
  | or _ _ ih1 ih2 => simp [solid_cons, ih1, ih2]

/-- no word of a rendered text ends with a minus sign -/
theorem words_render : ∀ ts : List Tok, NoAdj (ts.map isNum) → ∀ w ∈ Wrap.wordsOf (render ts), w.getLast? ≠ some '-'
  | [], _ => by simp [Wrap.wordsOf, Wrap.wordsFrom, Wrap.flush]
  | t :: ts, h => by
    have ih := words_render ts (noAdj_cons h)
    unfold Wrap.wordsOf at ih ⊢
    rw [render_cons]
    cases t with
    | lp =>
      simp only [renderTok, List.cons_append, List.nil_append]
      rw [Wrap.wf_special _ (by decide)]
      intro w hw
      simp only [Wrap.flush_nil, List.nil_append, List.mem_cons] at hw
      rcases hw with rfl | hw
      · decide
      · exact ih w hw
    | rp =>
      simp only [renderTok, List.cons_append, List.nil_append]
      rw [Wrap.wf_special _ (by decide)]
      intro w hw
      simp only [Wrap.flush_nil, List.nil_append, List.mem_cons] at hw
      rcases hw with rfl | hw
      · decide
      · exact ih w hw
    | colon =>
      simp only [renderTok, List.cons_append, List.nil_append]
      rw [Wrap.wf_special _ (by decide)]
      intro w hw
      simp only [Wrap.flush_nil, List.nil_append, List.mem_cons] at hw
      rcases hw with rfl | hw
      · decide
      · exact ih w hw
    | blank =>
      simp only [renderTok, List.cons_append, List.nil_append]
      rw [Wrap.wf_ws _ (by decide)]
      simpa using ih
    | num n =>
      simp only [renderTok]
      rw [word_sep (strInt_word n).1 (strInt_sep n)]
      · intro w hw
        rcases List.mem_cons.1 hw with rfl | hw
        · rw [List.nil_append]
          intro hl
          have hd : ∀ k : Nat, ∀ c, (Nat.toDigits 10 k).getLast? = some c → c.isDigit = true := fun k c hc =>
            Nat.isDigit_of_mem_toDigits (by decide) (by decide) (List.mem_of_getLast? hc)
          unfold strInt at hl
          split at hl
          · cases hx : Nat.toDigits 10 n.natAbs with
            | nil => exact Nat.toDigits_ne_nil hx
            | cons c w =>
              rw [hx, List.getLast?_cons_cons, ← hx] at hl
              exact absurd (hd _ _ hl) (by decide)
          · exact absurd (hd _ _ hl) (by decide)
        · exact ih w hw
      · intro c hc
        cases ts with
        | nil => simp at hc
        | cons u ts =>
          cases u with
          | num m => simp [isNum, NoAdj] at h
          | lp => simp [renderTok] at hc; subst hc; decide
          | rp => simp [renderTok] at hc; subst hc; decide
          | colon => simp [renderTok] at hc; subst hc; decide
          | blank => simp [renderTok] at hc; subst hc; decide

end Geouned.Text
