import Verif.OmcFile.XmlSpec
import Verif.Text.CharProps
/-! # Lemmas for the OpenMC files: texts of regions -/
namespace Geouned.OmcFile

open Geouned.Text

/-! ## styles -/

section
variable {α β : Type} {st : Style α} {st' : Style β} {g : α → List β}

/-- one style is another one, symbol by symbol -/
structure Finer (st : Style α) (st' : Style β) (g : α → List β) : Prop where
  num : ∀ n, st'.num n = (st.num n).flatMap g
  sep : ∀ op, st'.sep op = (st.sep op).flatMap g
  lp : g st.lp = [st'.lp]
  rp : g st.rp = [st'.rp]

theorem join_flat (sep : List α) : ∀ l : List (List α), join (sep.flatMap g) (l.map (·.flatMap g)) = (join sep l).flatMap g
  | [] => rfl
  | [t] => rfl
  | t :: t' :: ts => by
    have := join_flat sep (t' :: ts)
    simp only [List.map_cons] at this ⊢
    simp only [join, this, List.flatMap_append]

theorem level0_flat (h : Finer st st' g) : ∀ es : List Seq, level0Terms st' es = (level0Terms st es).map (List.map (·.flatMap g))
  | [] => rfl
  | .int n :: es => by
    have := level0_flat h es
    simp only [level0Terms, this, bind, Except.bind]
    cases level0Terms st es <;> simp [Except.map, h.num]
  | .boo _ _ _ :: _ => rfl
  | .lst _ _ _ :: _ => rfl

theorem writeSeq_flat (h : Finer st st' g) : ∀ (f : Nat) (s : Seq), writeSeq st' f s = (writeSeq st f s).map (·.flatMap g)
  | 0, _ => rfl
  | _ + 1, .int _ => rfl
  | _ + 1, .boo _ _ _ => rfl
  | f + 1, .lst op l es => by
    have ih := writeSeq_flat h f
    have loop : ∀ es : List Seq, termsLoop st' (writeSeq st' f) es = (termsLoop st (writeSeq st f) es).map (List.map (·.flatMap g)) := by
      intro es
      induction es with
      | nil => rfl
      | cons e es ihl =>
        cases e with
        | int n =>
          simp only [termsLoop, ihl, bind, Except.bind]
          cases termsLoop st (writeSeq st f) es <;> simp [Except.map, h.num]
        | boo o l b =>
          simp only [termsLoop, ih, ihl, bind, Except.bind]
          cases writeSeq st f (.boo o l b) <;> simp only [Except.map]
          cases termsLoop st (writeSeq st f) es <;> simp
        | lst o l xs =>
          simp only [termsLoop, ih, ihl, bind, Except.bind]
          cases writeSeq st f (.lst o l xs) <;> simp only [Except.map]
          cases termsLoop st (writeSeq st f) es <;> simp
    unfold writeSeq
    split
    · rw [level0_flat h]
      simp only [bind, Except.bind]
      cases level0Terms st es with
      | error e => rfl
      | ok ts =>
        simp only [Except.map, h.sep, join_flat]
        simp [h.lp, h.rp]
    · rw [loop]
      simp only [bind, Except.bind]
      cases termsLoop st (writeSeq st f) es with
      | error e => rfl
      | ok ts =>
        simp only [Except.map, h.sep, join_flat]
        simp [h.lp, h.rp]

end

/-! ## XML -/

/-- the characters of a token in the XML file -/
def xmlTok : Tok → List Char
  | .lp => ['(']
  | .rp => [')']
  | .colon => ['|']
  | .blank => [' ']
  | .num n => strInt n

theorem xml_finer : Finer xmlStyle xmlChars xmlTok where
  num n := by simp [xmlStyle, xmlChars, xmlTok]
  sep op := by cases op <;> rfl
  lp := rfl
  rp := rfl

theorem xml_noAdj (σ : Side) : StyleOK xmlStyle σ (fun _ t _ => NoAdj (t.map isNum)) where
  num n _ := by simp [xmlStyle, isNum, NoAdj]
  one h := h
  single h := h
  paren {t b} h := by
    simp only [xmlStyle, List.map_cons, List.map_append, List.map_nil, isNum]
    exact noAdj_false_cons (noAdj_append h (by simp [NoAdj]) (by simp))
  and {t u b c} h1 h2 := by
    simp only [xmlStyle, List.map_cons, List.map_append, List.map_nil, isNum]
    exact noAdj_append h1 (by simpa using noAdj_false_cons h2) (by simp)
  or {t u b c} h1 h2 := by
    simp only [xmlStyle, List.map_cons, List.map_append, List.map_nil, isNum]
    exact noAdj_append h1 (by simpa using noAdj_false_cons (noAdj_false_cons (noAdj_false_cons h2))) (by simp)

theorem bar_digit (n : Int) : (strInt n).map (fun c => if c = '|' then ':' else c) = strInt n := by
  conv => rhs; rw [← List.map_id (strInt n)]
  refine List.map_congr_left fun c hc => ?_
  have : c ≠ '|' := digit_ne ((strInt_word n).2 c hc) (by decide) (by decide)
  simp [this]

theorem bar_render (ts : List Tok) : (ts.flatMap xmlTok).map (fun c => if c = '|' then ':' else c) = render ts := by
  induction ts with
  | nil => rfl
  | cons t ts ih =>
    rw [List.flatMap_cons, List.map_append, ih, render_cons]
    congr 1
    cases t with
    | num n => exact bar_digit n
    | _ => rfl

/-- the characters of a region -/
theorem xml_region {r : Nat} {s : Seq} (h : GoodDef r s) :
    ∃ t, writeSeq xmlChars r s = .ok t ∧ (∀ σ b, RegionMeans σ t b ↔ b = s.sem σ)
      ∧ ∀ c ∈ t, c.isDigit = true ∨ c = '-' ∨ c = '(' ∨ c = ')' ∨ c = '|' ∨ c = ' ' := by
  obtain ⟨op, l, es, rfl, hw, hb, hf, hd⟩ := h
  obtain ⟨ts, h1, h2⟩ := C17_write_xml op l es hw hb hf r hd
  have h3 : NoAdj (ts.map isNum) := by
    obtain ⟨ts', h1', h3⟩ := writeSeq_reads (xml_noAdj (fun _ => true)) r op l es hw hb hf hd
    rw [h1] at h1'
    cases h1'
    exact h3
  refine ⟨ts.flatMap xmlTok, by rw [writeSeq_flat xml_finer, h1]; rfl, fun σ b => ?_, ?_⟩
  · rw [← h2 σ b]
    unfold RegionMeans CMeans Means
    rw [bar_render, tokensOf_render ts h3]
    exact ⟨fun ⟨_, e, h⟩ => by cases e; exact h, fun h => ⟨_, rfl, h⟩⟩
  · intro c hc
    obtain ⟨t, -, ht⟩ := List.mem_flatMap.mp hc
    cases t with
    | num n => rcases (strInt_word n).2 c ht with h | h <;> simp [h]
    | _ => simp [xmlTok] at ht; simp [ht]

/-! ## reading of XML -/

/-- white space as XML reads it -/
def norm (t : List Char) : List Char := t.map (fun c => if ws c then ' ' else c)

theorem norm_self {t : List Char} (h : ∀ c ∈ t, ws c = true → c = ' ') : norm t = t := by
  unfold norm
  conv => rhs; rw [← List.map_id t]
  refine List.map_congr_left fun c hc => ?_
  by_cases hw : ws c = true
  · simp [hw, h c hc hw]
  · simp [hw]

theorem readValue_text {v : List Char} (h : Attr v) (s : List Char) : readValue (v ++ '"' :: s) = some (norm v, s) := by
  induction v with
  | nil => unfold readValue; rfl
  | cons c v ih =>
    obtain ⟨h1, h2, h3, h4⟩ := h c List.mem_cons_self
    unfold readValue
    rw [List.cons_append]
    dsimp only
    rw [if_neg h1, if_neg h3, if_neg (by simp [h2, h4]), ih (fun c hc => h c (List.mem_cons_of_mem _ hc))]
    simp [norm]

/-- an attribute as it is written -/
def attrText (a : List Char × List Char) : List Char := ' ' :: a.1 ++ '=' :: '"' :: a.2 ++ ['"']

/-- the end of an element -/
def Ends (e rest : List Char) : Prop := e.dropWhile ws = '/' :: '>' :: rest

theorem span_name {k : List Char} (h : ∀ c ∈ k, nameChar c = true) (c : Char) (hc : nameChar c = false) (s : List Char) :
    (k ++ c :: s).takeWhile nameChar = k ∧ (k ++ c :: s).dropWhile nameChar = c :: s := by
  constructor
  · rw [List.takeWhile_append_of_pos h]; simp [hc]
  · rw [List.dropWhile_append_of_pos h]; simp [hc]

theorem name_not_ws {c : Char} (h : nameChar c = true) : ws c = false := by
  by_contra hw
  rw [Bool.not_eq_false] at hw
  unfold ws at hw
  simp only [Bool.or_eq_true, decide_eq_true_eq] at hw
  rcases hw with ((rfl | rfl) | rfl) | rfl <;> exact absurd h (by decide)

theorem readAttrs_text {e rest : List Char} (he : Ends e rest) : ∀ (l : List (List Char × List Char)) (n : Nat), l.length < n →
    (∀ a ∈ l, a.1 ≠ [] ∧ (∀ c ∈ a.1, nameChar c = true) ∧ Attr a.2) → (l.map Prod.fst).Nodup →
    readAttrs n (l.flatMap attrText ++ e) = some (l.map (fun a => (a.1, norm a.2)), rest)
  | [], n, hn, _, _ => by
    obtain ⟨n, rfl⟩ : ∃ m, n = m + 1 := ⟨n - 1, by simp at hn; omega⟩
    have : e.dropWhile ws = '/' :: '>' :: rest := he
    simp [readAttrs, this]
  | a :: l, n, hn, hl, hnd => by
    obtain ⟨n, rfl⟩ : ∃ m, n = m + 1 := ⟨n - 1, by simp at hn; omega⟩
    obtain ⟨h1, h2, h3⟩ := hl a List.mem_cons_self
    have ih := readAttrs_text he l n (by simp at hn; omega) (fun b hb => hl b (List.mem_cons_of_mem _ hb)) (by
      rw [List.map_cons, List.nodup_cons] at hnd; exact hnd.2)
    obtain ⟨c, k, hk⟩ : ∃ c k, a.1 = c :: k := by
      cases h : a.1 with
      | nil => exact absurd h h1
      | cons c k => exact ⟨c, k, rfl⟩
    have hc := h2 c (by rw [hk]; simp)
    have hcw := name_not_ws hc
    have htext : (a :: l).flatMap attrText ++ e = ' ' :: (a.1 ++ '=' :: '"' :: (a.2 ++ '"' :: (l.flatMap attrText ++ e))) := by
      simp [attrText, List.flatMap_cons]
    rw [htext]
    have hd : (' ' :: (a.1 ++ '=' :: '"' :: (a.2 ++ '"' :: (l.flatMap attrText ++ e)))).dropWhile ws = a.1 ++ '=' :: '"' :: (a.2 ++ '"' :: (l.flatMap attrText ++ e)) := by
      rw [List.dropWhile_cons_of_pos (by decide), hk, List.cons_append, List.dropWhile_cons_of_neg (by simp [hcw])]
    have hsp := span_name h2 '=' (by decide) ('"' :: (a.2 ++ '"' :: (l.flatMap attrText ++ e)))
    have hnd' : a.1 ∉ (l.map (fun a => (a.1, norm a.2))).map Prod.fst := by
      rw [List.map_cons, List.nodup_cons] at hnd
      rw [List.map_map]
      exact hnd.1
    unfold readAttrs
    rw [hd]
    have hnot : ∀ t, a.1 ++ '=' :: '"' :: (a.2 ++ '"' :: (l.flatMap attrText ++ e)) ≠ '/' :: '>' :: t := by
      intro t ht
      rw [hk] at ht
      simp only [List.cons_append, List.cons.injEq] at ht
      rw [ht.1] at hc
      exact absurd hc (by decide)
    split
    · exact absurd ‹_› (hnot _)
    · rw [if_neg (by intro h; have := congrArg List.length h; simp at this), hsp.1, hsp.2]
      split
      · rename_i u hu
        simp only [List.cons.injEq, true_and] at hu
        subst hu
        rw [readValue_text h3]
        dsimp only
        rw [ih]
        dsimp only
        rw [if_neg (by rintro (h | h); exacts [h1 h, hnd' h])]
        rfl
      · rename_i hx
        exact absurd rfl (hx _)

/-- an element as it is written -/
structure Written (text : List Char) (e : Elem) : Prop where
  tag : e.tag ≠ [] ∧ ∀ c ∈ e.tag, nameChar c = true
  text : ∃ (l : List (List Char × List Char)) (z : List Char), text = ' ' :: ' ' :: '<' :: e.tag ++ (l.flatMap attrText ++ z)
    ∧ (z = ['/', '>', '\n'] ∨ z = [' ', '/', '>', '\n'])
    ∧ (∀ a ∈ l, a.1 ≠ [] ∧ (∀ c ∈ a.1, nameChar c = true) ∧ Attr a.2) ∧ (l.map Prod.fst).Nodup ∧ l ≠ [] ∧ e.attrs = l.map (fun a => (a.1, norm a.2))
  size : e.attrs.length ≤ 5

theorem readElems_ws {pre : List Char} (h : ∀ c ∈ pre, ws c = true) (n : Nat) (s : List Char) : readElems n (pre ++ s) = readElems n s := by
  cases n with
  | zero => rfl
  | succ n =>
    unfold readElems
    rw [List.dropWhile_append_of_pos h]

theorem readElems_one {text : List Char} {e : Elem} (h : Written text e) (n : Nat) (hn : 5 < n) (post : List Char) :
    readElems (n + 1) (text ++ post) = (readElems n post).map (fun r => (e :: r.1, r.2)) := by
  obtain ⟨⟨h1, h2⟩, ⟨l, z, rfl, hz, hl, hnd, hne, ha⟩, hs⟩ := h
  have hend : Ends (z ++ post) ('\n' :: post) := by
    unfold Ends
    rcases hz with rfl | rfl
    · rw [List.cons_append, List.dropWhile_cons_of_neg (by decide)]; rfl
    · rw [List.cons_append, List.dropWhile_cons_of_pos (by decide), List.cons_append, List.dropWhile_cons_of_neg (by decide)]; rfl
  have hread := readAttrs_text hend l n (by rw [ha, List.length_map] at hs; omega) hl hnd
  obtain ⟨a, l', rfl⟩ : ∃ a l', l = a :: l' := by
    cases l with
    | nil => exact absurd rfl hne
    | cons a l' => exact ⟨a, l', rfl⟩
  have htext : ' ' :: ' ' :: '<' :: e.tag ++ ((a :: l').flatMap attrText ++ z) ++ post = [' ', ' '] ++ '<' :: (e.tag ++ ((a :: l').flatMap attrText ++ (z ++ post))) := by
    simp
  rw [htext, readElems_ws (by decide)]
  have hsp : (e.tag ++ ((a :: l').flatMap attrText ++ (z ++ post))).takeWhile nameChar = e.tag
      ∧ (e.tag ++ ((a :: l').flatMap attrText ++ (z ++ post))).dropWhile nameChar = (a :: l').flatMap attrText ++ (z ++ post) := by
    have : (a :: l').flatMap attrText ++ (z ++ post) = ' ' :: ((a.1 ++ '=' :: '"' :: a.2 ++ ['"']) ++ l'.flatMap attrText ++ (z ++ post)) := by
      simp [attrText, List.flatMap_cons]
    rw [this]
    exact span_name h2 ' ' (by decide) _
  have hq : e.tag.head? ≠ some '/' := by
    intro hq
    have := h2 '/' (by cases ht : e.tag with | nil => rw [ht] at hq; simp at hq | cons c k => rw [ht] at hq; simp at hq; simp [hq])
    exact absurd this (by decide)
  conv => lhs; unfold readElems
  rw [List.dropWhile_cons_of_neg (by decide)]
  split
  · rename_i t ht
    exfalso
    simp only [List.cons.injEq, true_and] at ht
    cases hg : e.tag with
    | nil => exact h1 hg
    | cons c k => rw [hg] at ht hq; simp only [List.cons_append, List.cons.injEq] at ht; rw [ht.1] at hq; simp at hq
  · rename_i t _ ht
    simp only [List.cons.injEq, true_and] at ht
    subst ht
    rw [hsp.1, hsp.2, if_neg h1, hread]
    dsimp only
    rw [show '\n' :: post = ['\n'] ++ post from rfl, readElems_ws (by decide), ← ha]
  · rename_i h3 h4
    exact absurd rfl (h4 _)

theorem readElems_text : ∀ {ts : List (List Char)} {es : List Elem}, List.Forall₂ Written ts es → ∀ n, 5 < n → ∀ post,
    readElems (n + ts.length) (ts.flatten ++ post) = (readElems n post).map (fun r => (es ++ r.1, r.2))
  | _, _, .nil, n, hn, post => by simp
  | _, _, .cons (l₁ := ts) (l₂ := es) h h', n, hn, post => by
    have ih := readElems_text h' n hn post
    rw [List.flatten_cons, List.append_assoc, List.length_cons, ← Nat.add_assoc, readElems_one h _ (by omega), ih, Option.map_map]
    rfl

end Geouned.OmcFile
