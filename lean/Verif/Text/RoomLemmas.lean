import Verif.Text.CharProps
import Verif.Text.RoomSpec
import Mathlib.Algebra.Order.Ring.Int
/-!
# Lemmas for `C17_definition`: how deep the parentheses of a written definition are, and how long its words
-/
namespace Geouned.Text

/-! ### words -/

theorem wordsOf_render : ∀ ts : List Tok, NoAdj (ts.map isNum) → Wrap.wordsOf (render ts) = (solid ts).map renderTok
  | [], _ => rfl
  | t :: ts, h => by
    have ih := wordsOf_render ts (noAdj_cons h)
    unfold Wrap.wordsOf at ih ⊢
    rw [render_cons]
    cases t with
    | lp =>
      simp only [renderTok, List.cons_append, List.nil_append]
      rw [Wrap.wf_special _ (by decide)]
      simp [ih, solid, renderTok]
    | rp =>
      simp only [renderTok, List.cons_append, List.nil_append]
      rw [Wrap.wf_special _ (by decide)]
      simp [ih, solid, renderTok]
    | colon =>
      simp only [renderTok, List.cons_append, List.nil_append]
      rw [Wrap.wf_special _ (by decide)]
      simp [ih, solid, renderTok]
    | blank =>
      simp only [renderTok, List.cons_append, List.nil_append]
      rw [Wrap.wf_ws _ (by decide)]
      simpa [solid] using ih
    | num n =>
      simp only [renderTok]
      rw [word_sep (strInt_word n).1 (strInt_sep n)]
      · simp [ih, solid, renderTok]
      · intro c hc
        cases ts with
        | nil => simp at hc
        | cons u ts =>
          cases u with
          | num m => simp [isNum, NoAdj] at h
          | lp => simp [renderTok] at hc; subst hc; decide
          | rp => simp [renderTok] at hc; subst hc; decide
          | colon => simp [renderTok] at hc; subst hc; decide
          | blank => simp [renderTok] at hc; subst hc; decide

/-! ### heights -/

def Tok.up : Tok → Int
  | .lp => 1
  | .rp => -1
  | _ => 0

/-- opening minus closing parentheses -/
def nest (ts : List Tok) : Int := (ts.map Tok.up).sum

@[simp] theorem nest_nil : nest [] = 0 := rfl
@[simp] theorem nest_cons (t : Tok) (ts : List Tok) : nest (t :: ts) = t.up + nest ts := by simp [nest]
@[simp] theorem nest_append (a b : List Tok) : nest (a ++ b) = nest a + nest b := by simp [nest]

/-- balanced, and never more than `m` open -/
def Deep (m : Int) (ts : List Tok) : Prop := nest ts = 0 ∧ ∀ n, nest (ts.take n) ≤ m

theorem Deep.mono {m m' : Int} {ts : List Tok} (h : Deep m ts) (hm : m ≤ m') : Deep m' ts := ⟨h.1, fun n => (h.2 n).trans hm⟩

theorem Deep.nonneg {m : Int} {ts : List Tok} (h : Deep m ts) : 0 ≤ m := by simpa using h.2 0

theorem Deep.append {m : Int} {a b : List Tok} (ha : Deep m a) (hb : Deep m b) : Deep m (a ++ b) := by
  refine ⟨by simp [ha.1, hb.1], fun n => ?_⟩
  rw [List.take_append]
  rcases Nat.lt_or_ge a.length n with h | h
  · rw [List.take_of_length_le h.le]
    simpa [ha.1] using hb.2 _
  · have : n - a.length = 0 := by omega
    rw [this]
    simpa using ha.2 n

theorem deep_single {m : Int} (hm : 0 ≤ m) {t : Tok} (ht : t.up = 0) : Deep m [t] := by
  refine ⟨by simp [ht], fun n => ?_⟩
  cases n <;> simp [ht, hm]

theorem deep_nil {m : Int} (hm : 0 ≤ m) : Deep m [] := ⟨rfl, fun n => by simpa using hm⟩

theorem Deep.paren {m : Int} {a : List Tok} (ha : Deep m a) : Deep (m + 1) (.lp :: (a ++ [.rp])) := by
  have h0 := ha.nonneg
  refine ⟨by simp [ha.1, Tok.up], fun n => ?_⟩
  cases n with
  | zero => simp; omega
  | succ n =>
    rw [List.take_succ_cons, nest_cons, List.take_append]
    simp only [Tok.up, nest_append]
    have h1 := ha.2 n
    have h2 : nest ([Tok.rp].take (n - a.length)) ≤ 0 := by cases n - a.length <;> simp [Tok.up]
    omega

theorem deep_join {m : Int} (hm : 0 ≤ m) {sep : List Tok} (hs : Deep m sep) : ∀ l : List (List Tok), (∀ t ∈ l, Deep m t) → Deep m (join sep l)
  | [], _ => deep_nil hm
  | [t], h => h t (by simp)
  | t :: u :: l, h => by
    rw [join]
    exact (h t (by simp)).append (hs.append (deep_join hm hs (u :: l) (fun x hx => h x (List.mem_cons_of_mem _ hx))))

theorem deep_sep {m : Int} (hm : 0 ≤ m) (op : Op) : Deep m (mcnpStyle.sep op) := by
  cases op <;> exact deep_single hm rfl

theorem level0_deep : ∀ (es : List Seq) (ts : List (List Tok)), level0Terms mcnpStyle es = .ok ts → ∀ t ∈ ts, Deep 0 t
  | [], ts, h, t, ht => by simp [level0Terms] at h; subst h; cases ht
  | .int n :: es, ts, h, t, ht => by
    simp only [level0Terms, bind, Except.bind] at h
    split at h
    · cases h
    · next r hr =>
      cases h
      rcases List.mem_cons.mp ht with rfl | ht
      · exact deep_single le_rfl rfl
      · exact level0_deep es r hr t ht
  | .boo _ _ _ :: es, ts, h, t, ht => by simp [level0Terms] at h
  | .lst _ _ _ :: es, ts, h, t, ht => by simp [level0Terms] at h

theorem writeSeq_deep : ∀ (f : Nat) (s : Seq) (ts : List Tok), writeSeq mcnpStyle f s = .ok ts → Deep s.depth ts := by
  intro f
  induction f with
  | zero => intro s ts h; cases s <;> simp [writeSeq] at h
  | succ f ih =>
    have loop : ∀ (es : List Seq) (ts : List (List Tok)), termsLoop mcnpStyle (writeSeq mcnpStyle f) es = .ok ts → ∀ t ∈ ts, Deep (Seq.depthL es) t := by
      intro es
      induction es with
      | nil => intro ts h t ht; simp [termsLoop] at h; subst h; cases ht
      | cons e es ihl =>
        intro ts h t ht
        simp only [Seq.depthL]
        cases e with
        | int n =>
          simp only [termsLoop, bind, Except.bind] at h
          split at h
          · cases h
          · next r hr =>
            cases h
            rcases List.mem_cons.mp ht with rfl | ht
            · exact deep_single (by omega) rfl
            · exact (ihl r hr t ht).mono (by omega)
        | boo o l b =>
          simp only [termsLoop, bind, Except.bind] at h
          split at h
          · cases h
          · next u hu =>
            split at h
            · cases h
            · next r hr =>
              cases h
              rcases List.mem_cons.mp ht with rfl | ht
              · exact (ih _ _ hu).mono (by omega)
              · exact (ihl r hr t ht).mono (by omega)
        | lst o l xs =>
          simp only [termsLoop, bind, Except.bind] at h
          split at h
          · cases h
          · next u hu =>
            split at h
            · cases h
            · next r hr =>
              cases h
              rcases List.mem_cons.mp ht with rfl | ht
              · exact (ih _ _ hu).mono (by omega)
              · exact (ihl r hr t ht).mono (by omega)
    intro s ts h
    cases s with
    | int n => simp [writeSeq] at h
    | boo o l b => simp [writeSeq] at h
    | lst op l es =>
      simp only [writeSeq, bind, Except.bind] at h
      simp only [Seq.depth, Nat.cast_add, Nat.cast_one]
      split at h
      · split at h
        · cases h
        · next r hr =>
          cases h
          exact (deep_join (by omega) (deep_sep (by omega) op) r (fun t ht => (level0_deep es r hr t ht).mono (by omega))).paren
      · split at h
        · cases h
        · next r hr =>
          cases h
          exact (deep_join (by omega) (deep_sep (by omega) op) r (loop es r hr)).paren

/-! ### the clean-up opens no more -/

/-- `b` has as many tokens as `a`, and nowhere more open parentheses -/
def Lower (a b : List Tok) : Prop := a.length = b.length ∧ nest a = nest b ∧ ∀ n, nest (b.take n) ≤ nest (a.take n)

theorem Lower.refl (a : List Tok) : Lower a a := ⟨rfl, rfl, fun _ => le_rfl⟩

theorem Lower.trans {a b c : List Tok} (h1 : Lower a b) (h2 : Lower b c) : Lower a c :=
  ⟨h1.1.trans h2.1, h1.2.1.trans h2.2.1, fun n => (h2.2.2 n).trans (h1.2.2 n)⟩

theorem Lower.append {a b c d : List Tok} (h1 : Lower a b) (h2 : Lower c d) : Lower (a ++ c) (b ++ d) := by
  refine ⟨by simp [h1.1, h2.1], by simp [h1.2.1, h2.2.1], fun n => ?_⟩
  rw [List.take_append, List.take_append, nest_append, nest_append, ← h1.1]
  exact add_le_add (h1.2.2 n) (h2.2.2 _)

theorem lower_unwrap (a : List Tok) : Lower (.lp :: (a ++ [.rp])) (.blank :: (a ++ [.blank])) := by
  refine ⟨by simp, by simp only [nest_cons, nest_append, nest_nil, Tok.up]; omega, fun n => ?_⟩
  cases n with
  | zero => simp
  | succ n =>
    rw [List.take_succ_cons, List.take_succ_cons, nest_cons, nest_cons, List.take_append, List.take_append, nest_append, nest_append]
    have : nest ([Tok.blank].take (n - a.length)) = 0 := by cases n - a.length <;> simp [Tok.up]
    have h2 : -1 ≤ nest ([Tok.rp].take (n - a.length)) := by cases n - a.length <;> simp [Tok.up]
    simp only [Tok.up]
    omega

theorem masked_lower (left inner right : List Item) :
    Lower (origs false (.tok .lp :: (inner ++ [.tok .rp]))) (origs false (masked false left inner right)) := by
  unfold masked
  split
  · have := lower_unwrap (origs false inner)
    simpa [origs, Item.orig] using this
  · have := Lower.refl (Tok.lp :: (origs false inner ++ [.rp]))
    simpa [origs, Item.orig] using this

theorem pass_lower : ∀ (k : Nat) (done rest : List Item), Lower (origs false (done ++ rest)) (origs false (pass false k done rest))
  | 0, done, rest => Lower.refl _
  | k + 1, done, rest => by
    unfold pass
    split
    · exact Lower.refl _
    · next pre inner post hf =>
      obtain ⟨rfl, -⟩ := findInner_some hf
      refine Lower.trans ?_ (pass_lower _ _ _)
      have := ((Lower.refl (origs false (done ++ pre))).append (masked_lower (done ++ pre) inner post)).append (Lower.refl (origs false post))
      simpa [origs_append, origs_cons] using this

theorem passes_lower : ∀ (k : Nat) (w : List Item), Lower (origs false w) (origs false (passes false k w))
  | 0, w => Lower.refl _
  | k + 1, w => by
    unfold passes
    split
    · exact Lower.refl _
    · exact (pass_lower w.length [] w).trans (passes_lower _ _)

theorem removeRedundant_lower (ts : List Tok) : Lower ts (removeRedundant ts) := by
  unfold removeRedundant mask
  have := passes_lower (ts.length + 1) (ts.map .tok)
  rwa [origs_map_tok] at this

/-! ### no long run of opening parentheses -/

theorem Reads.low {σ : Side} {r : Rank} {t : List Tok} {b : Bool} (h : Reads σ r t b) : nest t = 0 ∧ ∀ n, 0 ≤ nest (t.take n) := by
  have app : ∀ {x y : List Tok}, (nest x = 0 ∧ ∀ n, 0 ≤ nest (x.take n)) → (nest y = 0 ∧ ∀ n, 0 ≤ nest (y.take n)) →
      nest (x ++ y) = 0 ∧ ∀ n, 0 ≤ nest ((x ++ y).take n) := by
    intro x y hx hy
    refine ⟨by simp [hx.1, hy.1], fun n => ?_⟩
    rw [List.take_append, nest_append]
    exact add_nonneg (hx.2 n) (hy.2 _)
  induction h with
  | num n _ => exact ⟨by simp [Tok.up], fun n => by cases n <;> simp [Tok.up]⟩
  | @paren t b _ ih =>
    refine ⟨by simp [ih.1, Tok.up], fun n => ?_⟩
    cases n with
    | zero => simp
    | succ n =>
      rw [List.take_succ_cons, nest_cons, List.take_append, nest_append]
      have h1 := ih.2 n
      have h2 : -1 ≤ nest ([Tok.rp].take (n - t.length)) := by cases n - t.length <;> simp [Tok.up]
      simp only [Tok.up]
      omega
  | one _ ih => exact ih
  | single _ ih => exact ih
  | and _ _ ih1 ih2 => exact app ih1 ih2
  | or _ _ ih1 ih2 =>
    refine app ih1 (app (x := [.colon]) ⟨by simp [Tok.up], fun n => by cases n <;> simp [Tok.up]⟩ ih2)

theorem solid_take : ∀ (ts : List Tok) (n : Nat), ∃ k, nest ((solid ts).take n) = nest (ts.take k)
  | [], n => ⟨0, by simp [solid]⟩
  | t :: ts, n => by
    by_cases h : t = .blank
    · subst h
      obtain ⟨k, hk⟩ := solid_take ts n
      exact ⟨k + 1, by simpa [solid, Tok.up] using hk⟩
    · cases n with
      | zero => exact ⟨0, by simp⟩
      | succ n =>
        obtain ⟨k, hk⟩ := solid_take ts n
        refine ⟨k + 1, ?_⟩
        have : solid (t :: ts) = t :: solid ts := by simp [solid, h]
        rw [this, List.take_succ_cons, List.take_succ_cons, nest_cons, nest_cons, hk]

theorem nest_replicate (n : Nat) : nest (List.replicate n Tok.lp) = n := by
  induction n with
  | zero => rfl
  | succ n ih => rw [List.replicate_succ, nest_cons, ih]; simp only [Tok.up]; omega

theorem map_replicate_lp {l : List Tok} {n : Nat} (h : l.map renderTok = List.replicate n ['(']) : l = List.replicate n .lp := by
  rw [List.eq_replicate_iff]
  rw [List.eq_replicate_iff] at h
  refine ⟨by simpa using h.1, fun t ht => ?_⟩
  have := h.2 _ (List.mem_map.mpr ⟨t, ht, rfl⟩)
  cases t with
  | lp => rfl
  | rp => simp [renderTok] at this
  | colon => simp [renderTok] at this
  | blank => simp [renderTok] at this
  | num n =>
    simp only [renderTok] at this
    have h := (strInt_word n).2 '(' (by rw [this]; simp)
    rcases h with h | h <;> exact absurd h (by decide)

theorem no_run {ts : List Tok} {m : Nat} (hd : Deep m ts) (hr : Readable ts) :
    ¬ List.replicate (m + 1) ['('] <:+: (solid (removeRedundant ts)).map renderTok := by
  rintro ⟨a, b, h⟩
  obtain ⟨σ, v, hv⟩ := hr
  have hlow := (removeRedundant_means hv).low
  rw [List.append_assoc] at h
  obtain ⟨x, y, hxy, hx, hy⟩ := List.map_eq_append_iff.mp h.symm
  obtain ⟨u, w, huw, hu, hw⟩ := List.map_eq_append_iff.mp hy
  have hu' := map_replicate_lp hu
  have h1 : 0 ≤ nest x := by
    have := hlow.2 x.length
    rwa [hxy, List.take_left] at this
  have h2 : nest (x ++ u) ≤ m := by
    obtain ⟨k, hk⟩ := solid_take (removeRedundant ts) (x ++ u).length
    rw [hxy, huw, ← List.append_assoc, List.take_left] at hk
    rw [hk]
    exact ((removeRedundant_lower ts).2.2 k).trans (hd.2 k)
  rw [nest_append, hu', nest_replicate] at h2
  push_cast at h2
  omega

/-! ### the numbers -/

theorem strInt_length {n : Int} {d : Nat} (hd : 0 < d) (h : n.natAbs < 10 ^ d) : (strInt n).length ≤ d + 1 := by
  have := (Nat.length_toDigits_le_iff (b := 10) (n := n.natAbs) (k := d) (by omega) hd).2 h
  unfold strInt
  split
  · simpa using this
  · omega

def BelowT (N : Nat) (ts : List Tok) : Prop := ∀ n, Tok.num n ∈ ts → n.natAbs < N

theorem belowT_append {N : Nat} {a b : List Tok} (ha : BelowT N a) (hb : BelowT N b) : BelowT N (a ++ b) := by
  intro n hn
  rcases List.mem_append.mp hn with h | h
  · exact ha n h
  · exact hb n h

theorem belowT_join {N : Nat} (op : Op) : ∀ l : List (List Tok), (∀ t ∈ l, BelowT N t) → BelowT N (join (mcnpStyle.sep op) l)
  | [], _ => fun n h => by cases h
  | [t], h => h t (by simp)
  | t :: u :: l, h => by
    rw [join]
    refine belowT_append (h t (by simp)) (belowT_append ?_ (belowT_join op (u :: l) (fun x hx => h x (List.mem_cons_of_mem _ hx))))
    intro n hn
    cases op <;> simp [mcnpStyle] at hn

theorem level0_below {N : Nat} : ∀ (es : List Seq) (ts : List (List Tok)), BelowL N es → level0Terms mcnpStyle es = .ok ts → ∀ t ∈ ts, BelowT N t
  | [], ts, _, h, t, ht => by simp [level0Terms] at h; subst h; cases ht
  | .int n :: es, ts, hN, h, t, ht => by
    simp only [level0Terms, bind, Except.bind] at h
    simp only [BelowL, Below] at hN
    split at h
    · cases h
    · next r hr =>
      cases h
      rcases List.mem_cons.mp ht with rfl | ht
      · intro k hk
        simp [mcnpStyle] at hk
        subst hk
        exact hN.1
      · exact level0_below es r hN.2 hr t ht
  | .boo _ _ _ :: es, ts, _, h, t, ht => by simp [level0Terms] at h
  | .lst _ _ _ :: es, ts, _, h, t, ht => by simp [level0Terms] at h

theorem writeSeq_below {N : Nat} : ∀ (f : Nat) (s : Seq) (ts : List Tok), Below N s → writeSeq mcnpStyle f s = .ok ts → BelowT N ts := by
  intro f
  induction f with
  | zero => intro s ts _ h; cases s <;> simp [writeSeq] at h
  | succ f ih =>
    have loop : ∀ (es : List Seq) (ts : List (List Tok)), BelowL N es → termsLoop mcnpStyle (writeSeq mcnpStyle f) es = .ok ts → ∀ t ∈ ts, BelowT N t := by
      intro es
      induction es with
      | nil => intro ts _ h t ht; simp [termsLoop] at h; subst h; cases ht
      | cons e es ihl =>
        intro ts hN h t ht
        rw [BelowL] at hN
        cases e with
        | int n =>
          simp only [termsLoop, bind, Except.bind] at h
          split at h
          · cases h
          · next r hr =>
            cases h
            rcases List.mem_cons.mp ht with rfl | ht
            · intro k hk
              simp [mcnpStyle] at hk
              subst hk
              simpa [Below] using hN.1
            · exact ihl r hN.2 hr t ht
        | boo o l b =>
          simp only [termsLoop, bind, Except.bind] at h
          split at h
          · cases h
          · next u hu =>
            split at h
            · cases h
            · next r hr =>
              cases h
              rcases List.mem_cons.mp ht with rfl | ht
              · exact ih _ _ hN.1 hu
              · exact ihl r hN.2 hr t ht
        | lst o l xs =>
          simp only [termsLoop, bind, Except.bind] at h
          split at h
          · cases h
          · next u hu =>
            split at h
            · cases h
            · next r hr =>
              cases h
              rcases List.mem_cons.mp ht with rfl | ht
              · exact ih _ _ hN.1 hu
              · exact ihl r hN.2 hr t ht
    have wrap : ∀ t : List Tok, BelowT N t → BelowT N (.lp :: (t ++ [.rp])) := by
      intro t ht n hn
      simp at hn
      exact ht n hn
    intro s ts hN h
    cases s with
    | int n => simp [writeSeq] at h
    | boo o l b => simp [writeSeq] at h
    | lst op l es =>
      simp only [Below] at hN
      simp only [writeSeq, bind, Except.bind] at h
      split at h
      · split at h
        · cases h
        · next r hr =>
          cases h
          exact wrap _ (belowT_join op r (level0_below es r hN hr))
      · split at h
        · cases h
        · next r hr =>
          cases h
          exact wrap _ (belowT_join op r (loop es r hN hr))

theorem removeRedundant_below {N : Nat} {ts : List Tok} (h : BelowT N ts) : BelowT N (removeRedundant ts) := by
  intro n hn
  have h1 : Tok.num n ∈ (removeRedundant ts).filter (fun t => t ≠ .lp ∧ t ≠ .rp ∧ t ≠ .blank) := by
    rw [List.mem_filter]
    exact ⟨hn, by simp⟩
  rw [C18_symbols] at h1
  exact h n (List.mem_of_mem_filter h1)

/-- the text of the cell before wrapping -/
theorem cell_room (op : Op) (l : Int) (es : List Seq) (hw : (Seq.lst op l es).WF) (hb : (Seq.lst op l es).NoBool) (hf : Full (.lst op l es))
    (f d : Nat) (hd : (Seq.lst op l es).depth ≤ f) (hd0 : 0 < d) (hN : Below (10 ^ d) (.lst op l es)) (t : List Char)
    (ht : writeSeq charStyle f (.lst op l es) = .ok t) :
    (∀ w ∈ Wrap.wordsOf (removeRedundantC t), w.length ≤ d + 1)
      ∧ ¬ List.replicate ((Seq.lst op l es).depth + 1) ['('] <:+: Wrap.wordsOf (removeRedundantC t) := by
  obtain ⟨ts, h1, h2⟩ := C17_write_mcnp op l es hw hb hf f hd
  have h3 : NoAdj (ts.map isNum) := by
    obtain ⟨ts', h1', h3⟩ := writeSeq_reads (noAdj_ok (fun _ => true)) f op l es hw hb hf hd
    rw [h1] at h1'
    cases h1'
    exact h3
  have h4 : NoAdj ((removeRedundant ts).map isNum) := by rw [removeRedundant_isNum]; exact h3
  have hr : Readable ts := ⟨fun _ => true, _, (h2 _ _).2 rfl⟩
  rw [writeSeq_render, h1] at ht
  cases ht
  rw [removeRedundantC_render, wordsOf_render _ h4]
  refine ⟨fun w hw => ?_, no_run (writeSeq_deep f _ ts h1) hr⟩
  obtain ⟨tk, htk, rfl⟩ := List.mem_map.mp hw
  have hmem : tk ∈ removeRedundant ts := List.mem_of_mem_filter htk
  cases tk with
  | lp => simp [renderTok]
  | rp => simp [renderTok]
  | colon => simp [renderTok]
  | blank => simp [renderTok]
  | num n => exact strInt_length hd0 (removeRedundant_below (writeSeq_below f _ ts hN h1) n hmem)

/-- For the proofs about files: the lines after the first are not blank. -/
theorem cellDef_lines (op : Op) (l : Int) (es : List Seq) (hw : (Seq.lst op l es).WF) (hb : (Seq.lst op l es).NoBool) (hf : Full (.lst op l es))
    (f d : Nat) (hd : (Seq.lst op l es).depth ≤ f) (hd0 : 0 < d) (hN : Below (10 ^ d) (.lst op l es)) (t : List Char)
    (ht : writeSeq charStyle f (.lst op l es) = .ok t) :
    Wrap.Room ((Seq.lst op l es).depth + (d + 1) + 1) (Wrap.normalise (removeRedundantC t)) := by
  obtain ⟨t', ht', hch, hl, -⟩ := C17_chars_write op l es hw hb hf f hd
  rw [ht] at ht'
  cases ht'
  have := cell_room op l es hw hb hf f d hd hd0 hN t ht
  exact Wrap.room_of_words hch (fun w hw => ⟨hl w hw, this.1 w hw⟩) this.2

end Geouned.Text
