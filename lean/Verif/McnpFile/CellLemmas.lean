import Verif.McnpFile.LineLemmas
import Verif.McnpFile.Good
/-!
# Lemmas for C102: the card of a cell
-/
namespace Geouned.McnpFile

open Geouned.Card

theorem sep_last (a : List Char) {x : Char} (hx : Wrap.isSep x = true) : ∀ c, (a ++ [x]).getLast? = some c → Wrap.isSep c = true := by
  intro c hc
  simp at hc
  rw [← hc]
  exact hx

theorem fileText_mono {a : List (List Char)} : fileText a = Wrap.unlines a := rfl

/-! ## header -/

theorem pad_length {t : List Char} {n k : Nat} (h : t.length ≤ k) (hn : n ≤ k) : (padRight n t).length ≤ k := by
  unfold padRight
  simp only [List.length_append, List.length_replicate]
  omega

theorem NumText.words_blank {t : List Char} (_h : NumText t) (r : List Char) : Wrap.wordsOf (t ++ ' ' :: r) = Wrap.wordsOf t ++ Wrap.wordsOf r :=
  words_blank_mid t r

theorem header_ok {f : Fmt} {c : Cell} (hf : Formats f) (hl : c.label.natAbs < 10 ^ 8) (hm : c.material.natAbs < 10 ^ 8)
    (hd : c.material ≠ 0 → ∃ d, c.density = some d ∧ (f.e4 d).length ≤ 17 ∧ (f.f7 d).length ≤ 17) :
    ∃ r den, cellHeader f c = .ok (Text.strInt c.label ++ r ++ [' ']) ∧ Tidy r ∧ (Text.strInt c.label ++ r ++ [' ']).length ≤ 38
      ∧ Wrap.wordsOf (Text.strInt c.label ++ r ++ [' ']) = Text.strInt c.label :: Text.strInt c.material :: den ∧ DensityWords f c den := by
  have hl' := Text.strInt_length (d := 8) (by omega) hl
  have hm' := Text.strInt_length (d := 8) (by omega) hm
  have hpl := pad_length (n := 5) hl' (by omega)
  have hpm := pad_length (n := 5) hm' (by omega)
  unfold cellHeader DensityWords
  by_cases h0 : c.material = 0
  · rw [if_pos h0]
    refine ⟨List.replicate (5 - (Text.strInt c.label).length) ' ' ++ ' ' :: (padRight 5 (T "0") ++ [' ']), [], ?_, ?_, ?_, ?_, by rw [if_pos h0]⟩
    · simp [padRight, T]
    · exact (tidy_blanks _).append (.cons (by decide) (.append (by decide) (by decide)))
    · have : (padRight 5 (T "0")).length = 5 := rfl
      unfold padRight at hpl
      simp only [List.length_append, List.length_replicate, List.length_cons, List.length_nil, this] at hpl ⊢
      omega
    · rw [h0]
      have e : Text.strInt c.label ++ (List.replicate (5 - (Text.strInt c.label).length) ' ' ++ ' ' :: (padRight 5 (T "0") ++ [' '])) ++ [' ']
          = padRight 5 (Text.strInt c.label) ++ ' ' :: (padRight 5 (T "0") ++ [' ', ' ']) := by simp [padRight]
      rw [e, words_blank_mid, words_pad, words_int1]
      rfl
  · rw [if_neg h0]
    obtain ⟨d, hd1, hd2, hd3⟩ := hd h0
    rw [hd1]
    dsimp only
    obtain ⟨t, ht, htl, htn, htw⟩ : ∃ t, (if |d| < 1 / 100 then f.e4 d else f.f7 d) = t ∧ t.length ≤ 17 ∧ NumText t ∧
        ((|d| < 1 / 100 ∧ Wrap.wordsOf t = Wrap.wordsOf (f.e4 d)) ∨ (1 / 100 ≤ |d| ∧ Wrap.wordsOf t = Wrap.wordsOf (f.f7 d))) := by
      by_cases h : |d| < 1 / 100
      · rw [if_pos h]; exact ⟨_, rfl, hd2, hf.e4 d, Or.inl ⟨h, rfl⟩⟩
      · rw [if_neg h]; exact ⟨_, rfl, hd3, hf.f7 d, Or.inr ⟨not_lt.mp h, rfl⟩⟩
    rw [ht]
    refine ⟨List.replicate (5 - (Text.strInt c.label).length) ' ' ++ ' ' :: (padRight 5 (Text.strInt c.material) ++ ' ' :: t), Wrap.wordsOf t, ?_, ?_, ?_, ?_, ?_⟩
    · simp [padRight]
    · exact (tidy_blanks _).append (.cons (by decide) ((tidy_pad (tidy_int _) 5).append (.cons (by decide) htn.tidy)))
    · unfold padRight at hpl hpm ⊢
      simp only [List.length_append, List.length_replicate, List.length_cons, List.length_nil] at hpl hpm ⊢
      omega
    · have e : Text.strInt c.label ++ (List.replicate (5 - (Text.strInt c.label).length) ' ' ++ ' ' :: (padRight 5 (Text.strInt c.material) ++ ' ' :: t)) ++ [' ']
          = padRight 5 (Text.strInt c.label) ++ ' ' :: (padRight 5 (Text.strInt c.material) ++ ' ' :: (t ++ ' ' :: [])) := by simp [padRight]
      rw [e, words_blank_mid, words_pad, words_int1, words_blank_mid, words_pad, words_int1, words_blank_mid]
      simp [Wrap.wordsOf, Wrap.wordsFrom]
    · rw [if_neg h0]
      exact ⟨d, rfl, htw⟩

/-! ## definition -/

theorem def_lines {c : Cell} {op : Op} {l : Int} {es : List Seq} (hdef : c.definition = .lst op l es) (hw : (Seq.lst op l es).WF) (hb : (Seq.lst op l es).NoBool)
    (hf : Text.Full (.lst op l es)) (hN : Text.Below (10 ^ 8) (.lst op l es)) (hdep : (Seq.lst op l es).depth ≤ 30) (r off : Nat) (hr : 30 ≤ r) (hoff : off ≤ 38) :
    ∃ K, ∀ k, K ≤ k → ∃ out, Text.cellDef 80 11 off r k c.definition = .ok out ∧ RegionWords c (Wrap.wordsOf out)
      ∧ (∃ d0 ds, Wrap.linesOf out = d0 :: ds ∧ Tidy d0 ∧ ∀ t ∈ ds, Cont t ∧ Tidy t ∧ ∃ r, t = List.replicate 11 ' ' ++ r)
      ∧ ∀ x ∈ out, x = '\n' ∨ x.isDigit = true ∨ x ∈ ['-', '(', ')', ':', ' '] := by
  have hd : (Seq.lst op l es).depth ≤ r := by omega
  obtain ⟨t, ht, hch, hlast, -⟩ := Text.C17_chars_write op l es hw hb hf r hd
  have hroom := Text.cell_room op l es hw hb hf r 8 hd (by omega) hN t ht
  have hroom2 := Text.cellDef_lines op l es hw hb hf r 8 hd (by omega) hN t ht
  refine ⟨(Wrap.normalise (Text.removeRedundantC t)).length + 1, fun k hk => ?_⟩
  obtain ⟨out, h1, h2, -, -⟩ := Text.C17_cell_card op l es hw hb hf 80 11 off 9 (Seq.lst op l es).depth r k hd (by omega) (by omega) (by
    intro u hu
    rw [ht] at hu
    cases hu
    exact ⟨hroom.1, hroom.2, by omega⟩)
  refine ⟨out, by rw [hdef]; exact h1, ?_, ?_⟩
  · intro σ b
    rw [hdef]
    exact h2 σ b
  · have h1' : Wrap.wrapLine 80 11 off k (Text.removeRedundantC t) = .ok out := by
      simpa [Text.cellDef, ht, bind, Except.bind] using h1
    have hnl : '\n' ∉ Text.removeRedundantC t := by
      intro h
      rcases hch _ h with h | h | h | h | h | h <;> exact absurd h (by decide)
    obtain ⟨g1, g2⟩ := Wrap.wrapLine_filled hnl hroom2 (by omega) (by omega) h1'
    have hchars : ∀ x ∈ out, x = '\n' ∨ x.isDigit = true ∨ x ∈ ['-', '(', ')', ':', ' '] := by
      intro x hx
      rcases g2 x hx with h | h | h
      · rcases hch x h with h | h | h | h | h | h
        · exact Or.inr (Or.inl h)
        all_goals exact Or.inr (Or.inr (by simp [h]))
      · exact Or.inr (Or.inr (by simp [h]))
      · exact Or.inl h
    refine ⟨?_, hchars⟩
    have hs : ∀ c ∈ out, c ≠ '\n' → Simple c ∧ c ≠ 'c' ∧ c ≠ 'C' := by
      intro c hc hcn
      have key : c.isDigit = true ∨ c = '-' ∨ c = '(' ∨ c = ')' ∨ c = ':' ∨ c = ' ' := by
        rcases g2 c hc with h | h | h
        · exact hch c h
        · exact Or.inr (Or.inr (Or.inr (Or.inr (Or.inr h))))
        · exact absurd h hcn
      rcases key with h | rfl | rfl | rfl | rfl | rfl
      · refine ⟨Or.inr (Or.inl (by simp [Char.isAlphanum, h])), ?_, ?_⟩ <;> (rintro rfl; revert h; decide)
      all_goals decide
    have hmem : ∀ m ∈ Wrap.linesOf out, ∀ c ∈ m, Simple c ∧ c ≠ 'c' ∧ c ≠ 'C' := by
      intro m hm c hc
      have hcn : c ≠ '\n' := fun h => Wrap.lines_nl out m hm (h ▸ hc)
      have : c ∈ out ++ ['\n'] := by
        rw [← Wrap.unlines_linesOf]
        unfold Wrap.unlines
        exact List.mem_flatMap.mpr ⟨m, hm, by simp [hc]⟩
      rcases List.mem_append.mp this with h | h
      · exact hs c h hcn
      · exact absurd (List.mem_singleton.mp h) hcn
    cases hl : Wrap.linesOf out with
    | nil => exact absurd hl (Wrap.linesOf_ne _)
    | cons d0 ds =>
      rw [hl] at g1 hmem
      refine ⟨d0, ds, rfl, fun c hc => (hmem d0 (by simp) c hc).1, fun m hm => ?_⟩
      have ht : Tidy m := fun c hc => (hmem m (List.mem_cons_of_mem _ hm) c hc).1
      obtain ⟨x, hx, c, hc, hcb⟩ := g1 m hm
      refine ⟨?_, ht, x, hx⟩
      refine tidy_cont ht ⟨List.replicate 6 ' ' ++ x, by rw [hx]; rfl⟩ ⟨c, by rw [hx]; simp [hc], hcb, ?_⟩
      exact (hmem m (List.mem_cons_of_mem _ hm) c (by rw [hx]; simp [hc])).2

/-! ## options -/

theorem isNum_int (n : Int) : IsNum (Text.strInt n) n := Text.tokOf_strInt n

theorem tidy_importance (c : Cell) : Tidy (importance c 'n') ∧ Tidy (importance c 'p') := by
  unfold importance
  split <;> exact ⟨by decide, by decide⟩

theorem tidy_fill (c : Cell) : Tidy (fillFormat c) := by
  unfold fillFormat
  cases c.fill with
  | none => exact tidy_nil
  | some n =>
    have h : Tidy (T "fill=" ++ Text.strInt n ++ T "  ") := .append (.append (by decide) (tidy_int n)) (by decide)
    cases c.transform with
    | none => exact h
    | some t =>
      dsimp only
      rw [List.append_assoc _ ('(' :: Text.strInt t)]
      exact h.append (.cons (by decide) (.append (tidy_int t) (by decide)))

theorem tidy_universe (i : Input) (c : Cell) : Tidy (universeFormat i c) := by
  unfold universeFormat
  refine .append ?_ (tidy_fill c)
  cases i.uni with
  | none => exact tidy_nil
  | some u => exact .append (.append (by decide) (tidy_int u)) (by decide)

theorem words_importance (c : Cell) (r : List Char) :
    ∃ imp, ImportanceWords c imp ∧ Wrap.wordsOf (importance c 'n' ++ importance c 'p' ++ r) = imp ++ Wrap.wordsOf r := by
  unfold importance ImportanceWords
  by_cases h : c.matInfo = some (T "Graveyard")
  · refine ⟨["imp".toList, ":".toList, "n=0".toList, "imp".toList, ":".toList, "p=0".toList], ?_, ?_⟩
    · rw [if_pos h]
    · rw [if_pos h, if_pos h, Wrap.words_append _ _ (by
        intro c hc
        have : (T "imp:" ++ 'n' :: T "=0     " ++ (T "imp:" ++ 'p' :: T "=0     ")).getLast? = some ' ' := rfl
        rw [this] at hc; cases hc; decide)]
      rfl
  · refine ⟨["imp".toList, ":".toList, "n=1.0".toList, "imp".toList, ":".toList, "p=1.0".toList], ?_, ?_⟩
    · rw [if_neg h]
    · rw [if_neg h, if_neg h, Wrap.words_append _ _ (by
        intro c hc
        have : (T "imp:" ++ 'n' :: T "=1.0   " ++ (T "imp:" ++ 'p' :: T "=1.0   ")).getLast? = some ' ' := rfl
        rw [this] at hc; cases hc; decide)]
      rfl

theorem nosep_append {a b : List Char} (ha : ∀ c ∈ a, Wrap.isSep c = false) (hb : ∀ c ∈ b, Wrap.isSep c = false) : ∀ c ∈ a ++ b, Wrap.isSep c = false :=
  fun c hc => (List.mem_append.mp hc).elim (ha c) (hb c)

theorem words_fill (c : Cell) : FillWords c (Wrap.wordsOf (fillFormat c)) := by
  unfold FillWords fillFormat
  cases c.fill with
  | none => rfl
  | some n =>
    cases c.transform with
    | none =>
      refine ⟨_, isNum_int n, ?_⟩
      dsimp only
      rw [words_token (w := T "fill=" ++ Text.strInt n) (r := T "  ") (by simp [T]) (nosep_append (by decide) (Text.strInt_sep n)) (by
        intro c hc; cases hc; decide)]
      rfl
    | some t =>
      refine ⟨_, _, isNum_int n, isNum_int t, ?_⟩
      dsimp only
      have e : T "fill=" ++ Text.strInt n ++ T "  " ++ '(' :: Text.strInt t ++ T ")  "
          = (T "fill=" ++ Text.strInt n) ++ (' ' :: ' ' :: '(' :: (Text.strInt t ++ T ")  ")) := by simp [T]
      rw [e, words_token (w := T "fill=" ++ Text.strInt n) (by simp [T]) (nosep_append (by decide) (Text.strInt_sep n)) _ (by intro c hc; cases hc; decide),
        words_space, words_space]
      have e2 : Wrap.wordsOf ('(' :: (Text.strInt t ++ T ")  ")) = ['('] :: Wrap.wordsOf (Text.strInt t ++ T ")  ") := by
        unfold Wrap.wordsOf
        rw [Wrap.wf_special _ (by decide)]
        rfl
      rw [e2, words_int t _ (by intro c hc; cases hc; decide)]
      rfl

theorem words_universe (i : Input) (c : Cell) :
    ∃ uni fill, UniverseWords i uni ∧ FillWords c fill ∧ Wrap.wordsOf (universeFormat i c) = uni ++ fill := by
  unfold universeFormat UniverseWords
  cases i.uni with
  | none => exact ⟨[], _, rfl, words_fill c, rfl⟩
  | some u =>
    refine ⟨["U=".toList ++ Text.strInt u], _, ⟨_, isNum_int u, rfl⟩, words_fill c, ?_⟩
    dsimp only
    have e : ∀ x : List Char, T "U=" ++ Text.strInt u ++ T "  " ++ x = (T "U=" ++ Text.strInt u) ++ (' ' :: ' ' :: x) := by simp [T]
    rw [e, words_token (w := T "U=" ++ Text.strInt u) (by simp [T]) (nosep_append (by decide) (Text.strInt_sep u)) _ (by intro c hc; cases hc; decide),
      words_space, words_space]
    rfl

/-- the lines of the options -/
def optLines (f : Fmt) (i : Input) (c : Cell) : List (List Char) :=
  (if i.volCARD then [if c.void then tab11 ++ T "Vol=1.0" else tab11 ++ T "Vol=" ++ f.e (c.volume * (1 / 1000))] else [])
    ++ [tab11 ++ importance c 'n' ++ importance c 'p' ++ universeFormat i c]

theorem option_lines {f : Fmt} (hf : Formats f) (i : Input) (c : Cell) :
    ∃ ls vol imp uni fill, optionFormat f i c = fileText ls ∧ (∀ t ∈ ls, Cont t ∧ Tidy t) ∧ ls.flatMap Wrap.wordsOf = vol ++ (imp ++ (uni ++ fill))
      ∧ VolumeWords f i c vol ∧ ImportanceWords c imp ∧ UniverseWords i uni ∧ FillWords c fill ∧ ls = optLines f i c := by
  obtain ⟨uni, fill, hu, hfl, huw⟩ := words_universe i c
  obtain ⟨imp, himp, hiw⟩ := words_importance c (universeFormat i c)
  obtain ⟨vs, vol, hvs, hvc, hvw, hv, hvl⟩ : ∃ vs vol, volumeFormat f i c = fileText vs ∧ (∀ t ∈ vs, Cont t ∧ Tidy t) ∧ vs.flatMap Wrap.wordsOf = vol ∧ VolumeWords f i c vol
      ∧ vs = (if i.volCARD then [if c.void then tab11 ++ T "Vol=1.0" else tab11 ++ T "Vol=" ++ f.e (c.volume * (1 / 1000))] else []) := by
    refine ⟨if i.volCARD then [if c.void then tab11 ++ T "Vol=1.0" else tab11 ++ T "Vol=" ++ f.e (c.volume * (1 / 1000))] else [], _, ?_, ?_, rfl, ?_, rfl⟩
    · unfold volumeFormat
      cases i.volCARD with
      | false => rfl
      | true =>
        cases c.void with
        | true => rfl
        | false => simp [fileText]
    · intro t ht
      cases hv : i.volCARD with
      | false => rw [hv] at ht; simp at ht
      | true =>
        rw [hv] at ht
        simp only [if_true, List.mem_singleton] at ht
        subst ht
        cases c.void with
        | true =>
          rw [if_pos rfl]
          exact ⟨tidy_cont (by decide) ⟨_, rfl⟩ ⟨'V', by decide, by decide⟩, by decide⟩
        | false =>
          have : Tidy (tab11 ++ T "Vol=" ++ f.e (c.volume * (1 / 1000))) := .append (.append (by decide) (by decide)) (hf.e _).tidy
          refine ⟨tidy_cont this ⟨_, rfl⟩ ⟨'V', ?_, by decide⟩, this⟩
          simp [T]
    · unfold VolumeWords
      cases i.volCARD with
      | false => rfl
      | true =>
        cases c.void with
        | true => rfl
        | false =>
          simp only [Bool.true_eq_false, if_false, if_true, Bool.false_eq_true, List.flatMap_singleton]
          have e : tab11 ++ T "Vol=" ++ f.e (c.volume * (1 / 1000)) = List.replicate 11 ' ' ++ ((T "Vol=" ++ f.e (c.volume * (1 / 1000))) ++ []) := by simp [tab11]
          rw [e, words_spaces, words_token (w := T "Vol=" ++ f.e (c.volume * (1 / 1000))) (by simp [T]) (nosep_append (by decide) (token_sep (hf.e _))) [] (by simp), mul_one_div]
          rfl
  have ht : Tidy (tab11 ++ importance c 'n' ++ importance c 'p' ++ universeFormat i c) :=
    .append (.append (.append (by decide) (tidy_importance c).1) (tidy_importance c).2) (tidy_universe i c)
  refine ⟨vs ++ [tab11 ++ importance c 'n' ++ importance c 'p' ++ universeFormat i c], vol, imp, uni, fill, ?_, ?_, ?_, hv, himp, hu, hfl, by rw [hvl]; rfl⟩
  · unfold optionFormat
    rw [fileText_append, hvs]
    simp [fileText]
  · intro t htm
    rcases List.mem_append.mp htm with h | h
    · exact hvc t h
    · rw [List.mem_singleton] at h
      subst h
      refine ⟨tidy_cont ht ⟨List.replicate 6 ' ' ++ importance c 'n' ++ importance c 'p' ++ universeFormat i c, by simp [tab11]⟩
        ⟨'i', ?_, by decide⟩, ht⟩
      unfold importance
      split <;> simp [T]
  · rw [List.flatMap_append, hvw, List.flatMap_singleton]
    have e : tab11 ++ importance c 'n' ++ importance c 'p' ++ universeFormat i c = List.replicate 11 ' ' ++ (importance c 'n' ++ importance c 'p' ++ universeFormat i c) := by
      simp [tab11]
    rw [e, words_spaces, hiw, huw]

/-! ## comments -/

theorem mem_linesOf {s m : List Char} (hm : m ∈ Wrap.linesOf s) {c : Char} (hc : c ∈ m) : c ∈ s ∧ c ≠ '\n' := by
  have hcn : c ≠ '\n' := fun h => Wrap.lines_nl s m hm (h ▸ hc)
  have : c ∈ s ++ ['\n'] := by
    rw [← Wrap.unlines_linesOf]
    unfold Wrap.unlines
    exact List.mem_flatMap.mpr ⟨m, hm, by simp [hc]⟩
  rcases List.mem_append.mp this with h | h
  · exact ⟨h, hcn⟩
  · exact absurd (List.mem_singleton.mp h) hcn

theorem plain_line {s m : List Char} (hs : PlainLines s) (hm : m ∈ Wrap.linesOf s) : Plain m := by
  intro c hc hw
  obtain ⟨h1, h2⟩ := mem_linesOf hm hc
  exact (hs c h1 hw).resolve_right h2

theorem plain_strip {s : List Char} (hs : PlainLines s) : PlainLines (Wrap.strip s) := fun c hc => hs c (Wrap.mem_strip hc)

theorem dollar_cont {x : List Char} (hx : Plain x) : Cont (tab11 ++ '$' :: x) ∧ Wrap.wordsOf (content (tab11 ++ '$' :: x)) = [] ∧ Card.Empty (content (tab11 ++ '$' :: x)) := by
  refine ⟨⟨?_, ⟨_, rfl⟩, ⟨'$', by simp, by decide⟩, ?_⟩, ?_⟩
  · intro c hc hw
    rcases List.mem_append.mp hc with h | h
    · exact List.eq_of_mem_replicate h
    · rcases List.mem_cons.mp h with rfl | h
      · exact absurd hw (by decide)
      · exact hx c h hw
  · intro a b he
    -- `&` is not among the blanks nor the `$`
    have : a.length ≥ 12 := by
      by_contra hlt
      have h2 := congrArg (fun l => l[a.length]?) he
      simp only [List.getElem?_append_right (le_refl a.length), Nat.sub_self, List.getElem?_cons_zero] at h2
      have : a.length < 12 := by omega
      have h3 : (tab11 ++ '$' :: x)[a.length]? = some ' ' ∨ (tab11 ++ '$' :: x)[a.length]? = some '$' := by
        rcases Nat.lt_or_ge a.length 11 with h | h
        · left
          rw [List.getElem?_append_left (by simpa [tab11] using h)]
          unfold tab11
          rw [List.getElem?_replicate, if_pos h]
        · right
          have : a.length = 11 := by omega
          rw [this]
          rfl
      rcases h3 with h3 | h3 <;> (rw [h3] at h2; revert h2; decide)
    have h2 := congrArg (fun l => l[11]?) he
    rw [List.getElem?_append_left (show 11 < a.length by omega)] at h2
    have h3 : (tab11 ++ '$' :: x)[11]? = some '$' := rfl
    rw [h3] at h2
    exact List.mem_of_getElem? h2.symm
  · have : content (tab11 ++ '$' :: x) = tab11 := by
      rfl
    rw [this]
    exact ⟨rfl, fun c hc => List.eq_of_mem_replicate hc⟩

theorem dollar_lines {s : List Char} (hs : PlainLines s) : ∃ ls, dollarLines s = fileText ls ∧ ∀ t ∈ ls, Cont t ∧ Wrap.wordsOf (content t) = [] ∧ Card.Empty (content t) := by
  refine ⟨((Wrap.linesOf s).filter (fun x => x ≠ [])).map (fun x => tab11 ++ '$' :: x), ?_, ?_⟩
  · simp [dollarLines, fileText, List.flatMap_map]
  · intro t ht
    obtain ⟨x, hx, rfl⟩ := List.mem_map.mp ht
    exact dollar_cont (plain_line hs (List.mem_of_mem_filter hx))

theorem comment_lines {c : Cell} (hc : PlainLines c.comments) (hm : ∀ m, c.matInfo = some m → PlainLines m) :
    ∃ ls, commentFormat c = fileText ls ∧ ∀ t ∈ ls, Cont t ∧ Wrap.wordsOf (content t) = [] ∧ Card.Empty (content t) := by
  obtain ⟨l2, h2, h2'⟩ : ∃ ls, (if Wrap.strip c.comments = [] then [] else dollarLines (Wrap.strip c.comments)) = fileText ls
      ∧ ∀ t ∈ ls, Cont t ∧ Wrap.wordsOf (content t) = [] ∧ Card.Empty (content t) := by
    split
    · exact ⟨[], rfl, fun t h => by cases h⟩
    · exact dollar_lines (plain_strip hc)
  unfold commentFormat
  rw [h2]
  cases hmi : c.matInfo with
  | none => exact ⟨l2, rfl, h2'⟩
  | some m =>
    dsimp only
    split
    · exact ⟨l2, rfl, h2'⟩
    · obtain ⟨l1, h1, h1'⟩ := dollar_lines (hm m hmi)
      exact ⟨l1 ++ l2, by rw [fileText_append, h1], fun t ht => (List.mem_append.mp ht).elim (h1' t) (h2' t)⟩

theorem commentLine_lines {s : List Char} (hs : PlainLines s) : ∃ ls, commentLine s = fileText ls ∧ ∀ t ∈ ls, Rem t := by
  refine ⟨T "C " :: (((Wrap.linesOf (Wrap.strip s)).filter (fun c => c ≠ [])).map (fun c => T "C " ++ c) ++ [T "C "]), ?_, ?_⟩
  · unfold commentLine
    simp [fileText, List.flatMap_map, T]
  · have hC : Rem (T "C ") := ⟨by decide, Or.inr ⟨_, rfl⟩⟩
    intro t ht
    rcases List.mem_cons.mp ht with rfl | ht
    · exact hC
    rcases List.mem_append.mp ht with ht | ht
    · obtain ⟨x, hx, rfl⟩ := List.mem_map.mp ht
      refine ⟨?_, Or.inr ⟨x, rfl⟩⟩
      intro c hc hw
      have hp := plain_line (plain_strip hs) (List.mem_of_mem_filter hx)
      have : c = 'C' ∨ c = ' ' ∨ c ∈ x := by simpa [T] using hc
      rcases this with rfl | rfl | h
      · exact absurd hw (by decide)
      · rfl
      · exact hp c h hw
    · rw [List.mem_singleton] at ht
      rw [ht]; exact hC

/-! ## the card -/

/-- the texts of a card are those of the header, the definition and the options -/
def Laid (f : Fmt) (i : Input) (c : Cell) (texts : List (List Char)) : Prop :=
  ∃ h d0 ds out, cellHeader f c = .ok h ∧ Wrap.linesOf out = d0 :: ds ∧ RegionWords c (Wrap.wordsOf out)
    ∧ (∀ x ∈ out, x = '\n' ∨ x.isDigit = true ∨ x ∈ ['-', '(', ')', ':', ' ']) ∧ (∀ t ∈ ds, ∃ r, t = List.replicate 11 ' ' ++ r)
    ∧ texts = (h ++ d0) :: (ds ++ optLines f i c)

theorem says_laid {first : List Char} {body notes : List (List Char)} (h1 : ∀ t ∈ first :: body, Tidy t ∧ ¬ Card.Empty t) (h2 : ∀ t ∈ notes, Card.Empty (content t)) :
    (card first (body ++ notes)).says = first :: body := by
  unfold CardText.says
  rw [card_body, ← List.cons_append, List.map_append, List.filter_append]
  have e1 : ((first :: body).map content).filter (fun t => t.any (fun c => c ≠ ' ')) = first :: body := by
    have : (first :: body).map content = first :: body := by
      conv_rhs => rw [← List.map_id (first :: body)]
      exact List.map_congr_left fun t ht => (h1 t ht).1.content
    rw [this, List.filter_eq_self]
    intro t ht
    by_contra hn
    exact (h1 t ht).2 (not_empty_any.mp (by simpa using hn))
  have e2 : (notes.map content).filter (fun t => t.any (fun c => c ≠ ' ')) = [] := by
    rw [List.filter_eq_nil_iff]
    intro t ht
    obtain ⟨u, hu, rfl⟩ := List.mem_map.mp ht
    rw [not_empty_any.mpr (h2 u hu)]
    decide
  rw [e1, e2, List.append_nil]

theorem Cont.notEmpty {t : List Char} (h : Cont t) : ¬ Card.Empty t := by
  obtain ⟨c, hc, hc', _⟩ := h.filled
  exact fun he => hc' (he c hc)

theorem cell_card {f : Fmt} (hf : Formats f) (i : Input) {c : Cell} {n : Int} (hid : c.id = some n) (hc : GoodCell f c) (r : Nat) (hr : 30 ≤ r) :
    ∃ K, ∀ k, K ≤ k → ∃ first rest, writeCell f i r k c = .ok (fileText (first :: rest)) ∧ First first ∧ (∀ t ∈ rest, Cont t)
      ∧ CellSays f i c (card first rest).says ∧ Laid f i c (card first rest).says := by
  obtain ⟨hr1, hr2, hr3, op, l, es, hdef, hw, hb, hfl, hN, hdep⟩ := hc.real (by rw [Cell.real, hid]; simp)
  obtain ⟨hd, den, hh, htr, hlen, hwords, hden⟩ := header_ok hf hr1 hr2 hr3
  obtain ⟨K, hK⟩ := def_lines hdef hw hb hfl hN hdep r _ hr hlen
  obtain ⟨ols, vol, imp, uni, fill, ho, hoc, how, hv, himp, hu, hfill, hols⟩ := option_lines hf i c
  obtain ⟨cls, hcl, hclc⟩ := comment_lines hc.comments hc.matInfo
  refine ⟨K, fun k hk => ?_⟩
  obtain ⟨out, h1, h2, ⟨d0, ds, h3, h4, h5⟩, h6⟩ := hK k hk
  have hhead : '\n' ∉ Text.strInt c.label ++ hd ++ [' '] := ((tidy_int _).append htr |>.append (by decide : Tidy [' '])).nl
  have hlines := Wrap.linesOf_append hhead h3
  refine ⟨Text.strInt c.label ++ hd ++ [' '] ++ d0, ds ++ (ols ++ cls), ?_, ?_, ?_, ?_, ?_⟩
  · unfold writeCell
    rw [hid]
    dsimp only
    rw [hh]
    dsimp only
    rw [h1]
    dsimp only
    rw [ho, hcl]
    congr 1
    have e : fileText ((Text.strInt c.label ++ hd ++ [' '] ++ d0) :: ds) = Text.strInt c.label ++ hd ++ [' '] ++ out ++ ['\n'] := by
      rw [← hlines, fileText_lines]
    rw [show ((Text.strInt c.label ++ hd ++ [' '] ++ d0) :: (ds ++ (ols ++ cls))) = ((Text.strInt c.label ++ hd ++ [' '] ++ d0) :: ds) ++ (ols ++ cls) from rfl,
      fileText_append, e, fileText_append]
    simp
  · rw [List.append_assoc, List.append_assoc]
    exact first_int _ (htr.append (.append (by decide) h4))
  · intro t ht
    rcases List.mem_append.mp ht with ht | ht
    · exact (h5 t ht).1
    · rcases List.mem_append.mp ht with ht | ht
      · exact (hoc t ht).1
      · exact (hclc t ht).1
  · refine ⟨Text.strInt c.label, Text.strInt c.material, den, Wrap.wordsOf out, vol, imp, uni, fill, ?_, isNum_int _, isNum_int _, hden, h2, hv, himp, hu, hfill⟩
    rw [words_says]
    have hfirst : Tidy (Text.strInt c.label ++ hd ++ [' '] ++ d0) := .append (.append (.append (tidy_int _) htr) (by decide)) h4
    have tid : ∀ l : List (List Char), (∀ t ∈ l, Tidy t) → l.flatMap (fun t => Wrap.wordsOf (content t)) = l.flatMap Wrap.wordsOf := by
      intro l hl
      induction l with
      | nil => rfl
      | cons t l ih => rw [List.flatMap_cons, List.flatMap_cons, (hl t (by simp)).content, ih (fun u hu => hl u (List.mem_cons_of_mem _ hu))]
    have emp : cls.flatMap (fun t => Wrap.wordsOf (content t)) = [] := List.flatMap_eq_nil_iff.mpr (fun t ht => (hclc t ht).2.1)
    rw [show ((Text.strInt c.label ++ hd ++ [' '] ++ d0) :: (ds ++ (ols ++ cls))) = (((Text.strInt c.label ++ hd ++ [' '] ++ d0) :: ds) ++ ols) ++ cls by simp,
      List.flatMap_append, emp, List.append_nil, List.flatMap_append, tid _ (fun t ht => (hoc t ht).2), how, tid, ← hlines, ← Wrap.words_lines,
      Wrap.words_append _ _ (sep_last _ (by decide)), hwords]
    · simp
    · intro t ht
      rcases List.mem_cons.mp ht with rfl | ht
      · exact hfirst
      · exact (h5 t ht).2.1
  · refine ⟨_, d0, ds, out, hh, h3, h2, h6, fun t ht => (h5 t ht).2.2, ?_⟩
    rw [← List.append_assoc, hols.symm]
    refine says_laid (fun t ht => ?_) (fun t ht => (hclc t ht).2.2)
    rcases List.mem_cons.mp ht with rfl | ht
    · refine ⟨.append (.append (.append (tidy_int _) htr) (by decide)) h4, fun he => ?_⟩
      obtain ⟨c', hc', hne, _⟩ := int_ink c.label
      exact hne (he c' (by simp [hc']))
    · rcases List.mem_append.mp ht with ht | ht
      · exact ⟨(h5 t ht).2.1, (h5 t ht).1.notEmpty⟩
      · exact ⟨(hoc t ht).2, (hoc t ht).1.notEmpty⟩

end Geouned.McnpFile
