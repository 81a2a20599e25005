import Verif.McnpFile.ReadSpec
import Verif.McnpFile.CellLemmas
import Verif.CellText.Props
/-!
# Lemmas for C103: a cell card of GEOUNED as a card of `CellText/Spec.lean`
-/
namespace Geouned.McnpFile

open Geouned.CellText (Gap Blanks Digits Number Geometry GeometryOk Param PVal Head Written value)

variable {V : Type}

/-! ## numbers -/

theorem digits_nat {n : Int} (h : 0 ≤ n) : Digits (Text.strInt n) ∧ (value (Text.strInt n) : Int) = n := by
  unfold Text.strInt
  rw [if_neg (by omega)]
  have hd : ∀ c ∈ Nat.toDigits 10 n.natAbs, c.isDigit = true := fun c hc => Nat.isDigit_of_mem_toDigits (by decide) (by decide) hc
  refine ⟨⟨Nat.toDigits_ne_nil, hd⟩, ?_⟩
  have := Nat.ofDigitChars_ten_toDigits (n := n.natAbs)
  have e : value (Nat.toDigits 10 n.natAbs) = n.natAbs := by
    conv_rhs => rw [← this]
    rfl
  rw [e]
  omega

theorem toDigits_head {n : Nat} (h : 0 < n) : (Nat.toDigits 10 n).head? ≠ some '0' := by
  induction n using Nat.strongRecOn with
  | ind n ih =>
    by_cases hn : n < 10
    · rw [Nat.toDigits_of_lt_base hn]
      have : n = 1 ∨ n = 2 ∨ n = 3 ∨ n = 4 ∨ n = 5 ∨ n = 6 ∨ n = 7 ∨ n = 8 ∨ n = 9 := by omega
      rcases this with rfl | rfl | rfl | rfl | rfl | rfl | rfl | rfl | rfl <;> decide
    · have e : Nat.toDigits 10 n = Nat.toDigits 10 (n / 10) ++ [Nat.digitChar (n % 10)] := Nat.toDigits_of_base_le (by decide) (by omega)
      have ih' := ih (n / 10) (by omega) (by omega)
      rw [e, List.head?_append]
      cases h1 : (Nat.toDigits 10 (n / 10)).head? with
      | none => exact absurd (List.head?_eq_none_iff.mp h1) Nat.toDigits_ne_nil
      | some x => rw [h1] at ih'; exact ih'

/-! ## parameters -/

def volParam (f : Fmt) (c : Cell) : Param :=
  ⟨false, T "Vol", ['='], .other [(if c.void then T "1.0" else f.e (c.volume * (1 / 1000)), [])], '\n' :: tab11⟩

def impParam (c : Cell) (x : Char) : Param :=
  if c.matInfo = some (T "Graveyard") then ⟨false, T "imp:" ++ [x], ['='], .other [(['0'], [])], T "     "⟩
  else ⟨false, T "imp:" ++ [x], ['='], .other [(T "1.0", [])], T "   "⟩

def uniParam (u : Int) : Param := ⟨false, ['U'], ['='], .uni (Text.strInt u), T "  "⟩

def fillParam (n : Int) (t : Option Int) : Param :=
  ⟨false, T "fill", ['='], .fill (Text.strInt n) (t.map (fun t => (T "  ", [], [(Text.strInt t, [])]))), T "  "⟩

def params (f : Fmt) (i : Input) (c : Cell) : List Param :=
  (if i.volCARD then [volParam f c] else []) ++ (impParam c 'n' :: impParam c 'p' ::
    ((match i.uni with | none => [] | some u => [uniParam u]) ++ (match c.fill with | none => [] | some n => [fillParam n c.transform])))

theorem imp_text (c : Cell) (x : Char) : (impParam c x).text = importance c x := by
  unfold impParam importance
  split <;> simp [Param.text, PVal.text, CellText.wordsText, T]

theorem uf_text (i : Input) (c : Cell) : CellText.paramsText ((match i.uni with | none => [] | some u => [uniParam u]) ++ (match c.fill with | none => [] | some n => [fillParam n c.transform]))
    = universeFormat i c := by
  unfold universeFormat fillFormat
  cases i.uni <;> cases c.fill <;> cases c.transform <;>
    simp [CellText.paramsText, uniParam, fillParam, Param.text, PVal.text, CellText.parens, CellText.wordsText, T]

theorem params_text (f : Fmt) (i : Input) (c : Cell) : (optLines f i c).flatMap ('\n' :: ·) = '\n' :: (tab11 ++ CellText.paramsText (params f i c)) := by
  have e : CellText.paramsText (params f i c) = (if i.volCARD then (volParam f c).text else []) ++ (importance c 'n' ++ (importance c 'p' ++ universeFormat i c)) := by
    unfold params
    rw [← uf_text, ← imp_text, ← imp_text]
    cases i.volCARD <;> simp [CellText.paramsText]
  rw [e]
  unfold optLines
  cases i.volCARD with
  | false => simp
  | true =>
    cases h : c.void <;> simp [volParam, Param.text, PVal.text, CellText.wordsText, h, T]

/-- what all these parameters have in common -/
structure Nice (p : Param) : Prop where
  val : p.ValOk True
  eq : p.eq = ['=']
  gap : Gap p.gap ∧ p.gap ≠ []
  keys : p.kind = .other → ¬ CellText.Ends ['u'] p ∧ ¬ CellText.Ends ['f', 'i', 'l', 'l'] p ∧ ¬ CellText.Ends ['m', 'a', 't'] p ∧
    (∀ x, p.key.head? = some x → x ≠ 'c' ∧ x ≠ 'C') ∧ ∀ x ∈ p.key, x.toLower ≠ 'k' ∧ x.toLower ≠ 'r'
  uni : ∀ t, p.val = .uni t → '-' ∉ t
  mat : p.kind ≠ .mat ∧ p.kind ≠ .trcl
  paren : p.kind ≠ .fill → '(' ∉ p.val.text

theorem noEnd {p : Param} {word : List Char} (h : ∀ i ≤ p.key.length, CellText.low (p.key.drop i) ≠ word) : ¬ CellText.Ends word p := by
  rintro ⟨a, v, h1, h2⟩
  have := h a.length (by rw [h1]; simp)
  rw [h1, List.drop_left] at this
  exact this h2

theorem gap_blanks : ∀ n, Gap (List.replicate n ' ')
  | 0 => .nil
  | n + 1 => .blank _ (gap_blanks n)

theorem number_noparen {P : Prop} {t : List Char} (h : Number P t) : '(' ∉ t := by
  have sg : ∀ s, CellText.Sign s → '(' ∉ s := by
    intro s hs
    rcases hs with rfl | rfl | rfl <;> decide
  have dg : ∀ s : List Char, (∀ c ∈ s, c.isDigit = true) → '(' ∉ s := fun s hs hm => absurd (hs _ hm) (by decide)
  have mt : ∀ s, CellText.Mantissa s → '(' ∉ s := by
    intro s hs
    cases hs with
    | int a ha => exact dg _ ha.2
    | point a b ha hb _ => simp [dg _ ha, dg _ hb]
  cases h with
  | plain s m hs hm => simp [sg _ hs, mt _ hm]
  | exp s m e g d hs hm he hg hd _ =>
    have h1 := sg _ hs
    have h2 := mt _ hm
    have h3 := sg _ hg
    have h4 := dg _ hd.2
    have h5 : '(' ≠ e := by rcases he with rfl | rfl <;> decide
    simp [h1, h2, h3, h4, h5]

theorem word_ok {t : List Char} (h : Number False t) : CellText.WordsOk False [(t, [])] :=
  ⟨by simp, fun x hx => by rw [List.mem_singleton.mp hx]; exact h, fun x hx => by rw [List.mem_singleton.mp hx]; exact .nil, by simp⟩

theorem num_int {t : List Char} (h : Digits t) {P : Prop} : Number P t := .plain [] t (Or.inl rfl) (.int _ h)

theorem num_10 : Number False (T "1.0") := .plain [] (T "1.0") (Or.inl rfl) (.point ['1'] ['0'] (by decide) (by decide) (by decide))

theorem other_nice {key w gap : List Char} (hw : Number False w) (hk : ∃ c r, key = c :: r ∧ c.isAlpha = true)
    (hch : ∀ c ∈ key, c.isAlpha = true ∨ c.isDigit = true ∨ c = ':' ∨ c = ',')
    (hends : ∀ i ≤ key.length, CellText.low (key.drop i) ≠ ['u'] ∧ CellText.low (key.drop i) ≠ ['f', 'i', 'l', 'l'] ∧ CellText.low (key.drop i) ≠ ['m', 'a', 't'])
    (htr : CellText.low key ≠ ['t', 'r', 'c', 'l']) (hc : ∀ x, key.head? = some x → x ≠ 'c' ∧ x ≠ 'C') (hkr : ∀ x ∈ key, x.toLower ≠ 'k' ∧ x.toLower ≠ 'r')
    (hg : Gap gap ∧ gap ≠ []) : Nice ⟨false, key, ['='], .other [(w, [])], gap⟩ := by
  have h0 := hends 0 (by omega)
  rw [List.drop_zero] at h0
  refine ⟨⟨rfl, word_ok hw, hk, hch, h0.1, h0.2.1, htr, h0.2.2⟩, rfl, hg, fun _ => ⟨noEnd fun i hi => (hends i hi).1, noEnd fun i hi => (hends i hi).2.1,
    noEnd fun i hi => (hends i hi).2.2, hc, hkr⟩, ?_, ⟨by simp [Param.kind], by simp [Param.kind]⟩, ?_⟩
  · intro t ht; cases ht
  · intro _
    simpa [PVal.text, CellText.wordsText] using number_noparen hw

theorem vol_nice {f : Fmt} {i : Input} (hs : Signs f i) (c : Cell) : Nice (volParam f c) := by
  have hw : Number False (if c.void then T "1.0" else f.e (c.volume * (1 / 1000))) := by
    split
    · exact num_10
    · exact hs.e _
  exact other_nice (key := T "Vol") hw ⟨'V', ['o', 'l'], rfl, by decide⟩ (by decide) (by decide) (by decide) (by decide) (by decide) ⟨.line _ (gap_blanks 6), by simp⟩

theorem imp_nice (c : Cell) (x : Char) (hx : x = 'n' ∨ x = 'p') : Nice (impParam c x) := by
  have h0 : Number False ['0'] := num_int ⟨by decide, by decide⟩
  have g5 : Gap (T "     ") ∧ T "     " ≠ [] := ⟨gap_blanks 5, by decide⟩
  have g3 : Gap (T "   ") ∧ T "   " ≠ [] := ⟨gap_blanks 3, by decide⟩
  unfold impParam
  rcases hx with rfl | rfl
  · split
    · exact other_nice h0 ⟨'i', T "mp:n", rfl, by decide⟩ (by decide) (by decide) (by decide) (by decide) (by decide) g5
    · exact other_nice num_10 ⟨'i', T "mp:n", rfl, by decide⟩ (by decide) (by decide) (by decide) (by decide) (by decide) g3
  · split
    · exact other_nice h0 ⟨'i', T "mp:p", rfl, by decide⟩ (by decide) (by decide) (by decide) (by decide) (by decide) g5
    · exact other_nice num_10 ⟨'i', T "mp:p", rfl, by decide⟩ (by decide) (by decide) (by decide) (by decide) (by decide) g3

theorem digits_none {t : List Char} (h : Digits t) {x : Char} (hx : x.isDigit = false) : x ∉ t := fun hm => by
  have := h.2 _ hm
  rw [hx] at this
  cases this

theorem uni_nice {u : Int} (h : 0 ≤ u) : Nice (uniParam u) := by
  have hd := (digits_nat h).1
  refine ⟨⟨(by unfold CellText.Same; decide : CellText.Same ['u'] ['U']), rfl, [], _, rfl, Or.inl rfl, hd⟩, rfl, ⟨gap_blanks 2, by simp [uniParam, T]⟩, ?_, ?_,
    by simp [uniParam, Param.kind], ?_⟩
  · intro hk; cases hk
  · intro t ht; cases ht; exact digits_none hd (by decide)
  · intro _; exact digits_none hd (by decide)

theorem fill_nice {n : Int} {t : Option Int} (h : 0 ≤ n) (ht : ∀ m, t = some m → 0 ≤ m) : Nice (fillParam n t) := by
  have hd := (digits_nat h).1
  refine ⟨⟨(by unfold CellText.Same; decide : CellText.Same ['f', 'i', 'l', 'l'] (T "fill")), hd, ?_⟩, rfl, ⟨gap_blanks 2, by simp [fillParam, T]⟩, ?_, ?_,
    by simp [fillParam, Param.kind], ?_⟩
  · intro x hx
    cases t with
    | none => cases hx
    | some m =>
      simp only [Option.map_some, Option.some.injEq] at hx
      subst hx
      have hm := (digits_nat (ht m rfl)).1
      refine ⟨gap_blanks 2, .nil, word_ok (num_int hm), fun _ y hy => ?_⟩
      rw [List.mem_singleton.mp hy]
      exact hm
  · intro hk; cases hk
  · intro t ht; cases ht
  · intro hk; exact absurd rfl hk

theorem params_nice {f : Fmt} {i : Input} (hs : Signs f i) {c : Cell} (hc : c ∈ i.cells) (hr : c.real) : ∀ p ∈ params f i c, Nice p := by
  intro p hp
  unfold params at hp
  rcases List.mem_append.mp hp with hp | hp
  · split at hp
    · rw [List.mem_singleton.mp hp]; exact vol_nice hs c
    · cases hp
  · rcases List.mem_cons.mp hp with rfl | hp
    · exact imp_nice c _ (Or.inl rfl)
    · rcases List.mem_cons.mp hp with rfl | hp
      · exact imp_nice c _ (Or.inr rfl)
      · rcases List.mem_append.mp hp with hp | hp
        · cases hu : i.uni with
          | none => rw [hu] at hp; cases hp
          | some u => rw [hu] at hp; rw [List.mem_singleton.mp hp]; exact uni_nice (hs.uni u hu)
        · cases hf : c.fill with
          | none => rw [hf] at hp; cases hp
          | some n =>
            rw [hf] at hp
            rw [List.mem_singleton.mp hp]
            exact fill_nice ((hs.cells c hc hr).2.2.1 n hf) (hs.cells c hc hr).2.2.2

theorem imp_kind (c : Cell) (x : Char) : (impParam c x).kind = .other := by
  unfold impParam
  split <;> rfl

theorem params_once (f : Fmt) (i : Input) (c : Cell) : (params f i c).Pairwise (fun p q => p.kind = q.kind → p.kind = .other) := by
  unfold params
  have h1 := imp_kind c
  have h2 : (volParam f c).kind = .other := rfl
  have h3 : ∀ u, (uniParam u).kind = .uni := fun _ => rfl
  have h4 : ∀ n t, (fillParam n t).kind = .fill := fun _ _ => rfl
  cases i.volCARD <;> cases i.uni <;> cases c.fill <;> simp [h1, h2, h3, h4]

/-! ## the card -/

theorem joinLines_cons (a : List Char) (l : List (List Char)) : joinLines (a :: l) = a ++ l.flatMap ('\n' :: ·) := by
  unfold joinLines
  induction l generalizing a with
  | nil => simp [List.intercalate]
  | cons b l ih =>
    have : List.intercalate ['\n'] (a :: b :: l) = a ++ '\n' :: List.intercalate ['\n'] (b :: l) := by simp [List.intercalate, List.intersperse]
    rw [this, ih]
    simp

theorem lines_join : ∀ (s : List Char) (a : List Char) (l : List (List Char)), Wrap.linesOf s = a :: l → a ++ l.flatMap ('\n' :: ·) = s := by
  intro s a l h
  have := Wrap.unlines_linesOf s
  rw [h] at this
  have e : Wrap.unlines (a :: l) = (a ++ l.flatMap ('\n' :: ·)) ++ ['\n'] := by
    clear this h
    unfold Wrap.unlines
    induction l generalizing a with
    | nil => simp
    | cons b l ih =>
      rw [List.flatMap_cons, ih b]
      simp
  rw [e] at this
  exact List.append_cancel_right this

/-- the geometry of the card -/
theorem geometry_chars' : ∀ (d : List Char) (rest : List Char), (∀ x ∈ d, x.isDigit = true ∨ x ∈ ['-', '(', ')', ':', ' ']) → Geometry rest → Geometry (d ++ rest)
  | [], _, _, h => h
  | x :: d, rest, hd, h => by
    refine .char x _ ?_ (geometry_chars' d rest (fun y hy => hd y (List.mem_cons_of_mem _ hy)) h)
    rcases hd x List.mem_cons_self with h | h
    · exact Or.inr h
    · left
      revert h
      simp only [List.mem_cons, List.not_mem_nil, or_false]
      rintro (rfl | rfl | rfl | rfl | rfl) <;> simp

theorem geometry_lines : ∀ (ds : List (List Char)) (rest : List Char), (∀ t ∈ ds, (∃ r, t = List.replicate 11 ' ' ++ r) ∧ ∀ x ∈ t, x.isDigit = true ∨ x ∈ ['-', '(', ')', ':', ' ']) →
    Geometry rest → Geometry (ds.flatMap ('\n' :: ·) ++ rest)
  | [], _, _, h => h
  | t :: ds, rest, hd, h => by
    obtain ⟨⟨r, hr⟩, hx⟩ := hd t List.mem_cons_self
    have ih := geometry_lines ds rest (fun u hu => hd u (List.mem_cons_of_mem _ hu)) h
    have e : (t :: ds).flatMap ('\n' :: ·) ++ rest = '\n' :: ' ' :: ' ' :: ' ' :: ' ' :: ' ' :: ((List.replicate 6 ' ' ++ r) ++ (ds.flatMap ('\n' :: ·) ++ rest)) := by
      rw [hr]; simp [List.replicate]
    rw [e]
    refine .line _ (geometry_chars' _ _ (fun x hxm => hx x ?_) ih)
    rw [hr]
    rcases List.mem_append.mp hxm with h | h
    · rw [List.eq_of_mem_replicate h]; simp
    · simp [h]

theorem reads_ne {σ : Side} {k : Text.Rank} {ts : List Text.Tok} {b : Bool} (h : Text.Reads σ k ts b) : ts ≠ [] := by
  induction h with
  | num n _ => simp
  | paren _ _ => simp
  | one _ ih => exact ih
  | and _ _ ih _ => simp [ih]
  | single _ ih => exact ih
  | or _ _ _ _ => simp

/-- a definition is not blank -/
theorem region_ink {c : Cell} {out : List Char} (h : RegionWords c (Wrap.wordsOf out)) (hn : ∀ x ∈ out, x = '\n' ∨ x.isDigit = true ∨ x ∈ ['-', '(', ')', ':', ' ']) :
    ∃ x ∈ out, x ≠ ' ' ∧ x ≠ '\n' := by
  by_contra hx
  push Not at hx
  have hb : ∀ x ∈ out, x = ' ' ∨ x = '\n' := by
    intro x hm
    by_cases h0 : x = ' '
    · exact Or.inl h0
    · exact Or.inr (hx x hm h0)
  have hw : ∀ l : List Char, (∀ x ∈ l, x = ' ' ∨ x = '\n') → Wrap.wordsOf l = [] := by
    intro l
    induction l with
    | nil => intro _; rfl
    | cons x l ih =>
      intro hl
      have := ih (fun y hy => hl y (List.mem_cons_of_mem _ hy))
      rcases hl x List.mem_cons_self with rfl | rfl
      · rw [words_space]; exact this
      · exact this
  obtain ⟨ts, h1, h2⟩ := (h (fun _ => true) _).mpr rfl
  rw [hw out hb] at h1
  have : ts = [] := by
    have e : Text.tokensOf [] = some [] := rfl
    rw [e] at h1
    exact (Option.some.inj h1).symm
  exact reads_ne h2 this

/-- the card that GEOReverse reads -/
def writtenCard (f : Fmt) (i : Input) (c : Cell) (head : Head) : Written :=
  ⟨[], Text.strInt c.label, List.replicate (5 - (Text.strInt c.label).length) ' ' ++ [' '], head, params f i c⟩

theorem written_ok {f : Fmt} {i : Input} (hs : Signs f i) {c : Cell} (hc : c ∈ i.cells) (hr : c.real) {head : Head} (hh : head.Ok True) (hl : ¬ head.isLike) :
    (writtenCard f i c head).Ok True ∧ CellText.Usual (writtenCard f i c head) := by
  have hn := params_nice hs hc hr
  have ho := params_once f i c
  constructor
  · exact {
      blanks := ⟨fun c hc => (by cases hc), by simp [writtenCard]⟩
      name := (digits_nat (hs.cells c hc hr).1).1
      gap := ⟨by
        show Gap (List.replicate _ ' ' ++ [' '])
        rw [← List.replicate_succ']
        exact gap_blanks _, by simp [writtenCard]⟩
      head := hh
      params := ⟨fun p hp => (hn p hp).val, fun p hp => Or.inl ⟨[], [], (hn p hp).eq, fun c hc => (by cases hc), .nil⟩, fun p hp => (hn p hp).gap.1,
        fun p hp => (hn p (List.dropLast_subset _ hp)).gap.2, ho⟩
      mat := fun p hp hk => absurd hk (hn p hp).mat.1
      but := fun h => absurd h hl }
  · exact {
      gap := by
        show Blanks (List.replicate _ ' ' ++ [' '])
        rw [← List.replicate_succ']
        exact fun c hc => List.eq_of_mem_replicate hc
      eqs := fun p hp => ⟨[], [], (hn p hp).eq, fun c hc => (by cases hc), .nil, fun _ c hc => (by cases hc)⟩
      keys := fun p hp hk => (hn p hp).keys hk
      uni := fun p hp t ht => (hn p hp).uni t ht
      paren := by
        intro l p r hpr t ht q hq
        have hpr' : params f i c = l ++ p :: r := hpr
        refine (hn q (by rw [hpr']; simp [hq])).paren ?_
        intro hk
        rw [hpr'] at ho
        have := List.rel_of_pairwise_cons (List.pairwise_append.mp ho).2.1 hq
        have hpk : p.kind = .fill := by unfold Param.kind; rw [ht]
        rw [hpk, hk] at this
        exact absurd (this rfl) (by decide)
      like := by
        intro w g1 n g2 b g3 h
        exact absurd (show (writtenCard f i c head).head.isLike by rw [h]; trivial) hl }

theorem imp_val (c : Cell) (x : Char) : ∃ w, (impParam c x).val = .other w := by
  unfold impParam
  split <;> exact ⟨_, rfl⟩

theorem written_says {f : Fmt} {i : Input} (hs : Signs f i) {c : Cell} (hc : c ∈ i.cells) (hr : c.real) (head : Head) (F : CellText.Arith V) :
    (writtenCard f i c head).universe.map (fun n => (n : Int)) = i.uni ∧ (writtenCard f i c head).fill.map (fun n => (n : Int)) = c.fill
      ∧ (∀ r, (writtenCard f i c head).SaysTr F r → r = (match c.fill with | none => none | some _ => c.transform.map CellText.TrVal.number))
      ∧ (∀ r, (writtenCard f i c head).SaysTrcl F r → r = none) := by
  obtain ⟨w1, e1⟩ := imp_val c 'n'
  obtain ⟨w2, e2⟩ := imp_val c 'p'
  have ev : (volParam f c).val = .other [(if c.void then T "1.0" else f.e (c.volume * (1 / 1000)), [])] := rfl
  have hf := (hs.cells c hc hr).2.2.1
  have ht := (hs.cells c hc hr).2.2.2
  refine ⟨?_, ?_, ?_, ?_⟩
  · unfold Written.universe writtenCard params
    cases hv : i.volCARD <;> cases hu : i.uni <;> cases hfl : c.fill <;> simp [e1, e2, ev, List.findSome?_cons, uniParam, fillParam]
    all_goals
      have := digits_nat (hs.uni _ hu)
      rw [List.filter_eq_self.mpr this.1.2]
      exact this.2
  · unfold Written.fill writtenCard params
    cases hv : i.volCARD <;> cases hu : i.uni <;> cases hfl : c.fill <;> simp [e1, e2, ev, List.findSome?_cons, uniParam, fillParam]
    all_goals exact (digits_nat (hf _ hfl)).2
  · intro r hsr
    have ep : (writtenCard f i c head).trParam = (match c.fill with | none => none | some _ => some (false, c.transform.map (fun t => (T "  ", [], [(Text.strInt t, [])])))) := by
      unfold Written.trParam writtenCard params
      cases hv : i.volCARD <;> cases hu : i.uni <;> cases hfl : c.fill <;> simp [e1, e2, ev, List.findSome?_cons, uniParam, fillParam]
    unfold Written.SaysTr at hsr
    rw [ep] at hsr
    cases hfl : c.fill with
    | none => rw [hfl] at hsr; exact hsr
    | some n =>
      rw [hfl] at hsr
      cases htr : c.transform with
      | none => rw [htr] at hsr; exact hsr
      | some t =>
        rw [htr] at hsr
        simp only [Option.map_some, List.length_cons, List.length_nil, Nat.zero_add, if_true, List.mem_singleton, forall_eq] at hsr
        rw [hsr, (digits_nat (ht t htr)).2]
        rfl
  · intro r hsr
    have ep : (writtenCard f i c head).trclParam = none := by
      unfold Written.trclParam writtenCard params
      cases hv : i.volCARD <;> cases hu : i.uni <;> cases hfl : c.fill <;> simp [e1, e2, ev, List.findSome?_cons, uniParam, fillParam]
    unfold Written.SaysTrcl at hsr
    rw [ep] at hsr
    exact hsr

theorem words_blank_front : ∀ (b : List Char) (r : List Char), (∀ x ∈ b, x = ' ') → Wrap.wordsOf (b ++ r) = Wrap.wordsOf r
  | [], _, _ => rfl
  | x :: b, r, h => by
    rw [h x List.mem_cons_self, List.cons_append, words_space]
    exact words_blank_front b r (fun y hy => h y (List.mem_cons_of_mem _ hy))

theorem words_tail (out : List Char) : Wrap.wordsOf (out ++ '\n' :: tab11) = Wrap.wordsOf out := by
  have e : out ++ '\n' :: tab11 = (out ++ ['\n']) ++ List.replicate 11 ' ' := by simp [tab11]
  rw [e, words_blank_end]
  exact Wrap.wf_wsTail out ['\n'] (by decide) []

/-- the geometry: blanks, the definition, and the gap before the options -/
theorem geo_ok {c : Cell} {b out d0 : List Char} {ds : List (List Char)} (hb : b ≠ [] ∧ ∀ x ∈ b, x = ' ') (hl : Wrap.linesOf out = d0 :: ds) (hreg : RegionWords c (Wrap.wordsOf out))
    (hch : ∀ x ∈ out, x = '\n' ∨ x.isDigit = true ∨ x ∈ ['-', '(', ')', ':', ' ']) (hds : ∀ t ∈ ds, ∃ r, t = List.replicate 11 ' ' ++ r) :
    GeometryOk (b ++ (out ++ '\n' :: tab11)) ∧ RegionWords c (Wrap.wordsOf (b ++ (out ++ '\n' :: tab11))) := by
  have hout := lines_join out d0 ds hl
  have hline : ∀ t ∈ d0 :: ds, ∀ x ∈ t, x.isDigit = true ∨ x ∈ ['-', '(', ')', ':', ' '] := by
    intro t ht x hx
    rw [← hl] at ht
    obtain ⟨h1, h2⟩ := mem_linesOf ht hx
    exact (hch x h1).resolve_left h2
  refine ⟨⟨?_, ?_, ?_⟩, ?_⟩
  · refine geometry_chars' b _ (fun x hx => Or.inr (by rw [hb.2 x hx]; simp)) ?_
    rw [← hout, List.append_assoc]
    refine geometry_chars' d0 _ (hline d0 List.mem_cons_self) (geometry_lines ds _ (fun t ht => ⟨hds t ht, hline t (List.mem_cons_of_mem _ ht)⟩) ?_)
    have g : Geometry (List.replicate 6 ' ') := by
      simpa using geometry_chars' (List.replicate 6 ' ') [] (fun x hx => by rw [List.eq_of_mem_replicate hx]; simp) .nil
    exact .line _ g
  · obtain ⟨x, b', rfl⟩ := List.exists_cons_of_ne_nil hb.1
    exact ⟨x, _, rfl, Or.inl (hb.2 x List.mem_cons_self)⟩
  · obtain ⟨x, hx, hx'⟩ := region_ink hreg hch
    exact ⟨x, by simp [hx], hx'⟩
  · rw [words_blank_front b _ hb.2, words_tail]
    exact hreg

theorem laid_read {F : CellText.Arith V} (hF : ∀ t, Number False t → ∃ v, F.flt t = some v) {f : Fmt} {i : Input} (hs : Signs f i) {c : Cell} (hc : c ∈ i.cells) (hr : c.real)
    {texts : List (List Char)} (h : Laid f i c texts) : ∃ n r, CellText.readCell F (joinLines texts) = .ok (n, r) ∧ CellRead i c n r := by
  obtain ⟨h, d0, ds, out, hh, hl, hreg, hch, hds, rfl⟩ := h
  have htext : joinLines ((h ++ d0) :: (ds ++ optLines f i c)) = h ++ (out ++ '\n' :: (tab11 ++ CellText.paramsText (params f i c))) := by
    rw [joinLines_cons, List.flatMap_append, params_text, ← lines_join out d0 ds hl]
    simp
  have key : ∀ (head : Head) (geo : List Char) (m : Nat), head.Ok True → ¬ head.isLike → (writtenCard f i c head).text = joinLines ((h ++ d0) :: (ds ++ optLines f i c)) →
      (writtenCard f i c head).geometry = some geo → RegionWords c (Wrap.wordsOf geo) → (writtenCard f i c head).material = some m → (m : Int) = c.material →
      (writtenCard f i c head).like = none →
      ∃ n r, CellText.readCell F (joinLines ((h ++ d0) :: (ds ++ optLines f i c))) = .ok (n, r) ∧ CellRead i c n r := by
    intro head geo m h1 h2 h3 h4 h5 h6 h7 h8
    obtain ⟨ok, us⟩ := written_ok hs hc hr h1 h2
    obtain ⟨n, r, e, ag⟩ := CellText.C80_card_partial F hF _ ok us
    obtain ⟨s1, s2, s3, s4⟩ := written_says hs hc hr head F
    rw [h3] at e
    refine ⟨n, r, e, ?_, ?_, ⟨m, by rw [ag.mat, h6], h7⟩, by rw [ag.like, h8], by rw [ag.geom geo h4]; exact h5, by rw [ag.u, s1], by rw [ag.fill, s2], s3 _ ag.tr, s4 _ ag.trcl⟩
    · rw [ag.key]; exact (digits_nat (hs.cells c hc hr).1).2
    · rw [ag.name]; exact (digits_nat (hs.cells c hc hr).1).2
  unfold cellHeader at hh
  by_cases h0 : c.material = 0
  · rw [if_pos h0] at hh
    obtain ⟨g1, g2⟩ := geo_ok (b := List.replicate 6 ' ') ⟨by simp, fun x hx => List.eq_of_mem_replicate hx⟩ hl hreg hch hds
    refine key (.void (List.replicate 6 ' ' ++ (out ++ '\n' :: tab11))) _ 0 g1 (fun h => h) ?_ rfl g2 rfl (by rw [h0]; rfl) rfl
    rw [htext]
    have : h = padRight 5 (Text.strInt c.label) ++ ' ' :: padRight 5 (T "0") ++ T "  " := (Except.ok.inj hh).symm
    rw [this]
    simp [Written.text, writtenCard, Head.text, padRight, T, List.replicate]
  · rw [if_neg h0] at hh
    cases hd : c.density with
    | none => rw [hd] at hh; cases hh
    | some d =>
      rw [hd] at hh
      obtain ⟨nb, w, hw, hnum⟩ : ∃ n w, (if |d| < 1 / 100 then f.e4 d else f.f7 d) = List.replicate n ' ' ++ w ∧ Number True w := by
        split
        · exact hs.e4 d
        · exact hs.f7 d
      have hdig := digits_nat (hs.cells c hc hr).2.1
      obtain ⟨g1, g2⟩ := geo_ok (b := [' ']) ⟨by simp, fun x hx => List.mem_singleton.mp hx⟩ hl hreg hch hds
      refine key (.material (Text.strInt c.material) (List.replicate (5 - (Text.strInt c.material).length) ' ' ++ ' ' :: List.replicate nb ' ') w ([' '] ++ (out ++ '\n' :: tab11))) _
        (value (Text.strInt c.material)) ⟨hdig.1, ?_, ?_, by simp, hnum, g1⟩ (fun h => h) ?_ rfl g2 rfl hdig.2 rfl
      · unfold Text.strInt
        rw [if_neg (by have := (hs.cells c hc hr).2.1; omega)]
        exact toDigits_head (by omega)
      · have : List.replicate (5 - (Text.strInt c.material).length) ' ' ++ ' ' :: List.replicate nb ' ' = List.replicate (5 - (Text.strInt c.material).length + (nb + 1)) ' ' := by
          rw [List.replicate_add, List.replicate_succ]
        rw [this]
        exact gap_blanks _
      · rw [htext]
        have : h = padRight 5 (Text.strInt c.label) ++ ' ' :: padRight 5 (Text.strInt c.material) ++ ' ' :: (if |d| < 1 / 100 then f.e4 d else f.f7 d) ++ [' '] := (Except.ok.inj hh).symm
        rw [this, hw]
        simp [Written.text, writtenCard, Head.text, padRight]

end Geouned.McnpFile
