import Verif.CellText.Model
import Mathlib.Tactic.Tauto
/-!
# Numbers in a text
-/
namespace Geouned.CellText

variable {V : Type}

/-- a number ends here -/
def Stop (r : List Char) : Prop := ∀ c, r.head? = some c → c.isDigit = false ∧ c ≠ '.' ∧ c ≠ 'e' ∧ c ≠ 'E'

/-- no number begins here -/
def Quiet (c : Char) : Prop := c.isDigit = false ∧ c ≠ '.' ∧ c ≠ '+' ∧ c ≠ '-'

theorem takeWhile_digits {a r : List Char} (ha : ∀ c ∈ a, c.isDigit = true) (hr : ∀ c, r.head? = some c → c.isDigit = false) :
    (a ++ r).takeWhile Char.isDigit = a ∧ (a ++ r).dropWhile Char.isDigit = r := by
  induction a with
  | nil =>
    cases r with
    | nil => simp
    | cons c r =>
      have := hr c rfl
      simp [List.takeWhile_cons, List.dropWhile_cons, this]
  | cons x a ih =>
    have hx := ha x List.mem_cons_self
    obtain ⟨h1, h2⟩ := ih (fun c hc => ha c (List.mem_cons_of_mem _ hc))
    rw [List.cons_append, List.takeWhile_cons, List.dropWhile_cons, if_pos hx, if_pos hx, h1, h2]
    exact ⟨rfl, rfl⟩

theorem sign_of_digit {c : Char} (h : c.isDigit = true) : c ≠ '+' ∧ c ≠ '-' ∧ c ≠ '.' ∧ c ≠ 'e' ∧ c ≠ 'E' := by
  refine ⟨?_, ?_, ?_, ?_, ?_⟩ <;> (rintro rfl; revert h; decide)

theorem mantissa_head {m : List Char} (h : Mantissa m) : ∃ c r, m = c :: r ∧ (c.isDigit = true ∨ c = '.') := by
  cases h with
  | int a ha =>
    cases m with
    | nil => exact absurd rfl ha.1
    | cons c r => exact ⟨c, r, rfl, Or.inl (ha.2 c List.mem_cons_self)⟩
  | point a b ha hb hab =>
    cases a with
    | nil => exact ⟨'.', b, rfl, Or.inr rfl⟩
    | cons c r => exact ⟨c, r ++ '.' :: b, rfl, Or.inl (ha c List.mem_cons_self)⟩

/-- what follows a mantissa -/
def StopM (r : List Char) : Prop := ∀ c, r.head? = some c → c.isDigit = false ∧ c ≠ '.'

theorem matchMantissa_ok {m r : List Char} (h : Mantissa m) (hr : StopM r) : matchMantissa (m ++ r) = some (m, r) := by
  cases h with
  | int a ha =>
    obtain ⟨h1, h2⟩ := takeWhile_digits ha.2 (fun c hc => (hr c hc).1)
    unfold matchMantissa
    simp only [h1, h2]
    split
    · next q =>
      exact absurd rfl (hr '.' rfl).2
    · rw [if_neg ha.1]
  | point a b ha hb hab =>
    have e : a ++ '.' :: b ++ r = a ++ ('.' :: (b ++ r)) := by simp
    obtain ⟨h1, h2⟩ := takeWhile_digits (r := '.' :: (b ++ r)) ha (fun c hc => by cases Option.some.inj hc; decide)
    obtain ⟨h3, h4⟩ := takeWhile_digits (r := r) hb (fun c hc => (hr c hc).1)
    unfold matchMantissa
    rw [e]
    simp only [h1, h2, h3, h4]
    rw [if_neg (by tauto)]

theorem matchSign_ok {s r : List Char} (h : Sign s) (hr : ∀ c, r.head? = some c → c ≠ '+' ∧ c ≠ '-') : matchSign (s ++ r) = (s, r) := by
  rcases h with rfl | rfl | rfl
  · cases r with
    | nil => rfl
    | cons c r =>
      have := hr c rfl
      simp [matchSign, this.1, this.2]
  · rfl
  · rfl

theorem mantissa_nosign {m r : List Char} (h : Mantissa m) : ∀ c, (m ++ r).head? = some c → c ≠ '+' ∧ c ≠ '-' := by
  obtain ⟨c, q, rfl, hc⟩ := mantissa_head h
  intro x hx
  cases Option.some.inj hx
  rcases hc with hc | rfl
  · exact ⟨(sign_of_digit hc).1, (sign_of_digit hc).2.1⟩
  · decide

theorem matchExp_none {r : List Char} (hr : Stop r) : matchExp r = ([], r) := by
  unfold matchExp
  split
  · next e g q =>
    rw [if_neg]
    intro h
    have := hr e rfl
    tauto
  · rfl

theorem matchNum_ok {t r : List Char} (h : Number True t) (hr : Stop r) : matchNum (t ++ r) = some (t, r) := by
  cases h with
  | plain s m hs hm =>
    unfold matchNum
    rw [List.append_assoc, matchSign_ok hs (mantissa_nosign hm)]
    dsimp only
    rw [matchMantissa_ok hm (fun c hc => ⟨(hr c hc).1, (hr c hc).2.1⟩)]
    simp only [Option.map_some, matchExp_none hr, List.append_nil]
  | exp s m e g d hs hm he hg hd hst =>
    have e1 : s ++ m ++ e :: (g ++ d) ++ r = s ++ (m ++ (e :: (g ++ d) ++ r)) := by simp
    unfold matchNum
    rw [e1, matchSign_ok hs (mantissa_nosign hm)]
    dsimp only
    rw [matchMantissa_ok hm (fun c hc => by
      have : c = e := (Option.some.inj hc).symm
      subst this
      rcases he with rfl | rfl <;> decide)]
    obtain ⟨h1, h2⟩ := takeWhile_digits (r := r) hd.2 (fun c hc => (hr c hc).1)
    have h3 : matchExp (e :: (g ++ d) ++ r) = (e :: (g ++ d), r) := by
      rcases hg with rfl | rfl | rfl
      · exact absurd rfl (hst trivial)
      · simp only [List.cons_append, List.nil_append, matchExp, h1, h2]
        rw [if_pos ⟨he, by simp, hd.1⟩]
      · simp only [List.cons_append, List.nil_append, matchExp, h1, h2]
        rw [if_pos ⟨he, by simp, hd.1⟩]
    simp only [Option.map_some, h3, List.append_assoc]

theorem matchNum_quiet {c : Char} (s : List Char) (h : Quiet c) : matchNum (c :: s) = none := by
  have h1 : matchSign (c :: s) = ([], c :: s) := by simp [matchSign, h.2.2.1, h.2.2.2]
  unfold matchNum
  rw [h1]
  have : matchMantissa (c :: s) = none := by
    unfold matchMantissa
    simp only [List.takeWhile_cons, List.dropWhile_cons, h.1]
    simp only [Bool.false_eq_true, if_false]
    split
    · next q heq =>
      exact absurd (List.cons.inj heq).1 h.2.1
    · simp
  dsimp only
  rw [this]
  rfl

theorem number_ne {t : List Char} {P : Prop} (h : Number P t) : t ≠ [] := by
  cases h with
  | plain s m hs hm =>
    obtain ⟨c, r, rfl, _⟩ := mantissa_head hm
    simp
  | exp s m e g d hs hm he hg hd hst => simp

theorem searchNum_ok {q t r : List Char} (hq : ∀ c ∈ q, Quiet c) (h : Number True t) (hr : Stop r) : searchNum (q ++ (t ++ r)) = some (q, t, r) := by
  induction q with
  | nil =>
    have hm := matchNum_ok h hr
    rw [List.nil_append]
    cases ht : t ++ r with
    | nil => exact absurd (List.append_eq_nil_iff.mp ht).1 (number_ne h)
    | cons c s =>
      rw [ht] at hm
      unfold searchNum
      rw [hm]
  | cons c q ih =>
    rw [List.cons_append]
    unfold searchNum
    rw [matchNum_quiet _ (hq c List.mem_cons_self), ih (fun x hx => hq x (List.mem_cons_of_mem _ hx))]
    rfl

theorem searchEntry_num {q t r : List Char} (hq : ∀ c ∈ q, Quiet c ∧ c ≠ ')') (h : Number True t) (hr : Stop r) :
    searchEntry (q ++ (t ++ r)) = some (some t, r) := by
  induction q with
  | nil =>
    have hm := matchNum_ok h hr
    rw [List.nil_append]
    cases ht : t ++ r with
    | nil => exact absurd (List.append_eq_nil_iff.mp ht).1 (number_ne h)
    | cons c s =>
      rw [ht] at hm
      unfold searchEntry
      rw [hm]
  | cons c q ih =>
    rw [List.cons_append]
    unfold searchEntry
    rw [matchNum_quiet _ (hq c List.mem_cons_self).1]
    dsimp only
    rw [if_neg (hq c List.mem_cons_self).2, ih (fun x hx => hq x (List.mem_cons_of_mem _ hx))]

theorem searchEntry_close {q r : List Char} (hq : ∀ c ∈ q, Quiet c ∧ c ≠ ')') : searchEntry (q ++ ')' :: r) = some (none, r) := by
  induction q with
  | nil =>
    rw [List.nil_append]
    unfold searchEntry
    rw [matchNum_quiet _ (by unfold Quiet; decide)]
    simp
  | cons c q ih =>
    rw [List.cons_append]
    unfold searchEntry
    rw [matchNum_quiet _ (hq c List.mem_cons_self).1]
    dsimp only
    rw [if_neg (hq c List.mem_cons_self).2, ih (fun x hx => hq x (List.mem_cons_of_mem _ hx))]

theorem gap_mem {g : List Char} (h : Gap g) : ∀ c ∈ g, c = ' ' ∨ c = '\n' := by
  induction h with
  | nil => simp
  | blank g _ ih =>
    intro c hc
    rcases List.mem_cons.mp hc with rfl | hc
    · exact Or.inl rfl
    · exact ih c hc
  | line g _ ih =>
    intro c hc
    simp only [List.mem_cons] at hc
    rcases hc with h | h | h | h | h | h | h <;> first | exact Or.inr h | exact Or.inl h | exact ih c h

theorem gap_quiet {g : List Char} (h : Gap g) : ∀ c ∈ g, Quiet c ∧ c ≠ ')' := by
  intro c hc
  rcases gap_mem h c hc with rfl | rfl <;> (unfold Quiet; decide)

/-- a text that begins with a blank, a line end or a parenthesis, or is empty -/
def Sep (r : List Char) : Prop := ∀ c, r.head? = some c → c = ' ' ∨ c = '\n' ∨ c = '(' ∨ c = ')'

theorem sep_stop {r : List Char} (h : Sep r) : Stop r := by
  intro c hc
  rcases h c hc with rfl | rfl | rfl | rfl <;> decide

theorem sep_gap {g r : List Char} (hg : Gap g) (h : g = [] → Sep r) : Sep (g ++ r) := by
  cases g with
  | nil => exact h rfl
  | cons x g =>
    intro c hc
    cases Option.some.inj hc
    rcases gap_mem hg x List.mem_cons_self with h | h
    · exact Or.inl h
    · exact Or.inr (Or.inl h)

theorem wordsText_cons (x : List Char × List Char) (w : Words) : wordsText (x :: w) = x.1 ++ (x.2 ++ wordsText w) := by simp [wordsText]

theorem wordsText_nil : wordsText [] = [] := rfl

/-- the loop over the entries in parentheses -/
theorem entriesLoop_ok (F : Arith V) {w : Words} {r : List Char} {raw : List V} (hn : ∀ x ∈ w, Number True x.1) (hg : ∀ x ∈ w, Gap x.2)
    (ha : ∀ x ∈ w.dropLast, x.2 ≠ []) (hv : (w.map (·.1)).mapM F.flt = some raw) :
    ∀ (q : List Char) (n : Nat), (∀ c ∈ q, Quiet c ∧ c ≠ ')') → w.length < n → entriesLoop F n (q ++ (wordsText w ++ ')' :: r)) = .ok raw := by
  induction w generalizing raw with
  | nil =>
    intro q n hq hlt
    simp only [List.map_nil, List.mapM_nil, Option.pure_def, Option.some.injEq] at hv
    subst hv
    match n, hlt with
    | n + 1, _ =>
      rw [wordsText_nil, List.nil_append]
      unfold entriesLoop
      rw [searchEntry_close hq]
  | cons x w ih =>
    intro q n hq hlt
    match n, hlt with
    | n + 1, hlt =>
      rw [List.map_cons, List.mapM_cons] at hv
      cases hx : F.flt x.1 with
      | none => rw [hx] at hv; simp at hv
      | some v =>
        cases hw : (w.map (·.1)).mapM F.flt with
        | none => rw [hx, hw] at hv; simp at hv
        | some vs =>
          rw [hx, hw] at hv
          simp only [Option.pure_def, Option.bind_eq_bind, Option.bind_some, Option.some.injEq] at hv
          subst hv
          have e : q ++ (wordsText (x :: w) ++ ')' :: r) = q ++ (x.1 ++ (x.2 ++ (wordsText w ++ ')' :: r))) := by
            rw [wordsText_cons]; simp
          have hsep : Sep (x.2 ++ (wordsText w ++ ')' :: r)) := by
            refine sep_gap (hg x List.mem_cons_self) (fun h0 => ?_)
            cases w with
            | nil =>
              intro c hc
              cases Option.some.inj hc
              simp
            | cons y w => exact absurd h0 (ha x (by simp))
          unfold entriesLoop
          rw [e, searchEntry_num hq (hn x List.mem_cons_self) (sep_stop hsep)]
          dsimp only
          have h2 := ih (raw := vs) (fun y hy => hn y (List.mem_cons_of_mem _ hy)) (fun y hy => hg y (List.mem_cons_of_mem _ hy))
            (fun y hy => ha y (by
              cases w with
              | nil => simp at hy
              | cons z w => exact List.mem_cons_of_mem _ hy)) hw x.2 n (gap_quiet (hg x List.mem_cons_self)) (by simp at hlt; omega)
          have h3 : pyFloat F x.1 = .ok v := by unfold pyFloat; rw [hx]
          rw [h2, h3]
          rfl

theorem toCosines_eq (F : Arith V) (star : Bool) (raw : List V) :
    toCosines F star raw = raw.mapIdx (fun i v => if star = true ∧ 3 ≤ i ∧ i < 12 then F.cosd v else v) := by
  unfold toCosines
  cases star with
  | false =>
    apply List.ext_getElem?
    intro i
    simp
  | true =>
    apply List.ext_getElem?
    intro i
    by_cases h : 3 < raw.length
    · rw [if_pos ⟨rfl, h⟩, List.getElem?_mapIdx]
      simp only [true_and]
      by_cases h1 : i < 3
      · rw [List.append_assoc, List.getElem?_append_left (by simp; omega), List.getElem?_take, if_pos h1]
        cases raw[i]? with
        | none => rfl
        | some v => simp [show ¬ 3 ≤ i by omega]
      · rw [List.append_assoc, List.getElem?_append_right (by simp; omega)]
        simp only [List.length_take]
        rw [Nat.min_eq_left (by omega)]
        by_cases h2 : i < 12
        · by_cases h3 : i < raw.length
          · rw [List.getElem?_append_left (by simp; omega), List.getElem?_map, List.getElem?_take, if_pos (by omega), List.getElem?_drop,
              show 3 + (i - 3) = i by omega]
            cases raw[i]? with
            | none => rfl
            | some v => simp [show 3 ≤ i by omega, h2]
          · rw [List.getElem?_eq_none (by simp; omega), List.getElem?_eq_none (by omega)]
            rfl
        · rw [List.getElem?_append_right (by simp; omega), List.getElem?_drop]
          simp only [List.length_map, List.length_take, List.length_drop]
          by_cases h3 : i < raw.length
          · rw [Nat.min_eq_left (by omega), show 12 + (i - 3 - 9) = i by omega]
            cases raw[i]? with
            | none => rfl
            | some v => simp [h2]
          · rw [List.getElem?_eq_none (by omega), List.getElem?_eq_none (by omega)]
            rfl
    · rw [if_neg (by omega), List.getElem?_mapIdx]
      by_cases h3 : i < raw.length
      · cases raw[i]? with
        | none => rfl
        | some v => simp [show ¬ 3 ≤ i by omega]
      · rw [List.getElem?_eq_none (by omega)]
        rfl

theorem pyInt_digits {d : List Char} (h : Digits d) : pyInt d = .ok (value d) := by
  have : matchSign d = ([], d) := by
    cases d with
    | nil => rfl
    | cons c r =>
      have := sign_of_digit (h.2 c List.mem_cons_self)
      simp [matchSign, this.1, this.2.1]
  unfold pyInt
  rw [this]
  dsimp only
  rw [if_pos ⟨h.1, h.2⟩, if_neg (by decide)]

theorem pyInt_signed {s d : List Char} (hs : Sign s) (h : Digits d) (hm : s ≠ ['-']) : pyInt (s ++ d) = .ok (value d) := by
  have : matchSign (s ++ d) = (s, d) := matchSign_ok hs (fun c hc => by
    cases d with
    | nil => cases hc
    | cons x r =>
      have hx : x = c := Option.some.inj hc
      have := sign_of_digit (h.2 x List.mem_cons_self)
      rw [← hx]
      exact ⟨this.1, this.2.1⟩)
  unfold pyInt
  rw [this]
  dsimp only
  rw [if_pos ⟨h.1, h.2⟩, if_neg hm]

theorem number_digits {d : List Char} (P : Prop) (h : Digits d) : Number P d := by
  have := Number.plain (strict := P) [] d (Or.inl rfl) (.int d h)
  rwa [List.nil_append] at this

theorem number_signed {s d : List Char} (P : Prop) (hs : Sign s) (h : Digits d) : Number P (s ++ d) := .plain s d hs (.int d h)

theorem number_weaken {t : List Char} (h : Number True t) : Number False t := by
  cases h with
  | plain s m hs hm => exact .plain s m hs hm
  | exp s m e g d hs hm he hg hd hst => exact .exp s m e g d hs hm he hg hd (fun h => h.elim)

end Geouned.CellText
