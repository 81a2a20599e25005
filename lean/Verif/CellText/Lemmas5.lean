import Verif.CellText.Lemmas4
import Mathlib.Tactic.IntervalCases
/-!
# The first words of a card
-/
namespace Geouned.CellText

variable {V : Type}

theorem digit_lower {c : Char} (h : c.isDigit = true) : c.toLower = c := by
  unfold Char.isDigit at h
  rw [Bool.and_eq_true] at h
  obtain ⟨h1, h2⟩ := h
  have h1 : '0'.val ≤ c.val := of_decide_eq_true h1
  have h2 : c.val ≤ '9'.val := of_decide_eq_true h2
  unfold Char.toLower
  rw [dif_neg]
  rintro ⟨h3, _⟩
  have h4 : 'A'.val ≤ '9'.val := UInt32.le_trans h3 h2
  exact absurd h4 (by decide)

theorem digit_not {c : Char} (h : c.isDigit = true) : c.toLower ≠ 'k' ∧ c.toLower ≠ 'r' ∧ c.toLower ≠ 'b' := by
  rw [digit_lower h]
  refine ⟨?_, ?_, ?_⟩ <;> (rintro rfl; revert h; decide)

theorem numChar_not {c : Char} (h : NumChar c) : c.toLower ≠ 'k' ∧ c.toLower ≠ 'r' := by
  rcases h with h | rfl | rfl | rfl | rfl | rfl
  · exact ⟨(digit_not h).1, (digit_not h).2.1⟩
  all_goals decide

theorem valChar_not {c : Char} (h : ValChar c) : c.toLower ≠ 'k' ∧ c.toLower ≠ 'r' := by
  rcases h with h | rfl | rfl | rfl | rfl
  · exact numChar_not h
  all_goals decide

/-- the letter does not occur -/
def Without (x : Char) (s : List Char) : Prop := ∀ c ∈ s, c.toLower ≠ x

theorem hasInfix_mem {word s : List Char} (h : hasInfix word s = true) : ∀ c ∈ word, c ∈ s := by
  induction s with
  | nil =>
    intro c hc
    simp only [hasInfix, decide_eq_true_eq] at h
    rw [h] at hc
    exact hc
  | cons x s ih =>
    intro c hc
    rw [hasInfix, Bool.or_eq_true] at h
    rcases h with h | h
    · exact (List.isPrefixOf_iff_prefix.mp h).subset hc
    · exact List.mem_cons_of_mem _ (ih h c hc)

theorem hasInfix_false {s : List Char} (h : Without 'k' s) : hasInfix ['l', 'i', 'k', 'e'] s = false ∧ hasInfix ['l', 'i', 'k', 'e', ' '] (low s) = false := by
  constructor
  · cases hi : hasInfix ['l', 'i', 'k', 'e'] s with
    | false => rfl
    | true => exact absurd (by decide) (h 'k' (hasInfix_mem hi 'k' (by simp)))
  · cases hi : hasInfix ['l', 'i', 'k', 'e', ' '] (low s) with
    | false => rfl
    | true =>
      obtain ⟨c, hc, hk⟩ := List.mem_map.mp (hasInfix_mem hi 'k' (by simp))
      exact absurd hk (h c hc)

theorem hasInfix_true {word : List Char} (u s : List Char) (hw : word ≠ []) : hasInfix word (u ++ (word ++ s)) = true := by
  induction u with
  | nil =>
    rw [List.nil_append]
    cases hs : word ++ s with
    | nil => exact absurd (List.append_eq_nil_iff.mp hs).1 hw
    | cons c r =>
      rw [hasInfix, Bool.or_eq_true]
      left
      rw [← hs]
      exact List.isPrefixOf_iff_prefix.mpr (List.prefix_append _ _)
  | cons c u ih =>
    rw [List.cons_append, hasInfix, ih, Bool.or_true]

theorem hasTrcl_false {s : List Char} (h : Without 'r' s) : hasTrcl s = false := by
  induction s with
  | nil => rfl
  | cons c s ih =>
    rw [hasTrcl, ih (fun x hx => h x (List.mem_cons_of_mem _ hx)), Bool.or_false, decide_eq_false_iff_not]
    intro h0
    have : 'r' ∈ low ((c :: s).take 4) := by rw [h0]; simp
    obtain ⟨x, hx, hr⟩ := List.mem_map.mp this
    exact h x (List.mem_of_mem_take hx) hr

theorem hasTrcl_true {k : List Char} (u s : List Char) (hk : low k = ['t', 'r', 'c', 'l']) : hasTrcl (u ++ (k ++ s)) = true := by
  induction u with
  | nil =>
    rw [List.nil_append]
    have hl : k.length = 4 := by
      have := congrArg List.length hk
      simpa [low] using this
    cases hs : k ++ s with
    | nil =>
      rw [(List.append_eq_nil_iff.mp hs).1] at hl
      simp at hl
    | cons c r =>
      rw [hasTrcl, Bool.or_eq_true]
      left
      rw [← hs, List.take_left' hl, hk]
      rfl
  | cons c u ih => rw [List.cons_append, hasTrcl, ih, Bool.or_true]

theorem split_ne {s : List Char} (h : ∃ c ∈ s, isWhite c = false) : pySplit s ≠ [] := by
  have key : ∀ (s cur : List Char), (cur ≠ [] ∨ ∃ c ∈ s, isWhite c = false) → pySplitAux cur s ≠ [] := by
    intro s
    induction s with
    | nil =>
      intro cur h
      rcases h with h | ⟨c, hc, _⟩
      · simp [pySplitAux, h]
      · cases hc
    | cons x s ih =>
      intro cur h
      unfold pySplitAux
      by_cases hx : isWhite x = true
      · rw [if_pos hx]
        by_cases h0 : cur = []
        · rw [if_pos h0]
          refine ih _ (Or.inr ?_)
          rcases h with h | ⟨c, hc, hw⟩
          · exact absurd h0 h
          · rcases List.mem_cons.mp hc with rfl | hc
            · rw [hx] at hw; cases hw
            · exact ⟨c, hc, hw⟩
        · rw [if_neg h0]
          simp
      · rw [if_neg hx]
        exact ih _ (Or.inl (by simp))
  exact key s [] (Or.inr h)

theorem digits_white {d : List Char} (h : Digits d) : ∀ c ∈ d, isWhite c = false := fun c hc => numChar_white (Or.inl (h.2 c hc))

theorem blanks_gap {g : List Char} (h : Blanks g) : Gap g := by
  induction g with
  | nil => exact .nil
  | cons c g ih =>
    rw [h c List.mem_cons_self]
    exact .blank g (ih (fun x hx => h x (List.mem_cons_of_mem _ hx)))

theorem gap_head_white {g : List Char} (hg : Gap g) (hne : g ≠ []) (s : List Char) : ∀ c, (g ++ s).head? = some c → isWhite c = true := by
  cases g with
  | nil => exact absurd rfl hne
  | cons x g =>
    intro c hc
    cases Option.some.inj hc
    exact gap_white hg _ List.mem_cons_self

/-- the first two words -/
theorem split_two {b n g m : List Char} (hb : Gap b) (hn : n ≠ [] ∧ ∀ c ∈ n, isWhite c = false) (hg : Gap g) (hgn : g ≠ []) (hm : m ≠ [] ∧ ∀ c ∈ m, isWhite c = false) {s : List Char}
    (hs : ∀ c, s.head? = some c → isWhite c = true) : pySplit (b ++ (n ++ (g ++ (m ++ s)))) = n :: m :: pySplit s := by
  rw [split_gap (gap_white hb), split_word hn.2 hn.1 (gap_head_white hg hgn _), split_gap (gap_white hg), split_word hm.2 hm.1 hs]

def unEq (c : Char) : Char := if c = '=' then ' ' else c

theorem unEq_id {s : List Char} (h : '=' ∉ s) : s.map unEq = s := by
  conv => rhs; rw [← List.map_id s]
  refine List.map_congr_left (fun c hc => ?_)
  unfold unEq
  rw [if_neg (fun h0 => h (by rw [← h0]; exact hc))]
  rfl

theorem unEq_white {c : Char} (h : isWhite c = true) : unEq c = c := by
  unfold unEq
  rw [if_neg]
  rintro rfl
  revert h; decide

theorem digits_noeq {d : List Char} (h : Digits d) : '=' ∉ d := valChar_noeq (digits_val h)

/-- `get_values` of a card with a material -/
theorem getValues_plain {b n g m s : List Char} (hb : Gap b) (hn : Digits n) (hg : Gap g) (hgn : g ≠ []) (hm : Digits m)
    (hs : ∀ c, s.head? = some c → isWhite c = true) (hs2 : ∃ c ∈ s, isWhite c = false ∧ c ≠ '=') (hk : Without 'k' (b ++ (n ++ (g ++ (m ++ s))))) :
    getValues (b ++ (n ++ (g ++ (m ++ s)))) = .ok (value n) := by
  obtain ⟨h1, h2⟩ := hasInfix_false hk
  have h3 : (b ++ (n ++ (g ++ (m ++ s)))).map (fun c => if c = '=' then ' ' else c) = b ++ (n ++ (g ++ (m ++ s.map unEq))) := by
    have e : (fun c => if c = '=' then ' ' else c) = unEq := rfl
    rw [e]
    simp only [List.map_append]
    rw [unEq_id (valChar_noeq (gap_val hb)), unEq_id (digits_noeq hn), unEq_id (valChar_noeq (gap_val hg)), unEq_id (digits_noeq hm)]
  have hs3 : ∀ c, (s.map unEq).head? = some c → isWhite c = true := by
    intro c hc
    cases s with
    | nil => cases hc
    | cons x s =>
      have hx := hs x rfl
      have : c = unEq x := (Option.some.inj hc).symm
      rw [this, unEq_white hx]
      exact hx
  have hs4 : pySplit (s.map unEq) ≠ [] := by
    obtain ⟨c, hc, hw, he⟩ := hs2
    refine split_ne ⟨unEq c, List.mem_map.mpr ⟨c, hc, rfl⟩, ?_⟩
    unfold unEq
    rw [if_neg he]
    exact hw
  have h4 := split_two hb ⟨hn.1, digits_white hn⟩ hg hgn ⟨hm.1, digits_white hm⟩ hs3
  have h5 := split_two hb ⟨hn.1, digits_white hn⟩ hg hgn ⟨hm.1, digits_white hm⟩ hs
  unfold getValues
  rw [h1, h2, h3, h4, h5]
  cases hx : pySplit (s.map unEq) with
  | nil => exact absurd hx hs4
  | cons y ys =>
    simp only [Bool.false_eq_true, if_false, pyInt_digits hn, pyInt_digits hm]
    rfl

/-- `get_values` of a `LIKE` card -/
theorem getValues_like {b n g g1 m g2 w s : List Char} (hb : Gap b) (hn : Digits n) (hg : Gap g) (hgn : g ≠ []) (hg1 : Gap g1) (hm : Digits m)
    (hg2 : Gap g2) (hg2n : g2 ≠ []) (hw : w ≠ [] ∧ ∀ c ∈ w, isWhite c = false) (hs : ∀ c, s.head? = some c → isWhite c = true) (hs2 : ∃ c ∈ s, isWhite c = false) :
    getValues (b ++ (n ++ (g ++ (['l', 'i', 'k', 'e'] ++ (' ' :: g1 ++ (m ++ (g2 ++ (w ++ s)))))))) = .ok (value n) := by
  have h1 : hasInfix ['l', 'i', 'k', 'e'] (b ++ (n ++ (g ++ (['l', 'i', 'k', 'e'] ++ (' ' :: g1 ++ (m ++ (g2 ++ (w ++ s)))))))) = true := by
    have := hasInfix_true (word := ['l', 'i', 'k', 'e']) (b ++ (n ++ g)) (' ' :: g1 ++ (m ++ (g2 ++ (w ++ s)))) (by decide)
    simpa only [List.append_assoc] using this
  have h2 : hasInfix ['l', 'i', 'k', 'e', ' '] (low (b ++ (n ++ (g ++ (['l', 'i', 'k', 'e'] ++ (' ' :: g1 ++ (m ++ (g2 ++ (w ++ s))))))))) = true := by
    have := hasInfix_true (word := ['l', 'i', 'k', 'e', ' ']) (low (b ++ (n ++ g))) (low (g1 ++ (m ++ (g2 ++ (w ++ s))))) (by decide)
    have e : low (b ++ (n ++ (g ++ (['l', 'i', 'k', 'e'] ++ (' ' :: g1 ++ (m ++ (g2 ++ (w ++ s)))))))) =
        low (b ++ (n ++ g)) ++ (['l', 'i', 'k', 'e', ' '] ++ low (g1 ++ (m ++ (g2 ++ (w ++ s))))) := by
      have e0 : ['l', 'i', 'k', 'e', ' '] = low ['l', 'i', 'k', 'e', ' '] := by decide
      rw [e0]
      unfold low
      simp only [← List.map_append]
      simp
    rw [e]
    exact this
  have h3 := split_two (s := ' ' :: g1 ++ (m ++ (g2 ++ (w ++ s)))) hb ⟨hn.1, digits_white hn⟩ hg hgn (m := ['l', 'i', 'k', 'e']) ⟨by decide, by decide⟩ (by
    intro c hc
    cases Option.some.inj hc
    decide)
  have h4 := split_two (s := s) (b := ' ' :: g1) (.blank g1 hg1) ⟨hm.1, digits_white hm⟩ hg2 hg2n hw hs
  unfold getValues
  rw [h1, h2, h3, h4]
  cases hx : pySplit s with
  | nil => exact absurd hx (split_ne hs2)
  | cons y ys =>
    simp only [if_true, pyInt_digits hn, pyInt_digits hm]
    rfl

/-! ## celmat -/

theorem dropBlanks {b s : List Char} (hb : Blanks b) (hs : s.head? ≠ some ' ') :
    (b ++ s).dropWhile (fun x => decide (x = ' ')) = s ∧ (b ++ s).takeWhile (fun x => decide (x = ' ')) = b := by
  induction b with
  | nil =>
    cases s with
    | nil => exact ⟨rfl, rfl⟩
    | cons c s =>
      have : c ≠ ' ' := fun h => hs (by rw [h]; rfl)
      simp [this]
  | cons c b ih =>
    obtain ⟨h1, h2⟩ := ih (fun x hx => hb x (List.mem_cons_of_mem _ hx))
    have hc : decide (c = ' ') = true := by simpa using hb c List.mem_cons_self
    rw [List.cons_append, List.dropWhile_cons, List.takeWhile_cons, if_pos hc, if_pos hc, h1, h2]
    exact ⟨rfl, rfl⟩

theorem digits_head {d : List Char} (h : Digits d) (s : List Char) : (d ++ s).head? ≠ some ' ' := number_first (number_digits True h) s

theorem celmat_start {b n g s : List Char} (hb : Blanks b) (hn : Digits n) (hg : Blanks g) (hgn : g ≠ []) (hs : s.head? ≠ some ' ') :
    celmat (b ++ (n ++ (g ++ s))) = if s.takeWhile Char.isDigit ≠ [] then some (n, s.takeWhile Char.isDigit, s.dropWhile Char.isDigit)
      else if low (s.take 4) = ['l', 'i', 'k', 'e'] then some (n, s.take 4, s.drop 4) else none := by
  obtain ⟨h1, _⟩ := dropBlanks (s := n ++ (g ++ s)) hb (digits_head hn _)
  have hgd : ∀ c, (g ++ s).head? = some c → c.isDigit = false := by
    intro c hc
    cases g with
    | nil => exact absurd rfl hgn
    | cons x g =>
      have hx : x = c := Option.some.inj hc
      rw [← hx, hg x List.mem_cons_self]
      decide
  obtain ⟨h2, h3⟩ := takeWhile_digits hn.2 hgd
  obtain ⟨h4, h5⟩ := dropBlanks (s := s) hg hs
  unfold celmat
  simp only [h1, h2, h3, h4, h5]
  rw [if_neg (by
    rintro (h | h)
    · exact hn.1 h
    · exact hgn h)]

theorem celmat_digits {b n g m s : List Char} (hb : Blanks b) (hn : Digits n) (hg : Blanks g) (hgn : g ≠ []) (hm : Digits m)
    (hs : ∀ c, s.head? = some c → c.isDigit = false) : celmat (b ++ (n ++ (g ++ (m ++ s)))) = some (n, m, s) := by
  rw [celmat_start hb hn hg hgn (digits_head hm s)]
  obtain ⟨h1, h2⟩ := takeWhile_digits hm.2 hs
  rw [h1, h2, if_pos hm.1]

theorem celmat_like {b n g s : List Char} (hb : Blanks b) (hn : Digits n) (hg : Blanks g) (hgn : g ≠ []) :
    celmat (b ++ (n ++ (g ++ (['l', 'i', 'k', 'e'] ++ s)))) = some (n, ['l', 'i', 'k', 'e'], s) := by
  rw [celmat_start hb hn hg hgn (by simp)]
  have h1 : (['l', 'i', 'k', 'e'] ++ s).takeWhile Char.isDigit = [] := by
    rw [List.cons_append, List.takeWhile_cons, if_neg (by decide)]
  rw [h1, if_neg (by simp), List.take_left' (by rfl), List.drop_left' (by rfl)]
  simp [low]

/-! ## LIKE ... BUT -/

theorem searchBut_ok {u b s : List Char} (hu : ∀ c ∈ u, c.toLower ≠ 'b') (hb : low b = ['b', 'u', 't']) : searchBut (u ++ (b ++ s)) = some (u ++ b, s) := by
  have hl : b.length = 3 := by
    have := congrArg List.length hb
    simpa [low] using this
  induction u with
  | nil =>
    rw [List.nil_append]
    cases hs : b ++ s with
    | nil => rw [(List.append_eq_nil_iff.mp hs).1] at hl; simp at hl
    | cons c r =>
      unfold searchBut
      rw [← hs, List.take_left' hl, List.drop_left' hl, if_pos hb]
      rfl
  | cons c u ih =>
    rw [List.cons_append]
    unfold searchBut
    rw [if_neg, ih (fun x hx => hu x (List.mem_cons_of_mem _ hx))]
    · rfl
    · intro h0
      have : c.toLower = 'b' := by
        simp only [List.take_succ_cons, low, List.map_cons, List.cons.injEq] at h0
        exact h0.1
      exact hu c List.mem_cons_self this

theorem searchInt_ok {u d s : List Char} (hu : ∀ c ∈ u, c.isDigit = false) (hd : Digits d) (hs : ∀ c, s.head? = some c → c.isDigit = false) :
    searchInt (u ++ (d ++ s)) = some d := by
  induction u with
  | nil =>
    rw [List.nil_append]
    obtain ⟨h1, _⟩ := takeWhile_digits hd.2 hs
    cases hds : d with
    | nil => exact absurd hds hd.1
    | cons c r =>
      have hc := hd.2 c (by rw [hds]; simp)
      rw [List.cons_append]
      unfold searchInt
      rw [if_pos hc, ← List.cons_append, ← hds, h1]
  | cons c u ih =>
    rw [List.cons_append]
    unfold searchInt
    rw [if_neg (by rw [hu c List.mem_cons_self]; decide), ih (fun x hx => hu x (List.mem_cons_of_mem _ hx))]

theorem gap_nodigit {g : List Char} (h : Gap g) : ∀ c ∈ g, c.isDigit = false := by
  intro c hc
  rcases gap_mem h c hc with rfl | rfl <;> decide

theorem searchMat_none {s : List Char} (h : searchKey ['m', 'a', 't'] s = none) : searchMat s = none := by
  induction s with
  | nil => rfl
  | cons c s ih =>
    unfold searchKey at h
    split at h
    · cases h
    · next hm =>
      have h1 : searchKey ['m', 'a', 't'] s = none := by
        cases hs : searchKey ['m', 'a', 't'] s with
        | none => rfl
        | some x => rw [hs] at h; cases h
      unfold searchMat
      rw [hm]
      exact ih h1

theorem searchMat_some {s x r : List Char} (h : searchKey ['m', 'a', 't'] s = some (x, r)) (hr : r.takeWhile Char.isDigit ≠ []) :
    searchMat s = some (r.takeWhile Char.isDigit) := by
  induction s generalizing x with
  | nil => cases h
  | cons c s ih =>
    unfold searchKey at h
    split at h
    · next r' hm =>
      cases h
      unfold searchMat
      rw [hm]
      dsimp only
      rw [if_pos hr]
    · next hm =>
      cases hs : searchKey ['m', 'a', 't'] s with
      | none => rw [hs] at h; cases h
      | some y =>
        rw [hs] at h
        have h2 : y.2 = r := by
          have := Option.some.inj h
          exact (Prod.mk.inj this).2
        unfold searchMat
        rw [hm]
        dsimp only
        exact ih (x := y.1) (by rw [hs, ← h2])

end Geouned.CellText
