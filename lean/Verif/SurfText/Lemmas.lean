import Verif.SurfText.Model
import Verif.CellText.Lemmas5
/-! Lemmas for C81: words, repetitions, replacements -/
namespace Geouned.SurfText
open Geouned.CellText

variable {V : Type}

/-! ### words -/

theorem splitAux_line (cur l s : List Char) : pySplitAux cur (l ++ '\n' :: s) = pySplitAux cur l ++ pySplitAux [] s := by
  induction l generalizing cur with
  | nil =>
    simp only [List.nil_append, pySplitAux, isWhite]
    by_cases h : cur = [] <;> simp [h]
  | cons c l ih =>
    simp only [List.cons_append, pySplitAux]
    by_cases hc : isWhite c = true
    · by_cases h : cur = [] <;> simp [hc, h, ih]
    · simp [hc, ih]

theorem split_line (l s : List Char) : pySplit (l ++ '\n' :: s) = pySplit l ++ pySplit s := splitAux_line [] l s

theorem split_join : ∀ ls : List (List Char), pySplit (joinLines ls) = ls.flatMap pySplit
  | [] => rfl
  | [l] => by simp [joinLines]
  | l :: l' :: ls => by
    rw [joinLines, split_line, split_join (l' :: ls)]
    · simp
    · simp

theorem split_blank {t : List Char} (h : t.any (fun x => decide (x ≠ ' ')) = false) : pySplit t = [] := by
  have : ∀ c ∈ t, isWhite c = true := by
    intro c hc
    have := List.any_eq_false.mp h c hc
    simp only [ne_eq, decide_not, Bool.not_eq_true', decide_eq_false_iff_not, not_not] at this
    rw [this]; rfl
  have := split_gap this []
  simpa [pySplit, pySplitAux] using this

theorem split_filter (ls : List (List Char)) :
    ls.flatMap pySplit = (ls.filter (fun t => t.any (fun x => x ≠ ' '))).flatMap pySplit := by
  induction ls with
  | nil => rfl
  | cons l ls ih =>
    rw [List.filter_cons]
    cases h : l.any (fun x => decide (x ≠ ' '))
    · simp only [List.flatMap_cons, ih, split_blank h]; simp
    · simp only [List.flatMap_cons, ih]; simp

theorem splitAux_end {s : List Char} (h : s = [] ∨ s.head? = some ' ') {cur : List Char} (hc : cur ≠ []) : pySplitAux cur s = cur :: pySplit s := by
  cases s with
  | nil => simp [pySplitAux, pySplit, hc]
  | cons c s =>
    have : c = ' ' := by simpa using h
    subst this
    simp [pySplitAux, pySplit, hc, isWhite]

theorem spelled_split {s : List Char} {ws : List (List Char)} (h : Spelled s ws) (hn : '\n' ∉ s) : pySplit s = ws := by
  induction h with
  | nil => rfl
  | blank s ws _ ih =>
    have := ih (fun h => hn (List.mem_cons_of_mem _ h))
    simpa [pySplit, pySplitAux, isWhite] using this
  | word w s ws hw hb he _ ih =>
    have h1 := ih (fun h => hn (List.mem_append_right _ h))
    have hwn : ∀ c ∈ w, isWhite c = false := by
      intro c hc
      have h2 : c ≠ ' ' := fun e => hb (e ▸ hc)
      have h3 : c ≠ '\n' := fun e => hn (List.mem_append_left _ (e ▸ hc))
      simp [isWhite, h2, h3]
    rw [pySplit, splitAux_word hwn, List.nil_append, splitAux_end he hw, h1]

/-- the first word of a text -/
theorem split_first : ∀ {s w : List Char} {rest : List (List Char)}, pySplit s = w :: rest →
    ∃ g t, s = g ++ (w ++ t) ∧ (∀ c ∈ g, isWhite c = true) ∧ w ≠ [] ∧ (∀ c ∈ w, isWhite c = false) ∧
      (∀ c, t.head? = some c → isWhite c = true) ∧ pySplit t = rest := by
  intro s
  have key : ∀ (s cur w : List Char) (rest : List (List Char)), cur ≠ [] → (∀ c ∈ cur, isWhite c = false) → pySplitAux cur s = w :: rest →
      ∃ v t, s = v ++ t ∧ w = cur ++ v ∧ (∀ c ∈ w, isWhite c = false) ∧ (∀ c, t.head? = some c → isWhite c = true) ∧ pySplit t = rest := by
    intro s
    induction s with
    | nil =>
      intro cur w rest hc hw h
      simp only [pySplitAux, hc, if_false, List.cons.injEq] at h
      exact ⟨[], [], rfl, by simp [h.1], h.1 ▸ hw, by simp, by rw [← h.2]; rfl⟩
    | cons c s ih =>
      intro cur w rest hc hw h
      rw [pySplitAux] at h
      by_cases hx : isWhite c = true
      · simp only [hx, if_true, hc, if_false, List.cons.injEq] at h
        refine ⟨[], c :: s, rfl, by simp [h.1], h.1 ▸ hw, ?_, ?_⟩
        · intro d hd
          have : c = d := by simpa using hd
          rw [← this]; exact hx
        · rw [← h.2]; simp [pySplit, pySplitAux, hx]
      · have hx' : isWhite c = false := by simpa using hx
        simp only [hx', Bool.false_eq_true, if_false] at h
        obtain ⟨v, t, h1, h2, h3, h4, h5⟩ := ih (cur ++ [c]) w rest (by simp)
          (by
            intro d hd
            rcases List.mem_append.mp hd with hd | hd
            · exact hw d hd
            · rw [List.mem_singleton.mp hd]; exact hx') h
        exact ⟨c :: v, t, by rw [h1]; rfl, by rw [h2]; simp, h3, h4, h5⟩
  induction s with
  | nil => intro w rest h; simp [pySplit, pySplitAux] at h
  | cons c s ih =>
    intro w rest h
    rw [pySplit, pySplitAux] at h
    by_cases hx : isWhite c = true
    · simp only [hx, if_true] at h
      obtain ⟨g, t, h1, h2, h3⟩ := ih h
      refine ⟨c :: g, t, by rw [h1]; rfl, ?_, h3⟩
      intro d hd
      rcases List.mem_cons.mp hd with rfl | hd
      · exact hx
      · exact h2 d hd
    · have hx' : isWhite c = false := by simpa using hx
      simp only [hx', Bool.false_eq_true, if_false] at h
      obtain ⟨v, t, h1, h2, h3, h4, h5⟩ := key s [c] w rest (by simp) (by intro d hd; rw [List.mem_singleton.mp hd]; exact hx') (by simpa using h)
      exact ⟨[], t, by rw [h1, h2]; simp, by simp, by rw [h2]; simp, h3, h4, h5⟩

theorem split_glue {g w t : List Char} (hg : ∀ c ∈ g, isWhite c = true) (hw0 : w ≠ []) (hw : ∀ c ∈ w, isWhite c = false)
    (ht : ∀ c, t.head? = some c → isWhite c = true) : pySplit (g ++ (w ++ t)) = w :: pySplit t := by
  rw [split_gap hg, pySplit, splitAux_word hw, List.nil_append]
  cases t with
  | nil => simp [pySplitAux, pySplit, hw0]
  | cons c t => simp [pySplitAux, pySplit, hw0, ht c rfl]

/-! ### repetitions -/

def isRI (c : Char) : Bool := c.toLower = 'r' || c.toLower = 'i'

/-- no digit is followed by `r` or `i`; `p`: the character before is a digit -/
def PairFree : Bool → List Char → Prop
  | _, [] => True
  | p, c :: s => (p = true → isRI c = false) ∧ PairFree c.isDigit s

theorem digit_toLower {c : Char} (h : c.isDigit = true) : c.toLower = c := by
  simp only [Char.isDigit, Bool.and_eq_true, decide_eq_true_eq] at h
  unfold Char.toLower
  split
  · rename_i h1
    exfalso
    have h2 := h.2
    have : c.val ≥ 65 := h1.1
    have a1 : c.val.toNat ≤ 57 := UInt32.le_iff_toNat_le.mp h2
    have a2 : 65 ≤ c.val.toNat := UInt32.le_iff_toNat_le.mp this
    omega
  · rfl

theorem digit_notRI {c : Char} (h : c.isDigit = true) : isRI c = false := by
  unfold isRI
  rw [digit_toLower h]
  by_cases h1 : c = 'r'
  · subst h1; exact absurd h (by decide)
  · by_cases h2 : c = 'i'
    · subst h2; exact absurd h (by decide)
    · simp [h1, h2]

theorem findRpt_free (s : List Char) : ∀ cur : List Char, PairFree (decide (cur ≠ [])) s → findRpt cur s = [] := by
  induction s with
  | nil => intros; rfl
  | cons c s ih =>
    intro cur h
    rw [findRpt]
    by_cases hd : c.isDigit = true
    · rw [if_pos hd]
      refine ih _ ?_
      have := h.2
      rw [hd] at this
      simpa using this
    · have hd' : c.isDigit = false := by simpa using hd
      rw [if_neg hd]
      have h2 := h.2
      rw [hd'] at h2
      have h3 : findRpt [] s = [] := ih [] (by simpa using h2)
      rw [if_neg, h3]
      rintro ⟨h4, h5⟩
      have h6 : isRI c = false := h.1 (by simpa using h4)
      have h7 : isRI c = true := by
        rcases h5 with h5 | h5 <;> simp [isRI, h5]
      rw [h6] at h7; cases h7

theorem protect_free {s : List Char} (h : PairFree false s) : protect s = s := by
  rw [protect, findRpt_free s [] (by simpa using h)]; rfl

theorem pairFree_mono {s : List Char} : PairFree true s → PairFree false s := by
  cases s with
  | nil => exact fun _ => trivial
  | cons c s => exact fun h => ⟨fun h => (by cases h), h.2⟩

/-- does the text end with a digit? -/
def endDigit (p : Bool) : List Char → Bool
  | [] => p
  | c :: s => endDigit c.isDigit s

theorem pairFree_append (a b : List Char) : ∀ p, PairFree p (a ++ b) ↔ PairFree p a ∧ PairFree (endDigit p a) b := by
  induction a with
  | nil => intro p; simp [PairFree, endDigit]
  | cons c a ih =>
    intro p
    simp only [List.cons_append, PairFree, endDigit, ih]
    tauto

theorem endDigit_append (a b : List Char) : ∀ p, endDigit p (a ++ b) = endDigit (endDigit p a) b := by
  induction a with
  | nil => intro p; rfl
  | cons c a ih => intro p; simp [endDigit, ih]

theorem splitAux_prefix (s : List Char) : ∀ cur : List Char, cur ≠ [] → ∃ v, cur ++ v ∈ pySplitAux cur s := by
  induction s with
  | nil => intro cur h; exact ⟨[], by simp [pySplitAux, h]⟩
  | cons c s ih =>
    intro cur h
    rw [pySplitAux]
    by_cases hx : isWhite c = true
    · exact ⟨[], by simp [hx, h]⟩
    · obtain ⟨v, hv⟩ := ih (cur ++ [c]) (by simp)
      exact ⟨c :: v, by simpa [hx] using hv⟩

theorem white_notRI {c : Char} (h : isWhite c = true) : isRI c = false ∧ c.isDigit = false := by
  simp only [isWhite, Bool.or_eq_true, decide_eq_true_eq] at h
  rcases h with rfl | rfl <;> decide

theorem words_free (s : List Char) : ∀ cur : List Char, (∀ w ∈ pySplitAux cur s, PairFree false w) → PairFree (endDigit false cur) s := by
  induction s with
  | nil => intros; trivial
  | cons c s ih =>
    intro cur h
    rw [pySplitAux] at h
    by_cases hx : isWhite c = true
    · obtain ⟨h1, h2⟩ := white_notRI hx
      refine ⟨fun _ => h1, ?_⟩
      rw [h2]
      refine ih [] fun w hw => h w ?_
      by_cases hc : cur = [] <;> simp [hx, hc, hw]
    · have hx' : isWhite c = false := by simpa using hx
      simp only [hx', Bool.false_eq_true, if_false] at h
      obtain ⟨v, hv⟩ := splitAux_prefix s (cur ++ [c]) (by simp)
      have h1 := h _ hv
      rw [pairFree_append, pairFree_append] at h1
      have h2 : PairFree (endDigit false cur) [c] := h1.1.2
      refine ⟨h2.1, ?_⟩
      have := ih (cur ++ [c]) h
      rwa [endDigit_append] at this

theorem split_free {s : List Char} (h : ∀ w ∈ pySplit s, PairFree false w) : PairFree false s := words_free s [] h

theorem free_of_notRI {s : List Char} (h : ∀ c ∈ s, isRI c = false) : ∀ p, PairFree p s := by
  induction s with
  | nil => intro _; trivial
  | cons c s ih => intro p; exact ⟨fun _ => h c List.mem_cons_self, ih (fun d hd => h d (List.mem_cons_of_mem _ hd)) _⟩

theorem free_of_notDigit {s : List Char} (h : ∀ c ∈ s, c.isDigit = false) : PairFree false s := by
  induction s with
  | nil => trivial
  | cons c s ih =>
    refine ⟨fun h => (by cases h), ?_⟩
    rw [h c List.mem_cons_self]
    exact ih (fun d hd => h d (List.mem_cons_of_mem _ hd))

/-! ### replacements -/

theorem replace_skip {old new : List Char} {a : List Char} (h : ∀ x r, old = x :: r → x ∉ a) (hne : old ≠ []) (s : List Char) :
    replaceFirst old new (a ++ s) = a ++ replaceFirst old new s := by
  induction a with
  | nil => rfl
  | cons c a ih =>
    obtain ⟨x, r, hx⟩ : ∃ x r, old = x :: r := by cases old with | nil => exact absurd rfl hne | cons x r => exact ⟨x, r, rfl⟩
    have hc : x ≠ c := fun e => h x r hx (by simp [e])
    rw [List.cons_append, replaceFirst, if_neg, ih]
    · rfl
    · intro y q hy hm; exact h y q hy (List.mem_cons_of_mem _ hm)
    · rw [hx]; simp [List.isPrefixOf, hc]

theorem replace_here {old new s : List Char} (hne : old ≠ []) : replaceFirst old new (old ++ s) = new ++ s := by
  cases old with
  | nil => exact absurd rfl hne
  | cons x r =>
    rw [List.cons_append, replaceFirst, if_pos]
    · congr 1
      rw [← List.cons_append, List.drop_left]
    · rw [List.isPrefixOf_iff_prefix]; exact List.prefix_append (x :: r) s

/-- a match of the expression for repetitions -/
def IsRpt (m : List Char) : Prop := ∃ d c, m = d ++ [c] ∧ d ≠ [] ∧ (∀ x ∈ d, x.isDigit = true) ∧ isRI c = true

theorem findRpt_all (s : List Char) : ∀ cur, (∀ x ∈ cur, x.isDigit = true) → ∀ m ∈ findRpt cur s, IsRpt m := by
  induction s with
  | nil => intro _ _ m hm; simp [findRpt] at hm
  | cons c s ih =>
    intro cur hc m hm
    rw [findRpt] at hm
    split at hm
    · rename_i hd
      refine ih _ ?_ m hm
      intro x hx
      rcases List.mem_append.mp hx with hx | hx
      · exact hc x hx
      · rw [List.mem_singleton.mp hx]; exact hd
    · split at hm
      · rename_i h
        rcases List.mem_cons.mp hm with rfl | hm
        · exact ⟨cur, c, rfl, h.1, hc, by rcases h.2 with h | h <;> simp [isRI, h]⟩
        · exact ih [] (by simp) m hm
      · exact ih [] (by simp) m hm

theorem isRI_notWhite {c : Char} (h : isRI c = true) : isWhite c = false := by
  cases hw : isWhite c with
  | false => rfl
  | true => rw [(white_notRI hw).1] at h; cases h

theorem rpt_notWhite {m : List Char} (h : IsRpt m) : ∀ c ∈ m, isWhite c = false := by
  obtain ⟨d, c, rfl, _, hd, hc⟩ := h
  intro x hx
  rcases List.mem_append.mp hx with hx | hx
  · cases hw : isWhite x with
    | false => rfl
    | true => have := hd x hx; rw [(white_notRI hw).2] at this; cases this
  · rw [List.mem_singleton.mp hx]; exact isRI_notWhite hc

/-- a word without white space, at the beginning of `w ++ t`, is at the beginning of `w` -/
theorem prefix_word {m w t : List Char} (hm : ∀ c ∈ m, isWhite c = false) (ht : ∀ c, t.head? = some c → isWhite c = true) (h : m <+: w ++ t) : m <+: w := by
  induction m generalizing w with
  | nil => exact List.nil_prefix
  | cons c m ih =>
    cases w with
    | nil =>
      exfalso
      obtain ⟨r, hr⟩ := h
      have : t.head? = some c := by rw [show t = (c :: m) ++ r by simpa using hr.symm]; rfl
      have := ht c this
      rw [hm c List.mem_cons_self] at this; cases this
    | cons d w =>
      rw [List.cons_append, List.cons_prefix_cons] at h
      rw [List.cons_prefix_cons]
      exact ⟨h.1, ih (fun x hx => hm x (List.mem_cons_of_mem _ hx)) h.2⟩

theorem rpt_notFree {m : List Char} (h : IsRpt m) : ¬ PairFree false m := by
  obtain ⟨d, c, rfl, hd, hdd, hc⟩ := h
  intro hf
  rw [pairFree_append] at hf
  have he : endDigit false d = true := by
    have : ∀ (d : List Char), d ≠ [] → (∀ x ∈ d, x.isDigit = true) → ∀ p, endDigit p d = true := by
      intro d
      induction d with
      | nil => intro h; exact absurd rfl h
      | cons y d ih =>
        intro _ hy p
        rw [endDigit]
        by_cases h0 : d = []
        · subst h0; exact hy y List.mem_cons_self
        · exact ih h0 (fun x hx => hy x (List.mem_cons_of_mem _ hx)) _
    exact this d hd hdd false
  rw [he] at hf
  rw [hf.2.1 rfl] at hc; cases hc

theorem pairFree_false {p : Bool} {s : List Char} (h : PairFree p s) : PairFree false s := by
  cases p with
  | false => exact h
  | true => exact pairFree_mono h

theorem pairFree_prefix {p : Bool} {m s : List Char} (h : PairFree p s) (hm : m <+: s) : PairFree p m := by
  obtain ⟨r, rfl⟩ := hm
  exact ((pairFree_append m r p).mp h).1

theorem replace_word {m new w t : List Char} (hm : IsRpt m) (hw : PairFree false w) (ht : ∀ c, t.head? = some c → isWhite c = true) :
    replaceFirst m new (w ++ t) = w ++ replaceFirst m new t := by
  induction w with
  | nil => rfl
  | cons c w ih =>
    rw [List.cons_append, replaceFirst, if_neg, ih (pairFree_false hw.2)]
    · rfl
    · intro h
      rw [List.isPrefixOf_iff_prefix] at h
      have h1 : m <+: c :: w := prefix_word (rpt_notWhite hm) ht h
      exact rpt_notFree hm (pairFree_prefix hw h1)

theorem replace_keeps {m w s : List Char} {rest : List (List Char)} (hm : IsRpt m) (hw : PairFree false w) (h : pySplit s = w :: rest) :
    ∃ rest', pySplit (replaceFirst m ['!'] s) = w :: rest' := by
  obtain ⟨g, t, rfl, hg, hw0, hww, ht, _⟩ := split_first h
  have hne : m ≠ [] := by obtain ⟨d, c, rfl, _⟩ := hm; simp
  have hhead : ∀ x r, m = x :: r → x ∉ g := by
    intro x r hx hxg
    have := rpt_notWhite hm x (by rw [hx]; exact List.mem_cons_self)
    rw [hg x hxg] at this; cases this
  rw [replace_skip hhead hne, replace_word hm hw ht]
  refine ⟨_, split_glue hg hw0 hww ?_⟩
  cases t with
  | nil => simp [replaceFirst, hne]
  | cons c t =>
    have hc := ht c rfl
    rw [replaceFirst, if_neg]
    · intro d hd
      have : c = d := by simpa using hd
      rw [← this]; exact hc
    · intro hp
      rw [List.isPrefixOf_iff_prefix] at hp
      cases m with
      | nil => exact hne rfl
      | cons x r =>
        rw [List.cons_prefix_cons] at hp
        have := rpt_notWhite hm x List.mem_cons_self
        rw [hp.1, hc] at this; cases this

theorem protect_first {s w : List Char} {rest : List (List Char)} (hw : PairFree false w) (h : pySplit s = w :: rest) :
    ∃ rest', pySplit (protect s) = w :: rest' := by
  unfold protect
  have h1 := findRpt_all s [] (by simp)
  revert h1
  generalize findRpt [] s = ms
  intro h1
  induction ms generalizing s rest with
  | nil => exact ⟨rest, h⟩
  | cons m ms ih =>
    obtain ⟨r', hr⟩ := replace_keeps (h1 m List.mem_cons_self) hw h
    exact ih hr (fun x hx => h1 x (List.mem_cons_of_mem _ hx))

end Geouned.SurfText
