import Verif.SerpFile.Lemmas
/-!
# Lemmas for C108: cards
-/
namespace Geouned.SerpFile

open Geouned.McnpFile

theorem names_alpha : ∀ n ∈ cardNames, ∀ c ∈ n, c.isAlpha = true := by decide

theorem notName {w : List Char} (h : ∃ c ∈ w, c.isAlpha = false) : w ∉ cardNames := by
  intro hm
  obtain ⟨c, hc, ha⟩ := h
  rw [names_alpha w hm c hc] at ha
  cases ha

/-- words are not empty and made of the characters of the text -/
theorem words_mem : ∀ (t cur : List Char), ∀ w ∈ Wrap.wordsFrom cur t, w ≠ [] ∧ ∀ c ∈ w, c ∈ cur ∨ c ∈ t
  | [], cur, w, h => by
    unfold Wrap.wordsFrom Wrap.flush at h
    split at h
    · cases h
    · next hne =>
      rw [List.mem_singleton] at h
      exact ⟨h ▸ hne, fun c hc => Or.inl (h ▸ hc)⟩
  | x :: t, cur, w, h => by
    have hfl : w ∈ Wrap.flush cur → w ≠ [] ∧ ∀ c ∈ w, c ∈ cur ∨ c ∈ x :: t := by
      intro h
      unfold Wrap.flush at h
      split at h
      · cases h
      · next hne =>
        rw [List.mem_singleton] at h
        exact ⟨h ▸ hne, fun c hc => Or.inl (h ▸ hc)⟩
    unfold Wrap.wordsFrom at h
    split at h
    · rcases List.mem_append.mp h with h | h
      · exact hfl h
      · obtain ⟨h1, h2⟩ := words_mem t [] w h
        exact ⟨h1, fun c hc => Or.inr (List.mem_cons_of_mem _ ((h2 c hc).resolve_left List.not_mem_nil))⟩
    · split at h
      · rcases List.mem_append.mp h with h | h
        · exact hfl h
        · rcases List.mem_cons.mp h with rfl | h
          · exact ⟨by simp, fun c hc => Or.inr (by simp at hc; simp [hc])⟩
          · obtain ⟨h1, h2⟩ := words_mem t [] w h
            exact ⟨h1, fun c hc => Or.inr (List.mem_cons_of_mem _ ((h2 c hc).resolve_left List.not_mem_nil))⟩
      · obtain ⟨h1, h2⟩ := words_mem t _ w h
        refine ⟨h1, fun c hc => ?_⟩
        rcases h2 c hc with h | h
        · rcases List.mem_append.mp h with h | h
          · exact Or.inl h
          · rw [List.mem_singleton] at h
            exact Or.inr (h ▸ List.mem_cons_self)
        · exact Or.inr (List.mem_cons_of_mem _ h)

theorem digit_notAlpha {c : Char} (h : c.isDigit = true) : c.isAlpha = false := by
  cases ha : c.isAlpha with
  | false => rfl
  | true =>
    simp only [Char.isAlpha, Char.isUpper, Char.isLower, Bool.or_eq_true, Bool.and_eq_true, decide_eq_true_eq, UInt32.le_iff_toNat_le, ge_iff_le] at ha
    simp only [Char.isDigit, Bool.and_eq_true, decide_eq_true_eq, ge_iff_le, UInt32.le_iff_toNat_le] at h
    have e1 : 'A'.val.toNat = 65 := rfl
    have e2 : 'a'.val.toNat = 97 := rfl
    have e4 : '9'.val.toNat = 57 := rfl
    omega

theorem region_notName {out : List Char} (h : ∀ x ∈ out, x = '\n' ∨ x.isDigit = true ∨ x ∈ ['-', '(', ')', ':', ' ']) : ∀ w ∈ Wrap.wordsOf out, w ∉ cardNames := by
  intro w hw
  obtain ⟨h1, h2⟩ := words_mem out [] w hw
  obtain ⟨c, hc⟩ := List.exists_mem_of_ne_nil w h1
  refine notName ⟨c, hc, ?_⟩
  rcases h c ((h2 c hc).resolve_left List.not_mem_nil) with rfl | h | h
  · decide
  · exact digit_notAlpha h
  · simp only [List.mem_cons, List.not_mem_nil, or_false] at h
    rcases h with rfl | rfl | rfl | rfl | rfl <;> decide

theorem int_notName (n : Int) : Text.strInt n ∉ cardNames := by
  obtain ⟨h1, h2⟩ := Text.strInt_word n
  obtain ⟨c, hc⟩ := List.exists_mem_of_ne_nil _ h1
  refine notName ⟨c, hc, ?_⟩
  rcases h2 c hc with h | rfl
  · exact digit_notAlpha h
  · decide

theorem num_notName {t : List Char} (h : NumText t) : ∀ w ∈ Wrap.wordsOf t, w ∉ cardNames := by
  obtain ⟨n, w, rfl, hw, c, hc, hd⟩ := h
  rw [words_spaces, words_token1 hw]
  intro v hv
  rw [List.mem_singleton] at hv
  subst hv
  exact notName ⟨c, hc, digit_notAlpha hd⟩

theorem num_percent {t : List Char} (h : NumText t) : '%' ∉ t := by
  obtain ⟨n, w, rfl, hw, -⟩ := h
  intro hm
  rcases List.mem_append.mp hm with h | h
  · exact absurd (List.eq_of_mem_replicate h) (by decide)
  · exact absurd (hw.2 _ h) (by decide)

theorem int_percent (n : Int) : '%' ∉ Text.strInt n := fun h => by
  rcases (Text.strInt_word n).2 _ h with h | h
  · exact absurd h (by decide)
  · exact absurd h (by decide)

/-! ## cells -/

theorem pad_percent (n : Nat) (m : Int) : '%' ∉ padRight n (Text.strInt m) := by
  unfold padRight
  intro h
  rcases List.mem_append.mp h with h | h
  · exact int_percent m h
  · exact absurd (List.eq_of_mem_replicate h) (by decide)

/-- the words of the header of a cell card, without a universe -/
theorem header_words {i : Input} (hu : i.uni = none) (c : Cell) (hl : c.label.natAbs < 10 ^ 8) (hm : c.material.natAbs < 10 ^ 8) :
    ∃ mat, MatWord c mat ∧ mat ∉ cardNames ∧ (cellHeader i c).length ≤ 38 ∧ '%' ∉ cellHeader i c
      ∧ ∀ d, Wrap.wordsOf (cellHeader i c ++ d) = "cell".toList :: Text.strInt c.label :: "0".toList :: mat :: Wrap.wordsOf d := by
  have hl' := Text.strInt_length (by omega) hl
  have hm' := Text.strInt_length (by omega) hm
  have p1 := pad_percent 5 c.label
  have p2 := pad_percent 5 c.material
  have l1 : (padRight 5 (Text.strInt c.label)).length ≤ 9 := by
    unfold padRight
    rw [List.length_append, List.length_replicate]
    omega
  have l2 : (padRight 5 (Text.strInt c.material)).length ≤ 9 := by
    unfold padRight
    rw [List.length_append, List.length_replicate]
    omega
  have first : ∀ x : List Char, Wrap.wordsOf (T "cell " ++ padRight 5 (Text.strInt c.label) ++ ' ' :: x) = "cell".toList :: Text.strInt c.label :: Wrap.wordsOf x := by
    intro x
    rw [words_blank_mid]
    have : T "cell " ++ padRight 5 (Text.strInt c.label) = T "cell" ++ ' ' :: padRight 5 (Text.strInt c.label) := rfl
    rw [this, words_blank_mid, words_pad, words_int1]
    rfl
  have zero : ∀ x : List Char, Wrap.wordsOf (T "0 " ++ x) = "0".toList :: Wrap.wordsOf x := by
    intro x
    have : T "0 " ++ x = T "0" ++ ' ' :: x := rfl
    rw [this, words_blank_mid]
    rfl
  unfold cellHeader MatWord
  rw [hu]
  dsimp only
  by_cases h0 : c.material = 0
  · by_cases hg : c.matInfo = some "Graveyard".toList
    · refine ⟨"outside".toList, ?_, by decide, ?_⟩
      · rw [if_neg (by simp [h0]), if_pos hg]
      · rw [if_neg (fun h => h.2 hg), if_pos ⟨h0, hg⟩]
        refine ⟨?_, ?_, ?_⟩
        · rw [List.length_append, List.length_append]
          have : (T "cell ").length = 5 ∧ (T " 0 outside ").length = 11 := by decide
          omega
        · simp only [List.mem_append, not_or]
          exact ⟨⟨by decide, p1⟩, by decide⟩
        · intro d
          have : T "cell " ++ padRight 5 (Text.strInt c.label) ++ T " 0 outside " ++ d
              = T "cell " ++ padRight 5 (Text.strInt c.label) ++ ' ' :: (T "0 " ++ (T "outside" ++ ' ' :: d)) := by
            rw [List.append_assoc]; rfl
          rw [this, first, zero, words_blank_mid]
          rfl
    · refine ⟨"void".toList, ?_, by decide, ?_⟩
      · rw [if_neg (by simp [h0]), if_neg hg]
      · rw [if_pos ⟨h0, hg⟩]
        refine ⟨?_, ?_, ?_⟩
        · rw [List.length_append, List.length_append]
          have : (T "cell ").length = 5 ∧ (T " 0 void ").length = 8 := by decide
          omega
        · simp only [List.mem_append, not_or]
          exact ⟨⟨by decide, p1⟩, by decide⟩
        · intro d
          have : T "cell " ++ padRight 5 (Text.strInt c.label) ++ T " 0 void " ++ d
              = T "cell " ++ padRight 5 (Text.strInt c.label) ++ ' ' :: (T "0 " ++ (T "void" ++ ' ' :: d)) := by
            rw [List.append_assoc]; rfl
          rw [this, first, zero, words_blank_mid]
          rfl
  · refine ⟨Text.strInt c.material, ?_, int_notName _, ?_⟩
    · rw [if_pos h0]
      exact isNum_int _
    · rw [if_neg (fun h => h0 h.1), if_neg (fun h => h0 h.1)]
      refine ⟨?_, ?_, ?_⟩
      · simp only [List.length_append, List.length_singleton]
        have : (T "cell ").length = 5 ∧ (T "  0  ").length = 5 := by decide
        omega
      · simp only [List.mem_append, not_or]
        exact ⟨⟨⟨⟨by decide, p1⟩, by decide⟩, p2⟩, by decide⟩
      · intro d
        have : T "cell " ++ padRight 5 (Text.strInt c.label) ++ T "  0  " ++ padRight 5 (Text.strInt c.material) ++ [' '] ++ d
            = T "cell " ++ padRight 5 (Text.strInt c.label) ++ ' ' :: (' ' :: (T "0 " ++ (' ' :: (padRight 5 (Text.strInt c.material) ++ ' ' :: d)))) := by
          have e : T "  0  " = ' ' :: ' ' :: (T "0 " ++ [' ']) := rfl
          rw [e]
          simp only [List.append_assoc, List.cons_append, List.nil_append]
        rw [this, first, words_space, zero, words_space, words_blank_mid, words_pad, words_int1]
        rfl

/-- a cell card -/
theorem cell_piece {i : Input} (hg : Good i) (hu : i.uni = none) {c : Cell} (hc : c ∈ i.cells) (hcom : c.real → Commented c) (r : Nat) (hr : 30 ≤ r) :
    ∃ K, ∀ k, K ≤ k → ∃ t cards, writeCell i r k c = .ok t ∧ Piece t cards.flatten
      ∧ (∀ d ∈ cards, ∃ name rest, d = name :: rest ∧ name ∈ cardNames ∧ ∀ w ∈ rest, w ∉ cardNames) ∧ List.Forall₂ (CellSays i) ([c].filter (fun c => c.real)) cards := by
  unfold writeCell
  cases hid : c.id with
  | none =>
    refine ⟨0, fun k _ => ⟨_, [], rfl, piece_commentLine _, by simp, ?_⟩⟩
    have : ¬ c.real := fun h => h hid
    rw [List.filter_cons_of_neg (by simpa using this)]
    exact .nil
  | some id =>
    have hreal : c.real := by unfold Cell.real; rw [hid]; simp
    obtain ⟨g1, g2, op, l, es, g3, g4, g5, g6, g7, g8⟩ := hg.cells c hc hreal
    obtain ⟨mat, m1, m2, m3, m4, m5⟩ := header_words hu c g1 g2
    obtain ⟨K, hK⟩ := def_lines g3 g4 g5 g6 g7 g8 r (cellHeader i c).length hr m3
    refine ⟨K, fun k hk => ?_⟩
    obtain ⟨out, o1, o2, -, o4⟩ := hK k hk
    dsimp only
    rw [o1, hu]
    obtain ⟨rest, hrest⟩ := comment_blank (hcom hreal)
    have hp : '%' ∉ cellHeader i c ++ out := by
      rw [List.mem_append, not_or]
      refine ⟨m4, fun h => ?_⟩
      exact absurd (o4 _ h) (by decide)
    refine ⟨_, ["cell".toList :: Text.strInt c.label :: "0".toList :: mat :: Wrap.wordsOf out], rfl, ?_, ?_, ?_⟩
    · have := piece_before hp hrest (piece_commentFormat c)
      rw [m5] at this
      rw [List.flatten_singleton]
      exact this
    · intro d hd
      rw [List.mem_singleton] at hd
      refine ⟨_, _, hd, by decide, ?_⟩
      intro w hw
      simp only [List.mem_cons] at hw
      rcases hw with rfl | rfl | rfl | hw
      · exact int_notName _
      · decide
      · exact m2
      · exact region_notName o4 w hw
    · rw [List.filter_cons_of_pos (by simpa using hreal), List.filter_nil]
      refine .cons ⟨_, _, _, _, rfl, isNum_int _, ?_, m1, o2⟩ .nil
      rw [hu]
      unfold IsNum
      decide

theorem forall₂_append {α β : Type} {R : α → β → Prop} : ∀ {a a' : List α} {b b' : List β}, List.Forall₂ R a b → List.Forall₂ R a' b' → List.Forall₂ R (a ++ a') (b ++ b')
  | _, _, _, _, .nil, h => h
  | _, _, _, _, .cons h t, h' => .cons h (forall₂_append t h')

theorem cells_piece {i : Input} (hg : Good i) (hu : i.uni = none) (r : Nat) (hr : 30 ≤ r) : ∀ cs : List Cell, (∀ c ∈ cs, c ∈ i.cells ∧ (c.real → Commented c)) →
    ∃ K, ∀ k, K ≤ k → ∃ t cards, writeCells i r k cs = .ok t ∧ Piece t cards.flatten
      ∧ (∀ d ∈ cards, ∃ name rest, d = name :: rest ∧ name ∈ cardNames ∧ ∀ w ∈ rest, w ∉ cardNames) ∧ List.Forall₂ (CellSays i) (cs.filter (fun c => c.real)) cards
  | [], _ => ⟨0, fun k _ => ⟨[], [], rfl, .nil, by simp, .nil⟩⟩
  | c :: cs, h => by
    obtain ⟨K1, h1⟩ := cell_piece hg hu (h c List.mem_cons_self).1 (h c List.mem_cons_self).2 r hr
    obtain ⟨K2, h2⟩ := cells_piece hg hu r hr cs (fun d hd => h d (List.mem_cons_of_mem _ hd))
    refine ⟨max K1 K2, fun k hk => ?_⟩
    obtain ⟨t1, c1, e1, p1, n1, f1⟩ := h1 k (by omega)
    obtain ⟨t2, c2, e2, p2, n2, f2⟩ := h2 k (by omega)
    refine ⟨t1 ++ t2, c1 ++ c2, ?_, ?_, ?_, ?_⟩
    · unfold writeCells
      rw [e1, e2]
    · rw [List.flatten_append]
      exact p1.append p2
    · intro d hd
      rcases List.mem_append.mp hd with hd | hd
      · exact n1 d hd
      · exact n2 d hd
    · have : (c :: cs).filter (fun c => c.real) = [c].filter (fun c => c.real) ++ cs.filter (fun c => c.real) := by
        rw [← List.filter_append]; rfl
      rw [this]
      exact forall₂_append f1 f2

end Geouned.SerpFile
