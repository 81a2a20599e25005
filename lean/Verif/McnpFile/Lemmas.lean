import Verif.McnpFile.Spec
import Verif.Card.Props2
import Verif.Text.CharProps
/-!
# Lemmas for C102: lines, cards, blocks
-/
namespace Geouned.McnpFile

open Geouned.Card

/-! ## lines -/

theorem fileText_append (a b : List (List Char)) : fileText (a ++ b) = fileText a ++ fileText b := by simp [fileText]

theorem fileText_cons (a : List Char) (b : List (List Char)) : fileText (a :: b) = a ++ '\n' :: fileText b := by simp [fileText]

theorem fileText_nil : fileText [] = [] := rfl

theorem fileText_lines (s : List Char) : fileText (Wrap.linesOf s) = s ++ ['\n'] := Wrap.unlines_linesOf s

theorem fileText_flatMap {α : Type} (l : List α) (g : α → List (List Char)) : fileText (l.flatMap g) = l.flatMap (fun x => fileText (g x)) := by
  induction l with
  | nil => rfl
  | cons a l ih => rw [List.flatMap_cons, fileText_append, ih, List.flatMap_cons]

/-! ## cards without comments inside -/

/-- a card from its lines -/
def card (first : List Char) (rest : List (List Char)) : CardText := ⟨first, rest.map (fun t => ([], t))⟩

theorem card_lines (first : List Char) (rest : List (List Char)) : (card first rest).lines = first :: rest := by
  unfold card CardText.lines
  simp only [List.flatMap_map, List.nil_append]
  congr 1
  induction rest with
  | nil => rfl
  | cons a l ih => rw [List.flatMap_cons, ih]; rfl

theorem card_body (first : List Char) (rest : List (List Char)) : (card first rest).body = first :: rest := by
  unfold card CardText.body
  rw [List.map_map]
  congr 1
  exact List.map_id rest

/-- `&` comes only after `$` -/
def NoAmp (t : List Char) : Prop := ∀ a b, t = a ++ '&' :: b → '$' ∈ a

theorem NoAmp.of_notMem {t : List Char} (h : '&' ∉ t) : NoAmp t := by
  intro a b he
  exact absurd (by rw [he]; simp) h

theorem content_sub {t : List Char} : ∀ c ∈ content t, c ≠ '$' ∧ c ≠ '&' := by
  intro c hc
  have := List.mem_takeWhile_imp hc
  simpa using this

theorem NoAmp.closed {t : List Char} (h : NoAmp t) : ¬ Ampersand t := by
  rintro ⟨rest, hr⟩
  exact (content_sub _ (h _ _ hr)).1 rfl

/-- a line that continues a card: five blanks and then not only blanks -/
structure Cont (t : List Char) : Prop where
  plain : Plain t
  blanks : ∃ r, t = ' ' :: ' ' :: ' ' :: ' ' :: ' ' :: r
  filled : ∃ c ∈ t, c ≠ ' ' ∧ c ≠ 'c' ∧ c ≠ 'C'
  amp : NoAmp t

theorem Cont.notComment {t : List Char} (h : Cont t) : ¬ IsComment t := by
  obtain ⟨r, rfl⟩ := h.blanks
  rintro ⟨k, hk, rest, h1⟩
  have key : ∀ c, c ≠ ' ' → ' ' :: ' ' :: ' ' :: ' ' :: ' ' :: r ≠ List.replicate k ' ' ++ c :: rest := by
    intro c hc he
    have h2 := congrArg (fun l => l[k]?) he
    simp only [List.getElem?_append_right (le_of_eq (List.length_replicate (n := k) (a := ' '))), List.length_replicate, Nat.sub_self,
      List.getElem?_cons_zero] at h2
    have : k = 0 ∨ k = 1 ∨ k = 2 ∨ k = 3 ∨ k = 4 := by omega
    rcases this with rfl | rfl | rfl | rfl | rfl <;> simp at h2 <;> exact hc h2.symm
  rcases h1 with h1 | ⟨h1 | h1, _⟩
  · exact key _ (by decide) h1
  · exact key _ (by decide) h1
  · exact key _ (by decide) h1

theorem Cont.indented {t : List Char} (h : Cont t) : Indented t := h.blanks

/-- the first line of a card -/
structure First (t : List Char) : Prop where
  plain : Plain t
  start : ∃ x r, t = x :: r ∧ x ≠ ' ' ∧ x ≠ '$' ∧ x ≠ 'c' ∧ x ≠ 'C'
  nofc : ¬ StartsWith ['f', 'c'] t
  amp : NoAmp t

theorem card_ok {first : List Char} {rest : List (List Char)} (hf : First first) (hr : ∀ t ∈ rest, Cont t) : (card first rest).Ok := by
  obtain ⟨x, r, hx, h0, h1, h2, h3⟩ := hf.start
  refine ⟨?_, ?_, ?_, ?_, ?_, hf.nofc, ?_, ?_⟩
  · rw [card_lines]
    intro t ht
    rcases List.mem_cons.mp ht with rfl | ht
    · exact hf.plain
    · exact (hr t ht).plain
  · rw [card_body]
    intro t ht he
    rcases List.mem_cons.mp ht with rfl | ht
    · exact h0 (he x (by rw [hx]; simp))
    · obtain ⟨c, hc, hc'⟩ := (hr t ht).filled
      exact hc'.1 (he c hc)
  · rw [card_body]
    intro t ht
    rcases List.mem_cons.mp ht with rfl | ht
    · rw [hx]; exact notComment_of 0 h0 h1 h2 h3
    · exact (hr t ht).notComment
  · intro m hm t ht
    unfold card at hm
    obtain ⟨a, _, rfl⟩ := List.mem_map.mp hm
    cases ht
  · show ¬ Indented first
    rw [hx]; exact notIndented_of h0
  · rw [card_body]
    intro j p t _ h
    refine Or.inl (hr t ?_).indented
    rw [List.getElem?_cons_succ] at h
    exact List.mem_of_getElem? h
  · rw [card_body]
    intro p hp
    have := List.mem_of_getLast? hp
    rcases List.mem_cons.mp this with rfl | ht
    · exact hf.amp.closed
    · exact (hr p ht).amp.closed

theorem card_more {first : List Char} {rest : List (List Char)} (hr : ∀ t ∈ rest, Cont t) : ∀ x ∈ (card first rest).more, Indented x.2 := by
  intro x hx
  unfold card at hx
  obtain ⟨a, ha, rfl⟩ := List.mem_map.mp hx
  exact (hr a ha).indented

/-! ## comment lines -/

/-- a comment line as GEOUNED writes them -/
def Rem (t : List Char) : Prop := Plain t ∧ (t = ['C'] ∨ ∃ r, t = 'C' :: ' ' :: r)

theorem Rem.comment {t : List Char} (h : Rem t) : IsComment t ∧ Plain t := by
  refine ⟨?_, h.1⟩
  rcases h.2 with rfl | ⟨r, rfl⟩
  · exact ⟨0, by omega, [], Or.inr ⟨Or.inr rfl, Or.inl rfl⟩⟩
  · exact ⟨0, by omega, ' ' :: r, Or.inr ⟨Or.inr rfl, Or.inr rfl⟩⟩

theorem Rem.notLone {t : List Char} (h : Rem t) (k : Nat) (hk : 0 < k) : t ≠ List.replicate k ' ' ++ ['c'] ∧ t ≠ List.replicate k ' ' ++ ['C'] := by
  obtain ⟨k, rfl⟩ : ∃ j, k = j + 1 := ⟨k - 1, by omega⟩
  rw [List.replicate_succ]
  rcases h.2 with rfl | ⟨r, rfl⟩ <;> exact ⟨by simp, by simp⟩

/-! ## blocks -/

/-- comment lines or a card -/
inductive Piece where
  | rem (ls : List (List Char))
  | card (c : CardText)

def Piece.lines : Piece → List (List Char)
  | .rem ls => ls
  | .card c => c.lines

/-- comment lines in front of a block -/
def prepend (ls : List (List Char)) (b : Block) : Block :=
  match b.cards with
  | [] => ⟨[], ls ++ b.tail⟩
  | m :: ms => ⟨(ls ++ m.1, m.2) :: ms, b.tail⟩

def mkBlock : List Piece → Block
  | [] => ⟨[], []⟩
  | .rem ls :: ps => prepend ls (mkBlock ps)
  | .card c :: ps => ⟨([], c) :: (mkBlock ps).cards, (mkBlock ps).tail⟩

theorem prepend_lines (ls : List (List Char)) (b : Block) : (prepend ls b).lines = ls ++ b.lines := by
  unfold prepend Block.lines
  cases b.cards with
  | nil => simp
  | cons m ms => simp

theorem mkBlock_lines (ps : List Piece) : (mkBlock ps).lines = ps.flatMap Piece.lines := by
  induction ps with
  | nil => rfl
  | cons p ps ih =>
    cases p with
    | rem ls => rw [mkBlock, prepend_lines, ih, List.flatMap_cons]; rfl
    | card c =>
      rw [mkBlock, List.flatMap_cons, ← ih]
      simp [Block.lines, Piece.lines]

/-- the cards of the pieces -/
def Piece.card? : Piece → Option CardText
  | .rem _ => none
  | .card c => some c

theorem mkBlock_cards (ps : List Piece) : (mkBlock ps).cards.map (·.2) = ps.filterMap Piece.card? := by
  induction ps with
  | nil => rfl
  | cons p ps ih =>
    cases p with
    | rem ls =>
      rw [mkBlock, prepend, List.filterMap_cons]
      cases h : (mkBlock ps).cards with
      | nil => rw [h] at ih; simpa [Piece.card?] using ih
      | cons m ms => rw [h] at ih; simpa [Piece.card?] using ih
    | card c => rw [mkBlock, List.map_cons, ih]; rfl

/-- what a piece must be -/
inductive Piece.Ok : Piece → Prop
  | rem (ls : List (List Char)) : (∀ t ∈ ls, Rem t) → Piece.Ok (.rem ls)
  | card (first : List Char) (rest : List (List Char)) : First first → (∀ t ∈ rest, Cont t) → Piece.Ok (.card (McnpFile.card first rest))

theorem mkBlock_ok {ps : List Piece} (h : ∀ p ∈ ps, p.Ok) :
    (mkBlock ps).Ok ∧ (∀ m ∈ (mkBlock ps).cards, ∀ x ∈ m.2.more, Indented x.2)
      ∧ ∀ t ∈ (mkBlock ps).lines, ∀ k, 0 < k → t ≠ List.replicate k ' ' ++ ['c'] ∧ t ≠ List.replicate k ' ' ++ ['C'] := by
  refine ⟨?_, ?_, ?_⟩
  · induction ps with
    | nil => exact emptyBlock_ok
    | cons p ps ih =>
      have ih := ih (fun q hq => h q (List.mem_cons_of_mem _ hq))
      cases h p List.mem_cons_self with
      | rem ls hls =>
        rw [mkBlock, prepend]
        cases hc : (mkBlock ps).cards with
        | nil =>
          refine ⟨fun m hm => (by cases hm), fun m hm => (by cases hm), fun t ht => ?_⟩
          rcases List.mem_append.mp ht with ht | ht
          · exact (hls t ht).comment
          · exact ih.tail t ht
        | cons m ms =>
          refine ⟨fun m' hm => ?_, fun m' hm t ht => ?_, ih.tail⟩
          · rcases List.mem_cons.mp hm with rfl | hm
            · exact ih.cards m (by rw [hc]; simp)
            · exact ih.cards m' (by rw [hc]; simp [hm])
          · rcases List.mem_cons.mp hm with rfl | hm
            · rcases List.mem_append.mp ht with ht | ht
              · exact (hls t ht).comment
              · exact ih.comments m (by rw [hc]; simp) t ht
            · exact ih.comments m' (by rw [hc]; simp [hm]) t ht
      | card first rest hf hr =>
        rw [mkBlock]
        refine ⟨fun m hm => ?_, fun m hm t ht => ?_, ih.tail⟩
        · rcases List.mem_cons.mp hm with rfl | hm
          · exact card_ok hf hr
          · exact ih.cards m hm
        · rcases List.mem_cons.mp hm with rfl | hm
          · cases ht
          · exact ih.comments m hm t ht
  · intro m hm
    have : m.2 ∈ (mkBlock ps).cards.map (·.2) := List.mem_map.mpr ⟨m, hm, rfl⟩
    rw [mkBlock_cards, List.mem_filterMap] at this
    obtain ⟨p, hp, hpc⟩ := this
    cases h p hp with
    | rem ls hls => cases hpc
    | card first rest hf hr =>
      simp only [Piece.card?, Option.some.injEq] at hpc
      rw [← hpc]
      exact card_more hr
  · intro t ht k hk
    rw [mkBlock_lines, List.mem_flatMap] at ht
    obtain ⟨p, hp, ht⟩ := ht
    cases h p hp with
    | rem ls hls => exact (hls t ht).notLone k hk
    | card first rest hf hr =>
      simp only [Piece.lines, card_lines] at ht
      rcases List.mem_cons.mp ht with rfl | ht
      · obtain ⟨x, r, hx, h0, _⟩ := hf.start
        obtain ⟨k, rfl⟩ : ∃ j, k = j + 1 := ⟨k - 1, by omega⟩
        rw [hx, List.replicate_succ]
        exact ⟨fun he => h0 (List.cons.inj he).1, fun he => h0 (List.cons.inj he).1⟩
      · obtain ⟨c, hc, h1, h2, h3⟩ := (hr t ht).filled
        constructor
        · rintro rfl
          rcases List.mem_append.mp hc with hc | hc
          · exact h1 (List.eq_of_mem_replicate hc)
          · exact h2 (List.mem_singleton.mp hc)
        · rintro rfl
          rcases List.mem_append.mp hc with hc | hc
          · exact h1 (List.eq_of_mem_replicate hc)
          · exact h3 (List.mem_singleton.mp hc)

/-- every card is one without comments inside -/
theorem mkBlock_card {ps : List Piece} (h : ∀ p ∈ ps, p.Ok) : ∀ m ∈ (mkBlock ps).cards, ∃ first rest, m.2 = card first rest ∧ First first ∧ ∀ t ∈ rest, Cont t := by
  intro m hm
  have : m.2 ∈ (mkBlock ps).cards.map (·.2) := List.mem_map.mpr ⟨m, hm, rfl⟩
  rw [mkBlock_cards, List.mem_filterMap] at this
  obtain ⟨p, hp, hpc⟩ := this
  cases h p hp with
  | rem ls hls => cases hpc
  | card first rest hf hr =>
    simp only [Piece.card?, Option.some.injEq] at hpc
    exact ⟨first, rest, hpc.symm, hf, hr⟩

end Geouned.McnpFile
