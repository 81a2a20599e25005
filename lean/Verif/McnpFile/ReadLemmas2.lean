import Verif.McnpFile.ReadLemmas
import Verif.McnpFile.Props2
import Verif.CellText.Props2
/-!
# Lemmas for C103: the texts of cards as GEOReverse keeps them
-/
namespace Geouned.McnpFile

open Geouned.Card

variable {V : Type}

theorem content_noAmp : ∀ u : List Char, NoAmp u → u.takeWhile (fun x => decide (x ≠ '$')) = content u
  | [], _ => rfl
  | x :: u, h => by
    by_cases h1 : x = '$'
    · subst h1; rfl
    · have h2 : x ≠ '&' := fun h2 => by
        subst h2
        exact absurd (h [] u rfl) List.not_mem_nil
      have ih := content_noAmp u fun a b he => by
        have := h (x :: a) b (by rw [he]; rfl)
        rcases List.mem_cons.mp this with h3 | h3
        · exact absurd h3.symm h1
        · exact h3
      unfold content at ih ⊢
      rw [List.takeWhile_cons_of_pos (by simp [h1]), List.takeWhile_cons_of_pos (by simp [h1, h2]), ih]

/-- what GEOReverse keeps of the lines of a card: no blank lines are among them -/
theorem input_full {first : List Char} {rest : List (List Char)} (hf : First first) (hr : ∀ t ∈ rest, Cont t) (n : Int) (hn : n ≠ -1) (hn' : n ≠ -2) {inp : List (List Char)}
    (h : getInput ((card first rest).lines.map nl) n = .ok inp) : inp.filter (fun t => t.any (fun x => x ≠ ' ')) = inp := by
  rw [card_lines] at h
  obtain ⟨x, r, hx, h0, -⟩ := hf.start
  have hne : ∀ t ∈ first :: rest, Plain t ∧ ¬ Card.Empty t ∧ NoAmp t := by
    intro t ht
    rcases List.mem_cons.mp ht with rfl | ht
    · exact ⟨hf.plain, fun he => h0 (he x (by rw [hx]; simp)), hf.amp⟩
    · exact ⟨(hr t ht).plain, (hr t ht).notEmpty, (hr t ht).amp⟩
  rw [List.filter_eq_self]
  intro t ht
  by_contra hb
  have hb : Card.Empty t := not_empty_any.mp (by simpa using hb)
  unfold getInput at h
  rw [if_neg (by simp only [cidComment, cidBlank]; omega)] at h
  cases hw : firstWord (((first :: rest).map nl).flatten) with
  | none => rw [hw] at h; cases h
  | some w =>
    rw [hw] at h
    dsimp only at h
    split at h
    · -- the text is not blank: its first character is not
      rw [← Except.ok.inj h, List.mem_singleton] at ht
      rw [ht, hx, List.map_cons, List.flatten_cons, nl] at hb
      exact h0 (hb x (by simp [List.take_succ_cons]))
    · rw [← Except.ok.inj h] at ht
      obtain ⟨l, hl, rfl⟩ := List.mem_map.mp ht
      rw [List.mem_filter] at hl
      obtain ⟨u, hu, rfl⟩ := List.mem_map.mp hl.1
      rw [take_index] at hb
      obtain ⟨u1, u2, u3⟩ := hne u hu
      have hd : '$' ∈ u := by
        by_contra hd
        refine u2 ?_
        have : '&' ∉ u := by
          intro ha
          obtain ⟨a, b, rfl⟩ := List.append_of_mem ha
          exact hd (by simp [u3 a b rfl])
        have e : content u = u := by
          unfold content
          rw [List.takeWhile_eq_self_iff]
          intro c hc
          have : c ≠ '$' ∧ c ≠ '&' := ⟨fun h => hd (h ▸ hc), fun h => this (h ▸ hc)⟩
          simp [this]
        rwa [e] at hb
      have hcm : isCommented (nl u) = true := by
        unfold isCommented
        simp only [firstLine_nl u1]
        split
        · rfl
        split
        · rfl
        rw [content_noAmp u u3]
        have : (content u).all white = true := by
          rw [List.all_eq_true]
          intro c hc
          rw [hb c hc]
          decide
        simp [hd, this]
      rw [hcm] at hl
      exact absurd hl.2 (by decide)

/-- the texts of the cards of one kind in a list of cards -/
def textsOf (k : Kind) (l : List (Kind × List (List Char))) : List (List (List Char)) := l.filterMap (fun x => if x.1 = k then some x.2 else none)

theorem kind_texts (k : Kind) (n : Int) (hk : kindOf n = some k) {cs : List PyCard} (hin : ∀ p ∈ cs, kindOf p.ctype ≠ none → p.input.filter (fun t => t.any (fun x => x ≠ ' ')) = p.input)
    (hu : ∀ m, m = 3 ∨ m = 4 ∨ m = 5 → kindOf m = some k → m = n) :
    (cs.filter (fun p => p.ctype = n)).map PyCard.input = textsOf k (view cs) := by
  unfold view textsOf
  induction cs with
  | nil => rfl
  | cons p cs ih =>
    have ih := ih (fun q hq => hin q (List.mem_cons_of_mem _ hq))
    have hp := hin p List.mem_cons_self
    by_cases h3 : p.ctype = n
    · have hk' : kindOf p.ctype = some k := by rw [h3]; exact hk
      rw [List.filterMap_cons_some (by rw [hk']; rfl), List.filterMap_cons_some (by rw [if_pos rfl]), ← ih, List.filter_cons_of_pos (by simp [h3]), List.map_cons]
      dsimp only
      rw [hp (by rw [hk']; simp)]
    · rw [List.filter_cons_of_neg (by simp [h3]), ih]
      cases hkp : kindOf p.ctype with
      | none => rw [List.filterMap_cons_none (by rw [hkp]; rfl)]
      | some k' =>
        have hne : k' ≠ k := by
          rintro rfl
          refine h3 (hu _ ?_ hkp)
          unfold kindOf at hkp
          by_contra hc
          push Not at hc
          rw [if_neg hc.1, if_neg hc.2.1, if_neg hc.2.2] at hkp
          cases hkp
        rw [List.filterMap_cons_some (by rw [hkp]; rfl), List.filterMap_cons_none (by rw [if_neg hne])]

theorem says_texts (d : Deck) : textsOf .cell d.says = d.cells.cards.map (fun m => m.2.says) ∧ textsOf .surface d.says = d.surfaces.cards.map (fun m => m.2.says)
    ∧ textsOf .data d.says = d.data.cards.map (fun m => m.2.says) := by
  have z1 : ∀ (b : Block) (k k' : Kind), k' ≠ k → (b.cards.map (fun m => (k', m.2.says))).filterMap (fun x => if x.1 = k then some x.2 else none) = [] := by
    intro b k k' hk
    rw [List.filterMap_eq_nil_iff]
    intro x hx
    obtain ⟨m, -, rfl⟩ := List.mem_map.mp hx
    simp [hk]
  have z2 : ∀ (b : Block) (k : Kind), (b.cards.map (fun m => (k, m.2.says))).filterMap (fun x => if x.1 = k then some x.2 else none) = b.cards.map (fun m => m.2.says) := by
    intro b k
    rw [List.filterMap_map]
    simp [Function.comp_def]
  unfold textsOf Deck.says
  simp only [List.filterMap_append, z2]
  refine ⟨?_, ?_, ?_⟩
  · rw [z1 d.surfaces .cell .surface (by decide), z1 d.data .cell .data (by decide)]; simp
  · rw [z1 d.cells .surface .cell (by decide), z1 d.data .surface .data (by decide)]; simp
  · rw [z1 d.cells .data .cell (by decide), z1 d.surfaces .data .surface (by decide)]; simp

end Geouned.McnpFile
