import Verif.McnpFile.FileLemmas
/-!
# C102: the MCNP file says exactly what the model is
-/
namespace Geouned.McnpFile

open Geouned.Card

/-- **C102.** For every model that can be written (`Good`) the file is a deck that follows the rules of MCNP, and its cards say exactly the model: one card for each cell, in
order, with its number, material, density, region, volume, importances, universe and fill; one card for each surface that has one, with its number, name and numbers; the
dummy materials; the source and tallies. (`k`, the rounds of the loop in `wrap_line`, is only to be large enough; `r` is Python's recursion limit.) -/
theorem C102_file (f : Fmt) (i : Input) (h : Good f i) (r : Nat) (hr : 30 ≤ r) :
    ∃ K, ∀ k, K ≤ k → ∃ (s : List Char) (d : Deck), writeInput f r k i = .ok s ∧ d.Ok ∧ FileOf d.lines s ∧ Says f i d := by
  obtain ⟨K, hK⟩ := file_deck h r hr
  refine ⟨K, fun k hk => ?_⟩
  obtain ⟨s, d, h1, h2, h3, h4, _⟩ := hK k hk
  exact ⟨s, d, h1, h2, h3, h4⟩

/-- the lines of a deck that is valid have no tabs -/
theorem deck_notab {d : Deck} (h : d.Ok) (hm : d.message = none) (ha : d.after = none) : ∀ t ∈ d.lines, '\t' ∉ t := by
  have plain : ∀ t : List Char, Plain t → '\t' ∉ t := fun t ht hc => absurd (ht _ hc (by decide)) (by decide)
  have block : ∀ b : Block, b.Ok → ∀ t ∈ b.lines, '\t' ∉ t := by
    intro b hb t ht
    unfold Block.lines at ht
    rcases List.mem_append.mp ht with ht | ht
    · obtain ⟨m, hm, ht⟩ := List.mem_flatMap.mp ht
      rcases List.mem_append.mp ht with ht | ht
      · exact plain _ (hb.comments m hm t ht).2
      · exact plain _ ((hb.cards m hm).plain t ht)
    · exact plain _ (hb.tail t ht).2
  have empty : ∀ t : List Char, Empty t → '\t' ∉ t := fun t ht hc => absurd (ht _ hc) (by decide)
  intro t ht
  unfold Deck.lines at ht
  rw [hm, ha] at ht
  simp only [List.nil_append, List.append_nil, List.mem_cons, List.mem_append] at ht
  rcases ht with rfl | ht | rfl | ht | rfl | ht
  · exact plain _ h.title.1
  · exact block _ h.cells t ht
  · exact empty _ h.blank1
  · exact block _ h.surfaces t ht
  · exact empty _ h.blank2
  · exact block _ h.data t ht

theorem says_after {f : Fmt} {i : Input} (h : Good f i) (r : Nat) (hr : 30 ≤ r) : ∃ K, ∀ k, K ≤ k → ∃ (s : List Char) (d : Deck),
    writeInput f r k i = .ok s ∧ d.Ok ∧ FileOf d.lines s ∧ Says f i d
      ∧ (i.sphere = none ∨ i.volSDEF = false ∨ i.volCARD = true → ∃ cs, getCards s = .ok cs ∧ view cs = d.says) := by
  obtain ⟨K, hK⟩ := file_deck h r hr
  refine ⟨K, fun k hk => ?_⟩
  obtain ⟨s, d, h1, h2, h3, h4, h5, h6, h7, ha, _⟩ := hK k hk
  refine ⟨s, d, h1, h2, h3, h4, fun he => ?_⟩
  refine C79_cards_partial d d.lines s h2 (expand_selfs _ (deck_notab h2 h4.nomessage ha)) h3 h5 h6 (h7 ?_)
  unfold ends
  rcases he with he | he | he <;> simp [he]

/-- **C102, C79.** GEOReverse divides the file into the cards that GEOUNED meant, provided that the file ends with a newline character (it does not if the source is the sphere
and no volumes are written on the cell cards). -/
theorem C102_read (f : Fmt) (i : Input) (h : Good f i) (r : Nat) (hr : 30 ≤ r) (he : i.sphere = none ∨ i.volSDEF = false ∨ i.volCARD = true) :
    ∃ K, ∀ k, K ≤ k → ∃ (s : List Char) (d : Deck) (cs : List PyCard), writeInput f r k i = .ok s ∧ Says f i d ∧ getCards s = .ok cs ∧ view cs = d.says := by
  obtain ⟨K, hK⟩ := says_after h r hr
  refine ⟨K, fun k hk => ?_⟩
  obtain ⟨s, d, h1, _, _, h4, h5⟩ := hK k hk
  obtain ⟨cs, h6, h7⟩ := h5 he
  exact ⟨s, d, cs, h1, h4, h6, h7⟩

end Geouned.McnpFile
