import Verif.SurfText.Lemmas3
/-!
# C81: surface cards and transformation cards are read as they are written
-/
namespace Geouned.SurfText
open Geouned.CellText

variable {V : Type}

/-- the files of C79: lines that continue a card are indented, no comment is `c` alone after blanks, the last line ends with a newline -/
structure File (d : Card.Deck) (s : List Char) : Prop where
  ok : d.Ok
  lines : ∃ texts, List.Forall₂ (Card.Expand 0) texts d.lines ∧ Card.FileOf texts s
  amp : ∀ b ∈ [d.cells, d.surfaces, d.data], ∀ m ∈ b.cards, ∀ x ∈ m.2.more, Card.Indented x.2
  lone : ∀ b ∈ [d.cells, d.surfaces, d.data], ∀ t ∈ b.lines, ∀ k, 0 < k → t ≠ List.replicate k ' ' ++ ['c'] ∧ t ≠ List.replicate k ' ' ++ ['C']
  last : s.getLast? = some '\n'

/-- the property in full: from every file the transformations and the surfaces are read that its cards describe, and the other data cards do no harm -/
def C81_statement : Prop :=
  ∀ (V : Type) (F : Arith V) (d : Card.Deck) (s : List Char) (ws : List SurfCard) (ds : List DataCard),
    (∀ t, Number False t → ∃ v, F.flt t = some v) → File d s →
    List.Forall₂ (fun m w => CardWords m.2 w.words) d.surfaces.cards ws → (∀ w ∈ ws, w.Ok) →
    List.Forall₂ (fun m w => CardWords m.2 w.words) d.data.cards ds → (∀ w ∈ ds, w.Ok) →
    ∃ cs, Card.getCards s = .ok cs ∧ (∃ ts, transCards F cs = .ok ts ∧ AllTr F ds ts) ∧
      ∃ rs, surfaceCards F cs = .ok rs ∧ List.Forall₂ (SurfCard.Says F) ws rs

/-- C81, restricted: the entries are numbers in the usual form (no `1.5-3`, no `2R`), and the names of the other data cards are `Harmless`. Missing: both
conditions are needed (see the theorems below). -/
theorem C81_cards_partial (F : Arith V) (hF : ∀ t, Number False t → ∃ v, F.flt t = some v) (d : Card.Deck) (s : List Char) (ws : List SurfCard)
    (ds : List DataCard) (hf : File d s) (hw : List.Forall₂ (fun m w => CardWords m.2 w.words) d.surfaces.cards ws)
    (hwo : ∀ w ∈ ws, w.Ok ∧ ∀ e ∈ w.entries, ∃ t, e = .num t)
    (hd : List.Forall₂ (fun m w => CardWords m.2 w.words) d.data.cards ds)
    (hdo : ∀ w ∈ ds, w.Ok ∧ (∀ star word num es, w = .tr star word num es → ∀ e ∈ es, ∃ t, e = .num t) ∧ (∀ n rest, w = .other n rest → Harmless n)) :
    ∃ cs, Card.getCards s = .ok cs ∧ (∃ ts, transCards F cs = .ok ts ∧ AllTr F ds ts) ∧
      ∃ rs, surfaceCards F cs = .ok rs ∧ List.Forall₂ (SurfCard.Says F) ws rs := by
  obtain ⟨texts, h1, h2⟩ := hf.lines
  obtain ⟨cs, h3, h4⟩ := Card.C79_cards_partial d texts s hf.ok h1 h2 hf.amp hf.lone hf.last
  refine ⟨cs, h3, data_read F hF cs ds ?_ ?_, surfaces_read F hF cs ws ?_ hwo⟩
  · rw [h4, textsOf_data]
    exact block_has DataCard.words hf.ok.data hd
  · intro w hw
    obtain ⟨ha, hb, hc⟩ := hdo w hw
    cases w with
    | tr star word num es => exact ⟨ha, hb _ _ _ _ rfl⟩
    | other n rest => exact hc n rest rfl
  · rw [h4, textsOf_surface]
    exact block_has SurfCard.words hf.ok.surfaces hw

end Geouned.SurfText
