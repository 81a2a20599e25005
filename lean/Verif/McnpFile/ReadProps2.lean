import Verif.McnpFile.ReadSurf
import Verif.McnpFile.ReadProps
/-!
# C104: GEOReverse reads the surfaces of the file that GEOUNED has written
-/
namespace Geouned.McnpFile

open Geouned.Card
open Geouned.CellText (pySplit Digits Number value)

variable {V : Type}

/-- **C104.** Write a model, read the file back with GEOReverse: the surfaces that GEOReverse finds are those of the model that have a card, in order, each with its number, name and
numbers and without a transformation; and it finds no transformations (GEOUNED writes none) — none of the other data cards stops it. -/
theorem C104_surfaces (F : CellText.Arith V) (hF : ∀ t, Number False t → ∃ v, F.flt t = some v) (f : Fmt) (i : Input) (h : Good f i) (hs : ∀ s ∈ i.surfaces, SurfNumbers s)
    (r : Nat) (hr : 30 ≤ r) (he : i.sphere = none ∨ i.volSDEF = false ∨ i.volCARD = true) :
    ∃ K, ∀ k, K ≤ k → ∃ (s : List Char) (cs : List PyCard), writeInput f r k i = .ok s ∧ getCards s = .ok cs
      ∧ SurfText.transCards F cs = .ok []
      ∧ ∃ rs, SurfText.surfaceCards F cs = .ok rs ∧ List.Forall₂ (SurfRead F) (i.surfaces.filter (fun s => s.card ≠ none)) rs := by
  obtain ⟨K, hK⟩ := file_deck h r hr
  refine ⟨K, fun k hk => ?_⟩
  obtain ⟨s, d, h1, h2, h3, h4, h5, h6, h7, ha, -⟩ := hK k hk
  have hend : ends i = true := by
    unfold ends
    rcases he with he | he | he <;> simp [he]
  obtain ⟨cs, g1, g2⟩ := C79_cards_partial d d.lines s h2 (expand_selfs _ (deck_notab h2 h4.nomessage ha)) h3 h5 h6 (h7 hend)
  refine ⟨s, cs, h1, g1, ?_, ?_⟩
  · have hst := data_start h.formats h4.data
    obtain ⟨ds, hds1, hds2, hds3⟩ : ∃ ds : List SurfText.DataCard, List.Forall₂ (fun t w => SurfText.Has t w.words) (SurfText.textsOf .data (view cs)) ds ∧ (∀ w ∈ ds, SurfText.DataOk w)
        ∧ ∀ rs : List (SurfText.TrCard V), SurfText.AllTr F ds rs → rs = [] := by
      rw [g2, SurfText.textsOf_data]
      have hpl : ∀ t ∈ d.data.cards.map (fun m => m.2.says), ∀ u ∈ t, Plain u := by
        intro t ht
        obtain ⟨m, hm, rfl⟩ := List.mem_map.mp ht
        exact says_plain (h2.data.cards m hm)
      revert hpl hst
      generalize d.data.cards.map (fun m => m.2.says) = l
      intro hst hpl
      induction l with
      | nil => exact ⟨[], .nil, by simp, fun rs hrs => by cases hrs; rfl⟩
      | cons t l ih =>
        obtain ⟨ds, a1, a2, a3⟩ := ih (fun t ht => hst t (List.mem_cons_of_mem _ ht)) (fun t ht => hpl t (List.mem_cons_of_mem _ ht))
        obtain ⟨w, rest, b1, b2⟩ := data_word (hpl t List.mem_cons_self) (hst t List.mem_cons_self)
        refine ⟨.other w rest :: ds, .cons b1 a1, ?_, ?_⟩
        · intro x hx
          rcases List.mem_cons.mp hx with rfl | hx
          · exact b2
          · exact a2 x hx
        · intro rs hrs
          cases hrs with
          | other _ _ _ _ h => exact a3 rs h
    obtain ⟨rs, e1, e2⟩ := SurfText.data_read F hF cs ds hds1 hds2
    rw [e1, hds3 rs e2]
  · have hsays := h4.surfaces
    have hmem : ∀ s ∈ i.surfaces.filter (fun s => s.card ≠ none), SurfNumbers s := fun s hs' => hs s (List.mem_of_mem_filter hs')
    have hpl : ∀ t ∈ d.surfaces.cards.map (fun m => m.2.says), ∀ u ∈ t, Plain u := by
      intro t ht
      obtain ⟨m, hm, rfl⟩ := List.mem_map.mp ht
      exact says_plain (h2.surfaces.cards m hm)
    obtain ⟨ws, w1, w2, w3⟩ : ∃ ws : List SurfText.SurfCard, List.Forall₂ (fun t w => SurfText.Has t w.words) (SurfText.textsOf .surface (view cs)) ws
        ∧ (∀ w ∈ ws, w.Ok ∧ ∀ e ∈ w.entries, ∃ t, e = .num t)
        ∧ ∀ rs, List.Forall₂ (SurfText.SurfCard.Says F) ws rs → List.Forall₂ (SurfRead F) (i.surfaces.filter (fun s => s.card ≠ none)) rs := by
      rw [g2, SurfText.textsOf_surface]
      revert hsays hmem hpl
      generalize d.surfaces.cards.map (fun m => m.2.says) = l
      generalize i.surfaces.filter (fun s => s.card ≠ none) = ss
      intro hsays
      induction hsays with
      | nil => intro _ _; exact ⟨[], .nil, by simp, fun rs hrs => by cases hrs; exact .nil⟩
      | @cons s t ss l hst _ ih =>
        intro hmem hpl
        obtain ⟨ws, a1, a2, a3⟩ := ih (fun s hs => hmem s (List.mem_cons_of_mem _ hs)) (fun t ht => hpl t (List.mem_cons_of_mem _ ht))
        obtain ⟨c, b1, b2, b3, b4⟩ := surf_words (V := V) (hmem s List.mem_cons_self) (hpl t List.mem_cons_self) hst
        refine ⟨c :: ws, .cons b1 a1, ?_, ?_⟩
        · intro x hx
          rcases List.mem_cons.mp hx with rfl | hx
          · exact ⟨b2, b3⟩
          · exact a2 x hx
        · intro rs hrs
          cases hrs with
          | cons h1 h2 => exact .cons (b4 F _ h1) (a3 _ h2)
    obtain ⟨rs, e1, e2⟩ := SurfText.surfaces_read F hF cs ws w1 w2
    exact ⟨rs, e1, w3 rs e2⟩

/-- the surfaces of the example meet the hypotheses -/
theorem model1_surfaces : ∀ s ∈ [surf1, surf2, surf3], SurfNumbers s := by
  have pt : ∀ (n : Nat) (a b : List Char), Digits a → Digits b → ∃ m w, List.replicate n ' ' ++ (a ++ '.' :: b) = List.replicate m ' ' ++ w ∧ Number False w :=
    fun n a b ha hb => ⟨n, _, rfl, .plain [] _ (Or.inl rfl) (.point a b ha.2 hb.2 (Or.inl ha.1))⟩
  intro s hs
  simp only [List.mem_cons, List.not_mem_nil, or_false] at hs
  rcases hs with rfl | rfl | rfl
  · refine ⟨by decide, fun name v hv => ?_⟩
    cases hv
    refine ⟨⟨'P', ['X'], rfl, by decide⟩, by decide, fun t ht => ?_⟩
    rw [List.mem_singleton.mp ht]
    exact pt 0 ['1'] ['5'] ⟨by decide, by decide⟩ ⟨by decide, by decide⟩
  · refine ⟨by decide, fun name v hv => ?_⟩
    cases hv
    refine ⟨⟨'P', [], rfl, by decide⟩, by decide, fun t ht => ?_⟩
    rw [List.eq_of_mem_replicate ht]
    exact pt 0 ['2'] ['5'] ⟨by decide, by decide⟩ ⟨by decide, by decide⟩
  · refine ⟨by decide, fun name v hv => ?_⟩
    cases hv
    refine ⟨⟨'S', ['O'], rfl, by decide⟩, by decide, fun t ht => ?_⟩
    rw [List.mem_singleton.mp ht]
    exact pt 2 ['1', '0', '0'] ['0'] ⟨by decide, by decide⟩ ⟨by decide, by decide⟩

example : ∃ K, ∀ k, K ≤ k → ∃ (s : List Char) (cs : List PyCard), writeInput fmt1 1000 k (model1 (T "a tank") [cellA, cellB, cellC]) = .ok s ∧ getCards s = .ok cs
    ∧ SurfText.transCards CellText.textArith cs = .ok []
    ∧ ∃ rs, SurfText.surfaceCards CellText.textArith cs = .ok rs ∧ List.Forall₂ (SurfRead CellText.textArith) [surf1, surf2, surf3] rs :=
  C104_surfaces CellText.textArith (fun t _ => ⟨t, rfl⟩) fmt1 _ model1_good model1_surfaces 1000 (by omega) (Or.inr (Or.inr rfl))

end Geouned.McnpFile
