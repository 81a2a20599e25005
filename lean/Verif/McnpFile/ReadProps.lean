import Verif.McnpFile.ReadLemmas2
/-!
# C103: GEOReverse reads the cells of the file that GEOUNED has written
-/
namespace Geouned.McnpFile

open Geouned.Card

variable {V : Type}

/-- **C103.** Write a model, read the file back with GEOReverse: of the cards that GEOReverse finds, those it takes for cell cards are one for each cell of the model, in order,
and from each of them it reads the number, the material, the region, the universe, the filling universe and its transformation of that cell. `F` is Python's `float`. -/
theorem C103_cells (F : CellText.Arith V) (hF : ∀ t, CellText.Number False t → ∃ v, F.flt t = some v) (f : Fmt) (i : Input) (h : Good f i) (hs : Signs f i) (r : Nat) (hr : 30 ≤ r)
    (he : i.sphere = none ∨ i.volSDEF = false ∨ i.volCARD = true) :
    ∃ K, ∀ k, K ≤ k → ∃ (s : List Char) (cs : List PyCard), writeInput f r k i = .ok s ∧ getCards s = .ok cs
      ∧ List.Forall₂ (fun c p => ∃ n q, CellText.readCell F (joinLines p.input) = .ok (n, q) ∧ CellRead i c n q)
          (i.cells.filter (fun c => c.real)) (cs.filter (fun p => p.ctype = 3)) := by
  obtain ⟨K, hK⟩ := file_deck h r hr
  refine ⟨K, fun k hk => ?_⟩
  obtain ⟨s, d, h1, h2, h3, h4, h5, h6, h7, ha, hl, hcard⟩ := hK k hk
  have hend : ends i = true := by
    unfold ends
    rcases he with he | he | he <;> simp [he]
  obtain ⟨cs, g1, g2, g3⟩ := cards_full d d.lines s h2 (expand_selfs _ (deck_notab h2 h4.nomessage ha)) h3 h5 h6 (h7 hend)
  refine ⟨s, cs, h1, g1, ?_⟩
  -- the texts of the cell cards
  have hin : ∀ p ∈ cs, kindOf p.ctype ≠ none → p.input.filter (fun t => t.any (fun x => x ≠ ' ')) = p.input := by
    intro p hp hk
    obtain ⟨e1, b, hb, m, hm, e2⟩ := g3 p hp hk
    obtain ⟨first, rest, hmc, hf, hr⟩ := hcard b hb m hm
    rw [e2, hmc] at e1
    refine input_full hf hr p.ctype ?_ ?_ e1
    · intro h; rw [h] at hk; exact hk rfl
    · intro h; rw [h] at hk; exact hk rfl
  have key : (cs.filter (fun p => p.ctype = 3)).map PyCard.input = d.cells.cards.map (fun m => m.2.says) := by
    rw [kind_texts .cell 3 rfl hin (by rintro m (rfl | rfl | rfl) h <;> first | rfl | (exact absurd h (by decide))), g2, (says_texts d).1]
  rw [← key, List.forall₂_map_right_iff] at hl
  refine List.Forall₂.imp (R := fun (c : Cell) (p : PyCard) => (c ∈ i.cells ∧ c.real) ∧ Laid f i c p.input) (fun c p hc => laid_read hF hs hc.1.1 hc.1.2 hc.2) ?_
  have mem : ∀ (l : List Cell) (m : List PyCard), List.Forall₂ (fun c p => Laid f i c p.input) l m → (∀ c ∈ l, c ∈ i.cells ∧ c.real) →
      List.Forall₂ (fun c p => (c ∈ i.cells ∧ c.real) ∧ Laid f i c p.input) l m := by
    intro l m hlm hmem
    induction hlm with
    | nil => exact .nil
    | cons a _ ih => exact .cons ⟨hmem _ List.mem_cons_self, a⟩ (ih fun c hc => hmem c (List.mem_cons_of_mem _ hc))
  refine mem _ _ hl fun c hc => ?_
  rw [List.mem_filter] at hc
  exact ⟨hc.1, by simpa using hc.2⟩

/-! ## the hypotheses are met -/

theorem model1_signs : Signs fmt1 (model1 (T "a tank") [cellA, cellB, cellC]) where
  e4 _ := ⟨1, T "1.0000e+00", rfl, .exp [] (T "1.0000") 'e' ['+'] (T "00") (Or.inl rfl) (.point ['1'] (T "0000") (by decide) (by decide) (by decide)) (by decide)
    (by unfold CellText.Sign; decide) ⟨by decide, by decide⟩ (by decide)⟩
  f7 _ := ⟨2, T "1.0000000", rfl, .plain [] (T "1.0000000") (Or.inl rfl) (.point ['1'] (T "0000000") (by decide) (by decide) (by decide))⟩
  e _ := .exp [] (T "1.000000") 'e' ['+'] (T "00") (Or.inl rfl) (.point ['1'] (T "000000") (by decide) (by decide) (by decide)) (by decide)
    (by unfold CellText.Sign; decide) ⟨by decide, by decide⟩ (by decide)
  uni u hu := by cases hu; decide
  cells c hc _ := by
    have : c = cellA ∨ c = cellB ∨ c = cellC := by simpa [model1] using hc
    rcases this with rfl | rfl | rfl
    · exact ⟨by decide, by decide, fun n hn => (by cases hn), fun n hn => (by cases hn)⟩
    · exact ⟨by decide, by decide, fun n hn => (by cases hn), fun n hn => (by cases hn)⟩
    · exact ⟨by decide, by decide, fun n hn => (by cases hn; decide), fun n hn => (by cases hn; decide)⟩

example : ∃ K, ∀ k, K ≤ k → ∃ (s : List Char) (cs : List PyCard), writeInput fmt1 1000 k (model1 (T "a tank") [cellA, cellB, cellC]) = .ok s ∧ getCards s = .ok cs
    ∧ List.Forall₂ (fun c p => ∃ n q, CellText.readCell CellText.textArith (joinLines p.input) = .ok (n, q) ∧ CellRead (model1 (T "a tank") [cellA, cellB, cellC]) c n q)
        [cellA, cellC] (cs.filter (fun p => p.ctype = 3)) :=
  C103_cells CellText.textArith (fun t _ => ⟨t, rfl⟩) fmt1 _ model1_good model1_signs 1000 (by omega) (Or.inr (Or.inr rfl))

end Geouned.McnpFile
