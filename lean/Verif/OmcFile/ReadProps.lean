import Verif.OmcFile.ReadLemmas
import Verif.OmcFile.Props
/-!
# C106: GEOReverse reads the OpenMC XML file that GEOUNED has written
-/
namespace Geouned.OmcFile.Read

open CellText (Arith)

/-- **C106.** Write a model as an OpenMC XML file, read it with GEOReverse: the cards are one for each cell, in order (number, material, a region of the same meaning, the root
universe, no filling), then one for each surface (number, kind, coefficients). `F` is Python's `float`. -/
theorem C106_read {V : Type} (F : Arith V) (r : Nat) (cs : List Cell) (ss : List Surf) (h : GoodXml r cs ss) (hn : ∀ s ∈ ss, Numbers F s) :
    ∃ t kc ks, writeXml r cs ss = .ok t ∧ readFile F t = .ok (kc.map .cell ++ ks.map .surface)
      ∧ List.Forall₂ CellRead (cs.filter (fun c => c.Wanted)) kc ∧ List.Forall₂ (SurfRead F) ss ks := by
  obtain ⟨t, es, h1, h2, ec, ef, el, s, rfl, h3, h4, h5, h6⟩ := writeXml_reads h
  have hsub : ∀ x ∈ ss.dropLast, x ∈ ss := fun x hx => (List.dropLast_sublist _).subset hx
  have hs : s ∈ ss := by rw [h4]; simp
  obtain ⟨kc, g1, g2⟩ := getCells_of F h3
  obtain ⟨kf, g3, g4⟩ := getSurfs_of h5 (fun x hx => hn x (hsub x hx)) (fun x hx => (h.surfaces x (hsub x hx)).2.2)
  obtain ⟨k, g5, g6⟩ := readSurf_of h6 (hn s hs) (h.surfaces s hs).2.2
  refine ⟨t, kc, kf ++ [k], h1, ?_, g2, ?_⟩
  · unfold readFile
    rw [h2]
    dsimp only
    have g7 : getCards F [el] = .ok [.surface k] := by
      unfold getCards
      rw [g5]
      rfl
    rw [getCards_append (getCards_append g1 g3) g7]
    simp
  · rw [h4]
    exact List.rel_append g4 (.cons g6 .nil)

/-! ## violations, on files of other origin -/

/-- what one would ask of any file: cells of different universes are kept apart -/
def C106_statement : Prop := ∀ (V : Type) (F : Arith V) (e e' : Elem) (k k' : CellCard) (u u' : List Char) (n n' : Int),
  (∀ v, ("universe".toList, v) ∈ e.attrs ↔ v = u) → (∀ v, ("universe".toList, v) ∈ e'.attrs ↔ v = u') → IsNum u n → IsNum u' n' → n ≠ n' →
  processCard F e = .ok (.cell k) → processCard F e' = .ok (.cell k') → k.u ≠ k'.u

/-- **C106, violation.** The universes 0 and 1 of a file become one universe, as universe 1 is read as 0. -/
theorem C106_universe_violated : ¬ C106_statement := by
  intro h
  refine h _ CellText.textArith ⟨"cell".toList, [("id".toList, ['1']), ("universe".toList, ['0']), ("fill".toList, ['1']), ("region".toList, ['-', '1'])]⟩
    ⟨"cell".toList, [("id".toList, ['2']), ("universe".toList, ['1']), ("material".toList, ['3']), ("region".toList, ['-', '2'])]⟩
    ⟨1, none, 0, some 1, ['-', '1']⟩ ⟨2, some 3, 0, none, ['-', '2']⟩ ['0'] ['1'] 0 1 ?_ ?_ (by unfold IsNum; decide) (by unfold IsNum; decide) (by decide) (by decide +kernel) (by decide +kernel) rfl
  · intro v
    have : ("universe".toList = "id".toList) = False ∧ ("universe".toList = "fill".toList) = False ∧ ("universe".toList = "region".toList) = False := by
      refine ⟨?_, ?_, ?_⟩ <;> exact eq_false (by decide)
    generalize "universe".toList = x at *
    simp only [List.mem_cons, Prod.mk.injEq, this.1, this.2.1, this.2.2, false_and, false_or, List.not_mem_nil, or_false, true_and]
  · intro v
    have : ("universe".toList = "id".toList) = False ∧ ("universe".toList = "material".toList) = False ∧ ("universe".toList = "region".toList) = False := by
      refine ⟨?_, ?_, ?_⟩ <;> exact eq_false (by decide)
    generalize "universe".toList = x at *
    simp only [List.mem_cons, Prod.mk.injEq, this.1, this.2.1, this.2.2, false_and, false_or, List.not_mem_nil, or_false, true_and]

/-- **C106, violation.** An element of another kind (a lattice, a surface of a material file) is no card but `None`; the methods of `XmlInput` then fail on its missing attribute
`type`. -/
theorem C106_other_violated {V : Type} (F : Arith V) (e : Elem) (h : e.tag ≠ "cell".toList) (h' : e.tag ≠ "surface".toList) : processCard F e = .ok .none := by
  unfold processCard
  rw [if_neg h, if_neg h']

/-- **C106, violation.** A cell without region (all of space, which OpenMC allows) makes the reading fail. -/
theorem C106_noregion_violated {V : Type} (F : Arith V) (l : List (List Char × List Char)) (h : "region".toList ∉ l.map Prod.fst) (k : Card V) :
    processCard F ⟨"cell".toList, l⟩ ≠ .ok k := by
  have hr : attr l "region".toList = none := by
    unfold attr
    rw [List.find?_eq_none.mpr (fun a ha => by
      intro e
      exact h (List.mem_map.mpr ⟨a, ha, of_decide_eq_true e⟩))]
    rfl
  intro hk
  unfold processCard at hk
  rw [if_pos rfl] at hk
  dsimp only at hk
  unfold readCell at hk
  rw [hr] at hk
  cases h1 : attr l "id".toList with
  | none => rw [h1] at hk; cases hk
  | some t =>
    rw [h1] at hk
    dsimp only at hk
    cases h2 : toInt t with
    | error e => rw [h2] at hk; cases hk
    | ok n =>
      rw [h2] at hk
      cases h3 : readMat l with
      | error e => rw [h3] at hk; cases hk
      | ok m =>
        rw [h3] at hk
        cases h4 : optInt l "universe".toList with
        | error e => rw [h4] at hk; cases hk
        | ok u =>
          rw [h4] at hk
          cases h5 : optInt l "fill".toList with
          | error e => rw [h5] at hk; cases hk
          | ok f => rw [h5] at hk; cases hk

/-! ## the hypotheses are met -/

theorem surfs_numbers (F : Arith (List Char)) (hF : ∀ t, F.flt t = some t) : ∀ s ∈ [surf1, surf2, surf3], Numbers F s := by
  have one : ∀ w : List Char, w ≠ [] → ' ' ∉ w → SurfText.Spelled w [w] := fun w h1 h2 => by
    have := SurfText.Spelled.word w [] [] h1 h2 (Or.inl rfl) .nil
    rwa [List.append_nil] at this
  have more : ∀ (w s : List Char) (l : List (List Char)), w ≠ [] → ' ' ∉ w → SurfText.Spelled s l → SurfText.Spelled (w ++ ' ' :: s) (w :: l) := fun w s l h1 h2 h3 =>
    .word w (' ' :: s) l h1 h2 (Or.inr rfl) (.blank _ _ h3)
  intro s hs
  simp only [List.mem_cons, List.not_mem_nil, or_false] at hs
  rcases hs with rfl | rfl | rfl
  · exact ⟨_, one (T "1.0") (by decide) (by decide), fun w _ => ⟨w, hF w⟩⟩
  · refine ⟨[T "0.0", T "1.0", T "2.5"], ?_, fun w _ => ⟨w, hF w⟩⟩
    have := more (T "0.0") _ _ (by decide) (by decide) (more (T "1.0") _ _ (by decide) (by decide) (one (T "2.5") (by decide) (by decide)))
    rw [show T "0.0" ++ ' ' :: (T "1.0" ++ ' ' :: T "2.5") = T "0.0 1.0 2.5" from by decide] at this
    exact this
  · refine ⟨[T "0.0", T "0.0", T "0.0", T "10.0"], ?_, fun w _ => ⟨w, hF w⟩⟩
    have := more (T "0.0") _ _ (by decide) (by decide) (more (T "0.0") _ _ (by decide) (by decide) (more (T "0.0") _ _ (by decide) (by decide) (one (T "10.0") (by decide) (by decide))))
    rw [show T "0.0" ++ ' ' :: (T "0.0" ++ ' ' :: (T "0.0" ++ ' ' :: T "10.0")) = T "0.0 0.0 0.0 10.0" from by decide] at this
    exact this

example : ∃ t kc ks, writeXml 30 [cellA, cellB, cellC, cellG] [surf1, surf2, surf3] = .ok t ∧ readFile CellText.textArith t = .ok (kc.map .cell ++ ks.map .surface)
    ∧ List.Forall₂ CellRead [cellA, cellC] kc ∧ List.Forall₂ (SurfRead CellText.textArith) [surf1, surf2, surf3] ks :=
  C106_read CellText.textArith 30 _ _ model1_xml (surfs_numbers _ (fun _ => rfl))

end Geouned.OmcFile.Read
