import Verif.Text.RoomLemmas
/-!
# C17 with conditions on the expression only

`C17_cell_card` asks for words and parentheses of the text that fit in a line. Here this follows from the numbers of the expression and its depth.
-/
namespace Geouned.Text

/-- **C17, C18, C34** together: an expression without boolean constants and without empty lists, with numbers of at most `d` digits, whose depth leaves
room for a number in a line, is written to the lines of a cell card: the wrapped lines read back as its region, fit in the line length and are indented as
continuation lines. (`size` is 80, `tab` is 11 and `offset` is the length of the header of the cell card; `k`, the rounds of the loop, is only to be large enough.) -/
theorem C17_definition (op : Op) (l : Int) (es : List Seq) (hw : (Seq.lst op l es).WF) (hb : (Seq.lst op l es).NoBool) (hf : Full (.lst op l es))
    (size tab offset d f : Nat) (hd : (Seq.lst op l es).depth ≤ f) (hd0 : 0 < d) (hN : Below (10 ^ d) (.lst op l es))
    (h1 : (Seq.lst op l es).depth + d + 1 < size - tab) (h2 : (Seq.lst op l es).depth + d + 1 < size - offset) :
    ∃ K, ∀ k, K ≤ k → ∃ out, cellDef size tab offset f k (.lst op l es) = .ok out ∧ (∀ σ b, CMeans σ out b ↔ b = (Seq.lst op l es).sem σ) ∧
      Wrap.Fits size offset out ∧ Wrap.Continues tab out := by
  obtain ⟨t, ht, -⟩ := C17_chars_write op l es hw hb hf f hd
  refine ⟨(Wrap.normalise (removeRedundantC t)).length + 1, fun k hk => ?_⟩
  refine C17_cell_card op l es hw hb hf size tab offset (d + 1) (Seq.lst op l es).depth f k hd (by omega) (by omega) ?_
  intro u hu
  rw [ht] at hu
  cases hu
  have := cell_room op l es hw hb hf f d hd hd0 hN t ht
  exact ⟨this.1, this.2, by omega⟩

/-- the condition for a header of 24 characters: with numbers of up to 6 digits a depth of up to 48 -/
example (dep : Nat) (h : dep ≤ 48) : dep + 6 + 1 < 80 - 11 ∧ dep + 6 + 1 < 80 - 24 := by omega

example : Below (10 ^ 1) sampleSeq ∧ sampleSeq.depth = 3 := by
  simp [sampleSeq, Below, BelowL, Seq.depth, Seq.depthL]

end Geouned.Text
