import Verif.Text.CharLemmas2
import Verif.Text.Props
import Verif.Text.WrapProps
/-!
# Properties of the written characters

C17, C18 and C34 together, on the characters that go to the file: what an input reader reads in the (wrapped) lines of a cell definition.
`CMeans` is specified in `CharSpec.lean`.
-/
namespace Geouned.Text

/-- Reading characters is unambiguous. -/
theorem C17_chars_unambiguous (σ : Side) (s : List Char) (b c : Bool) (h1 : CMeans σ s b) (h2 : CMeans σ s c) : b = c := by
  obtain ⟨ts, h3, h4⟩ := h1
  obtain ⟨us, h5, h6⟩ := h2
  rw [h3] at h5
  cases h5
  have hs : solid ts = ts := h4.solid_eq
  exact C16_unambiguous σ ts b c (by unfold Means; rw [hs]; exact h4) (by unfold Means; rw [hs]; exact h6)

/-- A number is written so that it reads back. -/
theorem C17_number (n : Int) : tokOf (strInt n) = some (.num n) := tokOf_strInt n

/-- **C17** on characters, for MCNP, PHITS and Serpent: the text of the sequence, before the clean-up, reads back as the region. -/
theorem C17_chars_write (op : Op) (l : Int) (es : List Seq) (hw : (Seq.lst op l es).WF) (hb : (Seq.lst op l es).NoBool) (hf : Full (.lst op l es))
    (f : Nat) (hd : (Seq.lst op l es).depth ≤ f) :
    ∃ t, writeSeq charStyle f (.lst op l es) = .ok t ∧
      (∀ c ∈ removeRedundantC t, c.isDigit = true ∨ c = '-' ∨ c = '(' ∨ c = ')' ∨ c = ':' ∨ c = ' ') ∧
      (∀ w ∈ Wrap.wordsOf (removeRedundantC t), w.getLast? ≠ some '-') ∧
      (∀ σ b, CMeans σ t b ↔ b = (Seq.lst op l es).sem σ) ∧ (∀ σ b, CMeans σ (removeRedundantC t) b ↔ b = (Seq.lst op l es).sem σ) := by
  obtain ⟨ts, h1, h2⟩ := C17_write_mcnp op l es hw hb hf f hd
  have h3 : NoAdj (ts.map isNum) := by
    obtain ⟨ts', h1', h3⟩ := writeSeq_reads (noAdj_ok (fun _ => true)) f op l es hw hb hf hd
    rw [h1] at h1'
    cases h1'
    exact h3
  have h4 : NoAdj ((removeRedundant ts).map isNum) := by rw [removeRedundant_isNum]; exact h3
  have hr : Readable ts := ⟨fun _ => true, _, (h2 _ _).2 rfl⟩
  refine ⟨render ts, by rw [writeSeq_render, h1]; rfl, ?_, ?_, fun σ b => ?_, fun σ b => ?_⟩
  · rw [removeRedundantC_render]
    intro c hc
    rcases render_chars _ _ hc with h | h | h | h | h | h <;> simp [h]
  · rw [removeRedundantC_render]
    exact words_render _ h4
  · rw [← h2 σ b]
    unfold CMeans Means
    rw [tokensOf_render ts h3]
    exact ⟨fun ⟨_, e, h⟩ => by cases e; exact h, fun h => ⟨_, rfl, h⟩⟩
  · rw [← h2 σ b, ← C18_iff ts hr σ b, removeRedundantC_render]
    unfold CMeans Means
    rw [tokensOf_render _ h4]
    exact ⟨fun ⟨_, e, h⟩ => by cases e; exact h, fun h => ⟨_, rfl, h⟩⟩

/-- **C17, C18, C34** together: the wrapped lines of the cell definition that are written to the file read back as the region of the cell,
fit in the line length and are indented as continuation lines. (`size` is 80, `tab` is 11 and `offset` is the length of the header of the cell card.)
The condition on the text is that of C34: the words (with opening parentheses before them) fit in a line. -/
theorem C17_cell_card (op : Op) (l : Int) (es : List Seq) (hw : (Seq.lst op l es).WF) (hb : (Seq.lst op l es).NoBool) (hf : Full (.lst op l es))
    (size tab offset d m f k : Nat) (hd : (Seq.lst op l es).depth ≤ f) (h1 : m + d < size - tab) (h2 : m + d < size - offset)
    (hroom : ∀ t, writeSeq charStyle f (.lst op l es) = .ok t →
      (∀ w ∈ Wrap.wordsOf (removeRedundantC t), w.length ≤ d) ∧ ¬ List.replicate (m + 1) ['('] <:+: Wrap.wordsOf (removeRedundantC t) ∧
      (Wrap.normalise (removeRedundantC t)).length < k) :
    ∃ out, cellDef size tab offset f k (.lst op l es) = .ok out ∧ (∀ σ b, CMeans σ out b ↔ b = (Seq.lst op l es).sem σ) ∧
      Wrap.Fits size offset out ∧ Wrap.Continues tab out := by
  obtain ⟨t, g1, g2, g2', -, g3⟩ := C17_chars_write op l es hw hb hf f hd
  obtain ⟨hr, hp, hk⟩ := hroom t g1
  obtain ⟨out, k1, k2, k3, k4⟩ := Wrap.C34_wrap size tab offset d m (removeRedundantC t) g2 (fun w hw => ⟨g2' w hw, hr w hw⟩) hp h1 h2 k hk
  refine ⟨out, by simp only [cellDef, g1, bind, Except.bind, k1], fun σ b => ?_, k3, k4⟩
  rw [← g3 σ b]
  unfold CMeans
  rw [k2]

set_option maxRecDepth 8000 in
example : cellDef 80 11 20 3 100 sampleSeq = .ok "1 2:-1 (3:-4)".toList := rfl

set_option maxRecDepth 8000 in
example : cellDef 20 4 10 3 100 sampleSeq = .ok "1 2:-1 (3:\n    -4)".toList := rfl

/-- the condition is met -/
example : ∀ t, writeSeq charStyle 3 sampleSeq = .ok t →
    (∀ w ∈ Wrap.wordsOf (removeRedundantC t), w.length ≤ 2) ∧ ¬ List.replicate (1 + 1) ['('] <:+: Wrap.wordsOf (removeRedundantC t) ∧
      (Wrap.normalise (removeRedundantC t)).length < 100 := by
  intro t ht
  have e : writeSeq charStyle 3 sampleSeq = .ok "((1 2):(-1 (3:-4)))".toList := rfl
  rw [e] at ht
  cases ht
  have e2 : removeRedundantC "((1 2):(-1 (3:-4)))".toList = "  1 2 : -1 (3:-4)  ".toList := rfl
  have e3 : Wrap.wordsOf "  1 2 : -1 (3:-4)  ".toList = ["1", "2", ":", "-1", "(", "3", ":", "-4", ")"].map String.toList := rfl
  rw [e2, e3]
  decide

end Geouned.Text
