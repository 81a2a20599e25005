import Verif.Text.Lemmas5
/-!
# Properties of the text of cell definitions

C16 (`BoolSequence(string)`), C17 (writers), C18 (`remove_redundant`). What a text means is specified in `Spec.lean`.
-/
namespace Geouned.Text

/-! ## C16 -/

/-- **C16.** `BoolSequence(string)` accepts every well-formed text, and the expression it builds holds at a point exactly when the text does
by the syntax rules: the text means the value of the expression, and means nothing else.
`order` is any order in which Python may iterate a set of ints; `f` is the recursion depth allowed (more than the number of tokens is enough). -/
theorem C16_parse (order : List Int → List Int) (hord : ∀ l n, n ∈ order l ↔ n ∈ l) (ts : List Tok) (h : Readable ts)
    (f : Nat) (hf : ts.length < f) :
    ∃ q, setDef order f ts = .ok q ∧ q.WF ∧ ∀ σ b, Means σ ts b ↔ b = q.sem σ := by
  have hn : nums ts < f := Nat.lt_of_le_of_lt (nums_le ts) hf
  have hq : ∀ σ b, Means σ ts b → ∃ q, setDef order f ts = .ok q ∧ q.WF ∧ q.sem σ = b := by
    intro σ b hm
    obtain ⟨q, h1, h2, -, h3⟩ := setDef_spec hord f ts σ b hn (reads_top hm)
    exact ⟨q, h1, h2, h3⟩
  obtain ⟨σ0, b0, h0⟩ := h
  obtain ⟨q, h1, h2, -⟩ := hq σ0 b0 h0
  have key : ∀ σ b, Means σ ts b → b = q.sem σ := by
    intro σ b hm
    obtain ⟨q', h1', -, h3⟩ := hq σ b hm
    rw [h1] at h1'
    cases h1'
    exact h3.symm
  refine ⟨q, h1, h2, fun σ b => ⟨key σ b, ?_⟩⟩
  rintro rfl
  obtain ⟨b, hb⟩ := Readable.means ⟨σ0, b0, h0⟩ σ
  rw [← key σ b hb]
  exact hb

/-- The text rules are unambiguous: no text both holds and does not hold at a point. -/
theorem C16_unambiguous (σ : Side) (ts : List Tok) (b c : Bool) (h1 : Means σ ts b) (h2 : Means σ ts c) : b = c := by
  obtain ⟨q, -, -, h⟩ := C16_parse id (fun _ _ => Iff.rfl) ts ⟨σ, b, h1⟩ (ts.length + 1) (by omega)
  rw [(h σ b).1 h1, (h σ c).1 h2]

/-- `1 (-2:( 3 4))` -/
def sample : List Tok := [.num 1, .blank, .lp, .num (-2), .colon, .lp, .blank, .num 3, .blank, .num 4, .rp, .rp]

theorem sample_readable : Readable sample := by
  refine ⟨fun _ => true, true && (false || (true && true)), ?_⟩
  show Reads _ _ ([.num 1] ++ (.lp :: (([.num (-2)] ++ .colon :: (.lp :: (([.num 3] ++ [.num 4]) ++ [.rp]))) ++ [.rp]))) _
  exact .single (.and (.num 1 (by decide)) (.one (.paren (.or (.one (.num (-2) (by decide)))
    (.single (.one (.paren (.single (.and (.num 3 (by decide)) (.one (.num 4 (by decide))))))))))))

example : setDef id 13 sample = .ok (.lst .and 2 [.lst .and 0 [.int 1], .lst .or 1 [.lst .or 0 [.int (-2)], .lst .and 0 [.int 3, .int 4]]]) := rfl

example : Readable sample ∧ sample.length < 13 := ⟨sample_readable, by decide⟩

/-! ## C18 -/

/-- **C18.** The text without redundant parentheses means what the text meant, at every point. -/
theorem C18_remove_redundant (σ : Side) (ts : List Tok) (b : Bool) (h : Means σ ts b) : Means σ (removeRedundant ts) b :=
  removeRedundant_means h

/-- The clean text means nothing more. -/
theorem C18_iff (ts : List Tok) (h : Readable ts) (σ : Side) (b : Bool) : Means σ (removeRedundant ts) b ↔ Means σ ts b := by
  refine ⟨fun h' => ?_, C18_remove_redundant σ ts b⟩
  obtain ⟨c, hc⟩ := h.means σ
  rw [C16_unambiguous σ _ b c h' (C18_remove_redundant σ ts c hc)]
  exact hc

/-- Only parentheses are touched: the numbers and the colons stay, in their order. -/
theorem C18_symbols (ts : List Tok) :
    (removeRedundant ts).filter (fun t => t ≠ .lp ∧ t ≠ .rp ∧ t ≠ .blank) = ts.filter (fun t => t ≠ .lp ∧ t ≠ .rp ∧ t ≠ .blank) :=
  removeRedundant_symbols ts

/-- the parenthesis of the union is kept, the other is removed -/
example : solid (removeRedundant sample) = [.num 1, .lp, .num (-2), .colon, .num 3, .num 4, .rp] := rfl

/-! ## C17 -/

/-- **C17** for MCNP, PHITS and Serpent: an expression without boolean constants and without empty lists is written (no exception),
and the text reads back as its region. -/
theorem C17_write_mcnp (op : Op) (l : Int) (es : List Seq) (hw : (Seq.lst op l es).WF) (hb : (Seq.lst op l es).NoBool) (hf : Full (.lst op l es))
    (f : Nat) (hd : (Seq.lst op l es).depth ≤ f) :
    ∃ ts, writeSeq mcnpStyle f (.lst op l es) = .ok ts ∧ ∀ σ b, Means σ ts b ↔ b = (Seq.lst op l es).sem σ := by
  have key : ∀ σ, ∃ ts, writeSeq mcnpStyle f (.lst op l es) = .ok ts ∧ Means σ ts ((Seq.lst op l es).sem σ) := by
    intro σ
    obtain ⟨ts, h1, h2⟩ := writeSeq_reads (mcnp_ok σ) f op l es hw hb hf hd
    exact ⟨ts, h1, .single (.one h2)⟩
  obtain ⟨ts, h1, -⟩ := key (fun _ => true)
  have key' : ∀ σ, Means σ ts ((Seq.lst op l es).sem σ) := by
    intro σ
    obtain ⟨ts', h1', h2⟩ := key σ
    rw [h1] at h1'
    cases h1'
    exact h2
  refine ⟨ts, h1, fun σ b => ⟨fun h => C16_unambiguous σ ts _ _ h (key' σ), ?_⟩⟩
  rintro rfl
  exact key' σ

/-- **C17** for MCNP, PHITS and Serpent, the text of the cell card, after the clean-up of the parentheses -/
theorem C17_cell_text (op : Op) (l : Int) (es : List Seq) (hw : (Seq.lst op l es).WF) (hb : (Seq.lst op l es).NoBool) (hf : Full (.lst op l es))
    (f : Nat) (hd : (Seq.lst op l es).depth ≤ f) :
    ∃ ts, cellText f (.lst op l es) = .ok ts ∧ ∀ σ b, Means σ ts b ↔ b = (Seq.lst op l es).sem σ := by
  obtain ⟨ts, h1, h2⟩ := C17_write_mcnp op l es hw hb hf f hd
  refine ⟨removeRedundant ts, by simp only [cellText, h1, bind, Except.bind], fun σ b => ?_⟩
  rw [C18_iff ts ⟨σ, _, (h2 σ _).2 rfl⟩ σ b, h2 σ b]

/-- **C17** for OpenMC XML (with `|` for the union) -/
theorem C17_write_xml (op : Op) (l : Int) (es : List Seq) (hw : (Seq.lst op l es).WF) (hb : (Seq.lst op l es).NoBool) (hf : Full (.lst op l es))
    (f : Nat) (hd : (Seq.lst op l es).depth ≤ f) :
    ∃ ts, writeSeq xmlStyle f (.lst op l es) = .ok ts ∧ ∀ σ b, Means σ ts b ↔ b = (Seq.lst op l es).sem σ := by
  have key : ∀ σ, ∃ ts, writeSeq xmlStyle f (.lst op l es) = .ok ts ∧ Means σ ts ((Seq.lst op l es).sem σ) := by
    intro σ
    obtain ⟨ts, h1, h2⟩ := writeSeq_reads (xml_ok σ) f op l es hw hb hf hd
    exact ⟨ts, h1, .single (.one h2)⟩
  obtain ⟨ts, h1, -⟩ := key (fun _ => true)
  have key' : ∀ σ, Means σ ts ((Seq.lst op l es).sem σ) := by
    intro σ
    obtain ⟨ts', h1', h2⟩ := key σ
    rw [h1] at h1'
    cases h1'
    exact h2
  refine ⟨ts, h1, fun σ b => ⟨fun h => C16_unambiguous σ ts _ _ h (key' σ), ?_⟩⟩
  rintro rfl
  exact key' σ

/-- The Python rules are unambiguous too. -/
theorem py_unambiguous {σ : Side} {ts : List PTok} {b c : Bool} (h1 : PReads σ .union ts b) (h2 : PReads σ .union ts c) : b = c := by
  refine C16_unambiguous (fun k => σ (k - 1)) (ts.flatMap ptok) b c ?_ ?_
  · unfold Means; rw [solid_ptok]; exact h1.toReads
  · unfold Means; rw [solid_ptok]; exact h2.toReads

/-- **C17** for OpenMC Python: the expression of half-spaces evaluates to the region. -/
theorem C17_write_py (op : Op) (l : Int) (es : List Seq) (hw : (Seq.lst op l es).WF) (hb : (Seq.lst op l es).NoBool) (hf : Full (.lst op l es))
    (f : Nat) (hd : (Seq.lst op l es).depth ≤ f) :
    ∃ ts, writeSeq pyStyle f (.lst op l es) = .ok ts ∧ ∀ σ b, PReads σ .union ts b ↔ b = (Seq.lst op l es).sem σ := by
  have key : ∀ σ, ∃ ts, writeSeq pyStyle f (.lst op l es) = .ok ts ∧ PReads σ .union ts ((Seq.lst op l es).sem σ) := by
    intro σ
    obtain ⟨ts, h1, h2⟩ := writeSeq_reads (py_ok σ) f op l es hw hb hf hd
    exact ⟨ts, h1, .single (.one h2)⟩
  obtain ⟨ts, h1, -⟩ := key (fun _ => true)
  have key' : ∀ σ, PReads σ .union ts ((Seq.lst op l es).sem σ) := by
    intro σ
    obtain ⟨ts', h1', h2⟩ := key σ
    rw [h1] at h1'
    cases h1'
    exact h2
  refine ⟨ts, h1, fun σ b => ⟨fun h => py_unambiguous h (key' σ), ?_⟩⟩
  rintro rfl
  exact key' σ

/-- **C17**, round trip: reading the written cell definition gives an expression of the same region. -/
theorem C17_round_trip (order : List Int → List Int) (hord : ∀ l n, n ∈ order l ↔ n ∈ l)
    (op : Op) (l : Int) (es : List Seq) (hw : (Seq.lst op l es).WF) (hb : (Seq.lst op l es).NoBool) (hf : Full (.lst op l es))
    (f : Nat) (hd : (Seq.lst op l es).depth ≤ f) :
    ∃ ts q, cellText f (.lst op l es) = .ok ts ∧ setDef order (ts.length + 1) ts = .ok q ∧ ∀ σ, q.sem σ = (Seq.lst op l es).sem σ := by
  obtain ⟨ts, h1, h2⟩ := C17_cell_text op l es hw hb hf f hd
  obtain ⟨q, h3, -, h4⟩ := C16_parse order hord ts ⟨fun _ => true, _, (h2 _ _).2 rfl⟩ (ts.length + 1) (by omega)
  exact ⟨ts, q, h1, h3, fun σ => (h2 σ _).1 ((h4 σ _).2 rfl)⟩

/-- `(1 2):(-1 (3:-4))` -/
def sampleSeq : Seq := .lst .or 2 [.lst .and 0 [.int 1, .int 2], .lst .and 1 [.int (-1), .lst .or 0 [.int 3, .int (-4)]]]

example : sampleSeq.WF ∧ sampleSeq.NoBool ∧ Full sampleSeq ∧ sampleSeq.depth ≤ 3 := by
  refine ⟨?_, ?_, ?_, ?_⟩ <;> simp [sampleSeq, Seq.WF, Seq.WFL, Seq.NoBool, Seq.NoBoolL, Full, FullL, Seq.depth, Seq.depthL]

example : (cellText 3 sampleSeq).map solid = .ok [.num 1, .num 2, .colon, .num (-1), .lp, .num 3, .colon, .num (-4), .rp] := rfl

example : writeSeq pyStyle 3 sampleSeq = .ok [.lp, .lp, .surf false 1, .amp, .surf false 2, .rp, .bar,
    .lp, .surf true 1, .amp, .lp, .surf false 3, .bar, .surf true 4, .rp, .rp, .rp] := rfl

/-- The full claim, for every expression that a cell can have. -/
def C17_statement : Prop :=
  ∀ (s : Seq), s.WF → (∀ n, s ≠ .int n) → ∃ f ts, cellText f s = .ok ts ∧ ∀ σ b, Means σ ts b ↔ b = s.sem σ

/-- **C17 is violated** by a cell whose definition became the constant true or false: the writer raises `TypeError`. -/
theorem C17_bare_boolean_violated : ¬ C17_statement := by
  intro h
  obtain ⟨f, ts, h1, -⟩ := h (.boo .and (-1) true) (by simp [Seq.WF]) (by simp)
  cases f with
  | zero => simp [cellText, writeSeq, bind, Except.bind] at h1
  | succ f => simp [cellText, writeSeq, bind, Except.bind] at h1

/-- A definition that became the constant true or false is never written: every format raises. -/
theorem C17_bare_boolean_raises {α : Type} (st : Style α) (op : Op) (l : Int) (b : Bool) (f : Nat) :
    writeSeq st (f + 1) (.boo op l b) = .error .typeError := rfl

/-- The same for a constant anywhere inside. -/
theorem C17_inner_boolean_raises {α : Type} (st : Style α) (f : Nat) (op : Op) (l : Int) (es : List Seq)
    (h : ¬ (Seq.lst op l es).NoBool) : ∃ e, writeSeq st f (.lst op l es) = .error e :=
  writeSeq_boo st f _ h

example : ¬ (Seq.lst .and 1 [.int 3, .boo .or (-1) true]).NoBool := by simp [Seq.NoBool, Seq.NoBoolL]

end Geouned.Text
