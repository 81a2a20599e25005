import Verif.OmcFile.Lemmas2
/-!
# C105: the OpenMC XML file is well-formed and says exactly what the model is
-/
namespace Geouned.OmcFile

/-- what the property asks: the comments of the cells may be any text that XML can have, and a model may have no surfaces -/
def C105_statement : Prop := ∀ (r : Nat) (cs : List Cell) (ss : List Surf),
  (∀ c ∈ cs, c.Wanted → GoodDef r c.definition ∧ PlainBreaks c.comments ∧ ∀ x ∈ c.comments, xmlChar x = true) →
  (∀ s ∈ ss, (Attr s.ty ∧ ∀ c ∈ s.ty, ws c = true → c = ' ') ∧ (Attr s.coeffs ∧ ∀ c ∈ s.coeffs, ws c = true → c = ' ')) →
  ss ≠ [] → ∃ t es, writeXml r cs ss = .ok t ∧ readXml t = some ("geometry".toList, es) ∧ Says cs ss es

/-- **C105, part.** For every model whose comments have no `"`, `<` and `&` (and that has a surface) the file is well-formed XML, with one element `geometry`, in it one element
for each cell (number, material, name, region of the same meaning, universe 1), then one for each surface (number, kind, coefficients), the last with a vacuum boundary. -/
theorem C105_xml_partial (r : Nat) (cs : List Cell) (ss : List Surf) (h : GoodXml r cs ss) :
    ∃ t es, writeXml r cs ss = .ok t ∧ readXml t = some ("geometry".toList, es) ∧ Says cs ss es := writeXml_reads h

/-! ## violations -/

def def1 : Seq := .lst .and 0 [.int (-1), .int 2]
def def2 : Seq := .lst .or 1 [.int (-3), .lst .and 0 [.int 1, .int 2]]
def surf1 : Surf := ⟨1, T "x-plane", T "1.0"⟩
def surf2 : Surf := ⟨2, T "z-cylinder", T "0.0 1.0 2.5"⟩
def surf3 : Surf := ⟨3, T "sphere", T "0.0 0.0 0.0 10.0"⟩
def cellA : Cell := ⟨some 1, 1, 12, def1, T "tank/wall\nSTEP file", some (T "water")⟩
def cellB : Cell := ⟨none, 0, 0, .boo .and 0 true, T "VOID CELLS", none⟩
def cellC : Cell := ⟨some 2, 2, 0, def2, T "Automatic Generated Void Cell.\n", none⟩
def cellG : Cell := ⟨some 3, 3, 0, .lst .and 0 [.int 3], T "graveyard", some (T "Graveyard")⟩
def cellAmp : Cell := { cellA with comments := T "pipe & wall" }
def cellQuote : Cell := { cellA with comments := T "pipe 2\" wide" }

theorem good_def1 : GoodDef 30 def1 := by
  refine ⟨_, _, _, rfl, ?_, ?_, ?_, ?_⟩
  all_goals simp [Seq.WF, Seq.WFL, Seq.NoBool, Seq.NoBoolL, Text.Full, Text.FullL, Seq.depth, Seq.depthL]

theorem good_def2 : GoodDef 30 def2 := by
  refine ⟨_, _, _, rfl, ?_, ?_, ?_, ?_⟩
  all_goals simp [Seq.WF, Seq.WFL, Seq.NoBool, Seq.NoBoolL, Text.Full, Text.FullL, Seq.depth, Seq.depthL]


theorem surf1_good : ∀ s ∈ [surf1, surf2, surf3], (Attr s.ty ∧ ∀ c ∈ s.ty, ws c = true → c = ' ') ∧ (Attr s.coeffs ∧ ∀ c ∈ s.coeffs, ws c = true → c = ' ') := by
  unfold Attr; decide

/-- **C105, violation.** An `&` in the label of a solid (which is written in the comment of the cell) is written as it is: the file is not well-formed. -/
theorem C105_violated : ¬ C105_statement := by
  intro h
  obtain ⟨t, es, h1, h2, -⟩ := h 30 [cellAmp] [surf1, surf2, surf3] (by
    intro c hc _
    obtain rfl : c = cellAmp := by simpa using hc
    exact ⟨good_def1, by unfold PlainBreaks; decide, by decide⟩) surf1_good (by decide)
  have h3 : (match writeXml 30 [cellAmp] [surf1, surf2, surf3] with | .ok t => readXml t | .error _ => none) = none := by decide +kernel
  rw [h1] at h3
  dsimp only at h3
  rw [h2] at h3
  cases h3

/-- the same with a quotation mark -/
theorem C105_quote_violated : ∃ t, writeXml 30 [cellQuote] [surf1, surf2, surf3] = .ok t ∧ readXml t = none := by
  have h3 : (match writeXml 30 [cellQuote] [surf1, surf2, surf3] with | .ok t => readXml t == none | .error _ => false) = true := by decide +kernel
  cases h : writeXml 30 [cellQuote] [surf1, surf2, surf3] with
  | error e => rw [h] at h3; cases h3
  | ok t =>
    rw [h] at h3
    exact ⟨t, rfl, by simpa using h3⟩

/-- without surfaces an exception is raised -/
theorem C105_nosurf (r : Nat) (cs : List Cell) (t : List Char) : writeXml r cs [] ≠ .ok t := by
  unfold writeXml
  intro h
  cases h1 : xmlCells r (shown cs) with
  | error e => rw [h1] at h; cases h
  | ok x => rw [h1] at h; cases h

/-! ## the hypotheses are met -/

theorem model1_xml : GoodXml 30 [cellA, cellB, cellC, cellG] [surf1, surf2, surf3] where
  some := by decide
  surfaces := surf1_good
  cells c hc hw := by
    simp only [List.mem_cons, List.not_mem_nil, or_false] at hc
    rcases hc with rfl | rfl | rfl | rfl
    · exact ⟨good_def1, by unfold PlainBreaks; decide, by unfold Attr; decide⟩
    · exact absurd hw (by decide)
    · exact ⟨good_def2, by unfold PlainBreaks; decide, by unfold Attr; decide⟩
    · exact absurd hw (by decide)

example : ∃ t es, writeXml 30 [cellA, cellB, cellC, cellG] [surf1, surf2, surf3] = .ok t ∧ readXml t = some ("geometry".toList, es)
    ∧ Says [cellA, cellB, cellC, cellG] [surf1, surf2, surf3] es := C105_xml_partial _ _ _ model1_xml

/-- a correct file with the reference `&amp;` is read -/
example : readXml (T "<?xml version='1.0'?>\n<geometry>\n <cell id=\"1\" name=\"pipe &amp; wall\"/></geometry>")
    = some (T "geometry", [⟨T "cell", [(T "id", ['1']), (T "name", T "pipe & wall")]⟩]) := by decide +kernel

end Geouned.OmcFile
