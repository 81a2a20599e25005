import Verif.Session.AgainLemmas
import Verif.PhitsFile.Props2
import Verif.OmcFile.Props
/-!
# C111: exports do not change what later exports write
-/
namespace Geouned.Session

open Geouned.McnpFile (T)

/-- C111 for files of kind `x`: whatever was exported before, an export writes the same file of this kind as it would have written at the beginning -/
def C111_statement (x : Kind) : Prop :=
  ∀ (f : PhitsFile.Fmt) (r k : Nat) (p : Project) (a : List Args) (b : Args) (g : Good) (cc su : Bool) (o : List (List Char)) (w w1 w2 w3 : World),
    Means b g cc su o → Wanted cc su o x → exports f r k p a w = .ok w1 → exportCsg f r k p b w1 = .ok w2 → exportCsg f r k p b w = .ok w3 →
    w2.disk (g.name ++ x.suffix) = w3.disk (g.name ++ x.suffix)

/-- **C111.** It holds if no earlier export asks for PHITS, or if the model has no inner and outer void (`voidGen` off): any export that ended at the beginning ends after any number of
other exports, and writes the same files. -/
theorem C111_plain_partial (f : PhitsFile.Fmt) (r k : Nat) (p : Project) (a : List Args) (b : Args) (w w1 w3 : World)
    (hc : (∀ x ∈ a, ¬ AsksPhits x) ∨ ∀ c ∈ w.cells, ¬ c.inner ∧ ¬ c.outer) (h1 : exports f r k p a w = .ok w1) (h3 : exportCsg f r k p b w = .ok w3) :
    ∃ w2, exportCsg f r k p b w1 = .ok w2 ∧ ∀ g cc su o x, Means b g cc su o → Wanted cc su o x → w2.disk (g.name ++ x.suffix) = w3.disk (g.name ++ x.suffix) :=
  same_files (exports_keep h1 (hc.imp id fun hc c hcm hf => hf.2.elim (hc c hcm).1 (hc c hcm).2)) w3 h3

/-- **C111.** And from the first export of PHITS on nothing changes any more (inner and outer void are void cells without material): what an export writes after it, it also writes
after any number of further exports. -/
theorem C111_settled_partial (f : PhitsFile.Fmt) (r k : Nat) (p : Project) (a : Args) (as : List Args) (b : Args) (w w0 w1 w3 : World)
    (hg : ∀ c ∈ w.cells, c.inner ∨ c.outer → c.void = true ∧ c.material = 0) (ha : AsksPhits a) (h0 : exportCsg f r k p a w = .ok w0) (h1 : exports f r k p as w0 = .ok w1)
    (h3 : exportCsg f r k p b w0 = .ok w3) :
    ∃ w2, exportCsg f r k p b w1 = .ok w2 ∧ ∀ g cc su o x, Means b g cc su o → Wanted cc su o x → w2.disk (g.name ++ x.suffix) = w3.disk (g.name ++ x.suffix) :=
  same_files (exports_keep h1 (Or.inr (phits_settles h0 ha hg))) w3 h3

/-! ## A model -/

/-- the project of `PhitsFile.modelP` -/
def proj (step : List Char) : Project :=
  { mcnpSurfs := [McnpFile.surf1, McnpFile.surf2, McnpFile.surf3], xmlSurfs := [OmcFile.surf1, OmcFile.surf2, OmcFile.surf3], pySurfs := [OmcFile.surf1, OmcFile.surf2, OmcFile.surf3],
    serpSurfs := [⟨1, some (T "px", [T "1.5"])⟩, ⟨3, some (T "sph", [T "0.0", T "0.0", T "0.0", T "10.0"])⟩], voidGen := true, sphere := some (3, 10), box := (0, 1, 0, 1, 0, 1), matFile := [],
    voidMat := none, startCell := 1, step := T "a.stp", stepText := some step, version := T "1.0", freecad := T "0.21.2", date := T "2024-01-01 00:00:00" }

def world : World := ⟨fun _ => none, [PhitsFile.solid1 3, PhitsFile.note1, PhitsFile.void1, PhitsFile.inner1, PhitsFile.outer1]⟩

/-- an export of these formats -/
def args (u : UVal) (formats : List (List Char)) : Args :=
  { title := .str (T "a tank"), geometryName := .str (T "csg"), outFormat := .strs formats, volSDEF := .bool true, volCARD := .bool true, ucard := u, dummyMat := .bool true,
    cellCommentFile := .bool true, cellSummaryFile := .bool true }

def good (u : Option Int) : Good := ⟨T "a tank", T "csg", true, true, u, true⟩

theorem args_means (formats : List (List Char)) : Means (args .none formats) (good none) true true formats := ⟨rfl, rfl, Or.inl rfl, rfl, rfl, Or.inl ⟨rfl, rfl⟩, rfl, rfl, rfl⟩

def isOk : Outcome → Bool
  | .ok _ => true
  | .fail _ _ => false

def worldOf : Outcome → World
  | .ok w => w
  | .fail _ _ => world

theorem ok_world {o : Outcome} (h : isOk o = true) : o = .ok (worldOf o) := by
  cases o with
  | ok w => rfl
  | fail e d => cases h

/-- a STEP file with and without enclosures -/
def labelled : List Char := T "PRODUCT('enclosure12_0_')"
def plain : List Char := T "PRODUCT('tank')"

def first (step : List Char) : World := worldOf (exports PhitsFile.fmtP 30 100 (proj step) [args .none [T "phits"]] world)

/-- all files can be written at the beginning and after an export of PHITS -/
theorem ok_first (step : List Char) (h : step = labelled ∨ step = plain) :
    isOk (exports PhitsFile.fmtP 30 100 (proj step) [args .none [T "phits"]] world) = true
      ∧ isOk (exportCsg PhitsFile.fmtP 30 100 (proj step) (args .none supported) world) = true
      ∧ isOk (exportCsg PhitsFile.fmtP 30 100 (proj step) (args .none supported) (first step)) = true := by
  rcases h with rfl | rfl
  · exact ⟨by decide +kernel, by decide +kernel, by decide +kernel⟩
  · exact ⟨by decide +kernel, by decide +kernel, by decide +kernel⟩

/-- two texts of a file, at the beginning and later -/
def fileNow (step : List Char) (x : Kind) : Option File := (worldOf (exportCsg PhitsFile.fmtP 30 100 (proj step) (args .none supported) world)).disk (T "csg" ++ x.suffix)
def fileThen (step : List Char) (x : Kind) : Option File := (worldOf (exportCsg PhitsFile.fmtP 30 100 (proj step) (args .none supported) (first step))).disk (T "csg" ++ x.suffix)

theorem violated {x : Kind} (step : List Char) (h : step = labelled ∨ step = plain) (hw : Wanted true true supported x) (hd : fileThen step x ≠ fileNow step x) : ¬ C111_statement x := by
  intro hs
  obtain ⟨h1, h2, h3⟩ := ok_first step h
  exact hd (hs PhitsFile.fmtP 30 100 (proj step) [args .none [T "phits"]] (args .none supported) (good none) true true supported world (first step) _ _ (args_means _) hw
    (ok_world h1) (ok_world h3) (ok_world h2))

/-- **C111, violation.** A second export of PHITS differs, if void cells are unified: there are no cards for the inner and the outer void. -/
theorem C111_phits_violated : ¬ C111_statement .phits := violated plain (Or.inr rfl) ⟨_, rfl, by decide⟩ (by decide +kernel)

/-- **C111, violation.** An export of MCNP after one of PHITS: the graveyard is no longer of importance 0. -/
theorem C111_mcnp_violated : ¬ C111_statement .mcnp := violated labelled (Or.inl rfl) ⟨_, rfl, by decide⟩ (by decide +kernel)

/-- **C111, violation.** An export of Serpent after one of PHITS: the graveyard is `void` instead of `outside`. -/
theorem C111_serpent_violated : ¬ C111_statement .serpent := violated labelled (Or.inl rfl) ⟨_, rfl, by decide⟩ (by decide +kernel)

/-- **C111, violation.** An export of OpenMC after one of PHITS: the graveyard is one of the cells. -/
theorem C111_openmc_violated : ¬ C111_statement .xml ∧ ¬ C111_statement .py :=
  ⟨violated labelled (Or.inl rfl) ⟨_, rfl, by decide⟩ (by decide +kernel), violated labelled (Or.inl rfl) ⟨_, rfl, by decide⟩ (by decide +kernel)⟩

/-- **C111, violation.** The file of comments after an export of PHITS with unified void cells. -/
theorem C111_comments_violated : ¬ C111_statement .comments := violated plain (Or.inr rfl) rfl (by decide +kernel)

/-! ## The model meets the hypotheses -/

example :=
  C111_plain_partial PhitsFile.fmtP 30 100 (proj labelled) [args .none [T "mcnp"], args .none [T "serpent"]] (args .none supported) world _ _
    (Or.inl (by
      intro a ha
      simp only [List.mem_cons, List.not_mem_nil, or_false] at ha
      rcases ha with rfl | rfl
      all_goals
        rintro ⟨o, h1, h2⟩
        cases h1
        revert h2
        decide))
    (ok_world (by decide +kernel)) (ok_world (ok_first labelled (Or.inl rfl)).2.1)

example := C111_settled_partial PhitsFile.fmtP 30 100 (proj plain) (args .none supported) [args .none supported] (args .none supported) world _ _ _
  (by
    intro c hc
    have hc : c = PhitsFile.solid1 3 ∨ c = PhitsFile.note1 ∨ c = PhitsFile.void1 ∨ c = PhitsFile.inner1 ∨ c = PhitsFile.outer1 := by simpa [world] using hc
    rcases hc with rfl | rfl | rfl | rfl | rfl <;> decide)
  ⟨_, rfl, by decide⟩ (ok_world (ok_first plain (Or.inr rfl)).2.1) (ok_world (by decide +kernel)) (ok_world (by decide +kernel))

end Geouned.Session
