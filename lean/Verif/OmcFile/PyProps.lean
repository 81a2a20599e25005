import Verif.OmcFile.PyLemmas5
import Verif.OmcFile.Props
/-!
# C107: the OpenMC Python script is valid and says exactly what the model is
-/
namespace Geouned.OmcFile

/-- what the property asks, for comments of any kind -/
def C107_statement : Prop := ∀ (r : Nat) (cs : List Cell) (ss : List Surf), ss ≠ [] → (∀ c ∈ cs, 0 ≤ c.material) →
  (∀ c ∈ cs, c.Wanted → GoodDef r c.definition ∧ PlainBreaks c.comments ∧ 0 ≤ c.label) → (∀ s ∈ ss, PySurf s) →
  ∃ t stmts, writePy r cs ss = .ok t ∧ PyFile t stmts ∧ PySays cs ss stmts

/-- **C107, part.** For every model whose comments have no `"` and no backslash the file consists of Python statements, and they say exactly the model: the materials in use, each
once, in order; the surfaces with their kind and arguments, the last one with a vacuum boundary; the cells with their name, material and a region of the same meaning; the
geometry of these cells. -/
theorem C107_script_partial (r : Nat) (cs : List Cell) (ss : List Surf) (h : GoodPy r cs ss) :
    ∃ t stmts, writePy r cs ss = .ok t ∧ PyFile t stmts ∧ PySays cs ss stmts := by
  obtain ⟨t, s, fs, sl, ds, h1, hss, h2, h3, h4, h5⟩ := writePy_file h
  refine ⟨t, _, h1, h5, materials cs, (materials cs).map matS, fs ++ [sl], ds,
    (materials cs).map (fun m => 'M' :: Text.strInt m), (cs.filter (fun c => c.Wanted)).map (fun c => 'C' :: Text.strInt c.label), (materials_spec cs).1, (materials_spec cs).2, ?_, ?_, ?_, ?_, ?_, ?_⟩
  · refine forall₂_map' fun m hm => ?_
    obtain ⟨-, c, hc, rfl⟩ := ((materials_spec cs).2 m).mp hm
    exact ⟨_, name_named 'M' (h.material c hc), rfl⟩
  · refine forall₂_map' (f := fun m => 'M' :: Text.strInt m) fun m hm => ?_
    obtain ⟨-, c, hc, rfl⟩ := ((materials_spec cs).2 m).mp hm
    exact name_named 'M' (h.material c hc)
  · refine ⟨s, sl, hss, by simp, ?_, surfIs_stmt (h.surfaces s (by rw [hss]; simp)).1 h3⟩
    rw [List.dropLast_concat]
    exact forall₂_imp (fun a ha b hb => surfIs_stmt (h.surfaces a ((List.dropLast_sublist _).subset ha)).1 hb) h2
  · refine forall₂_imp (fun c hc st hst => ?_) h4
    rw [List.mem_filter] at hc
    obtain ⟨-, g2, -, g4⟩ := h.cells c hc.1 (of_decide_eq_true hc.2)
    exact cellIs_stmt g4 (h.material c hc.1) g2 hst
  · refine forall₂_map' (f := fun c : Cell => 'C' :: Text.strInt c.label) fun c hc => ?_
    rw [List.mem_filter] at hc
    exact name_named 'C' (h.cells c hc.1 (of_decide_eq_true hc.2)).2.2.2
  · unfold materialsS
    simp only [List.append_assoc, List.cons_append, List.nil_append]

/-- **C107.** If every surface of the definitions is one of the surfaces of the model, then every name in the script is assigned before it is used. -/
theorem C107_names_partial (r : Nat) (cs : List Cell) (ss : List Surf) (h : GoodPy r cs ss) (hd : ∀ c ∈ cs, c.Wanted → ∀ k, c.definition.Occurs k → ∃ s ∈ ss, s.index = k) :
    ∃ t stmts, writePy r cs ss = .ok t ∧ PyFile t stmts ∧ Defined stmts := by
  obtain ⟨t, s, fs, sl, ds, h1, hss, h2, h3, h4, h5⟩ := writePy_file h
  exact ⟨t, _, h1, h5, stmts_defined (fun s hs => (h.surfaces s hs).1) hss h2 h3 h4 hd⟩

/-! ## violations -/

def pysurf1 : Surf := ⟨1, T "XPlane", T "x0=1.0"⟩
def pysurf2 : Surf := ⟨2, T "ZCylinder", T "x0=0.0,y0=1.0,r=2.5"⟩
def pysurf3 : Surf := ⟨3, T "Sphere", T "x0=0.0,y0=0.0,z0=0.0,r=-1.0e+01"⟩

theorem pysurfs : ∀ s ∈ [pysurf1, pysurf2, pysurf3], PySurf s := by
  intro s hs
  have key : ∀ args : List PyTok, (args.all fun t => match t with | .word w => w.head? ≠ some 'M' && w.head? ≠ some 'S' && w.head? ≠ some 'C' | _ => true) = true →
      ∀ w, ObjName w → .word w ∉ args := by
    intro args h w hw hm
    have h1 := List.all_eq_true.mp h _ hm
    simp only [Bool.and_eq_true, decide_eq_true_eq] at h1
    rcases obj_head hw with e | e | e
    · exact h1.1.1 e
    · exact h1.1.2 e
    · exact h1.2 e
  simp only [List.mem_cons, List.not_mem_nil, or_false] at hs
  rcases hs with rfl | rfl | rfl
  · exact ⟨by decide, by decide, by decide, by decide, [W "x0", .sign '=', W "1.0"], by decide, key _ (by decide)⟩
  · exact ⟨by decide, by decide, by decide, by decide, [W "x0", .sign '=', W "0.0", .sign ',', W "y0", .sign '=', W "1.0", .sign ',', W "r", .sign '=', W "2.5"], by decide, key _ (by decide)⟩
  · exact ⟨by decide, by decide, by decide, by decide, [W "x0", .sign '=', W "0.0", .sign ',', W "y0", .sign '=', W "0.0", .sign ',', W "z0", .sign '=', W "0.0", .sign ',', W "r", .sign '=',
      .sign '-', W "1.0e", .sign '+', W "01"], by decide, key _ (by decide)⟩

/-- a file has one list of lines -/
theorem lines_unique : ∀ {ls ls' : List (List Char)}, (∀ l ∈ ls, '\n' ∉ l) → (∀ l ∈ ls', '\n' ∉ l) → ls.flatMap (· ++ ['\n']) = ls'.flatMap (· ++ ['\n']) → ls = ls'
  | [], [], _, _, _ => rfl
  | [], l' :: ls', _, _, h => by simp at h
  | l :: ls, [], _, _, h => by simp at h
  | l :: ls, l' :: ls', h1, h2, h => by
    simp only [List.flatMap_cons, List.append_assoc, List.cons_append, List.nil_append] at h
    have key : ∀ (a a' b b' : List Char), '\n' ∉ a → '\n' ∉ a' → a ++ '\n' :: b = a' ++ '\n' :: b' → a = a' ∧ b = b' := by
      intro a
      induction a with
      | nil =>
        intro a' b b' _ h2 h
        cases a' with
        | nil => simpa using h
        | cons c a' =>
          simp only [List.nil_append, List.cons_append, List.cons.injEq] at h
          exact absurd (by rw [← h.1]; simp) h2
      | cons c a ih =>
        intro a' b b' h1 h2 h
        cases a' with
        | nil =>
          simp only [List.nil_append, List.cons_append, List.cons.injEq] at h
          exact absurd (by rw [h.1]; simp) h1
        | cons c' a' =>
          simp only [List.cons_append, List.cons.injEq] at h
          obtain ⟨e1, e2⟩ := ih a' b b' (fun hm => h1 (List.mem_cons_of_mem _ hm)) (fun hm => h2 (List.mem_cons_of_mem _ hm)) h.2
          exact ⟨by rw [h.1, e1], e2⟩
    obtain ⟨e1, e2⟩ := key l l' _ _ (h1 l List.mem_cons_self) (h2 l' List.mem_cons_self) h
    rw [e1, lines_unique (fun l hl => h1 l (List.mem_cons_of_mem _ hl)) (fun l hl => h2 l (List.mem_cons_of_mem _ hl)) e2]

/-- a line that is no statement -/
theorem not_pyFile {t : List Char} (ls : List (List Char)) (h : ∀ l ∈ ls, '\n' ∉ l) (ht : t = ls.flatMap (· ++ ['\n'])) (hbad : ∃ l ∈ ls, lexLine l = none) (stmts : List (List PyTok)) : ¬ PyFile t stmts := by
  rintro ⟨ls', tss, h1, h2, h3, -⟩
  obtain rfl := lines_unique h1 h (by rw [← h2, ht])
  obtain ⟨l, hl, hn⟩ := hbad
  obtain ⟨ts, -, e⟩ := forall₂_left h3 l hl
  rw [hn] at e
  cases e

/-- the lines of a text -/
def linesOf : List Char → List Char → List (List Char)
  | cur, [] => if cur = [] then [] else [cur]
  | cur, c :: s => if c = '\n' then cur :: linesOf [] s else linesOf (cur ++ [c]) s

/-- **C107, violation.** A quotation mark in a comment ends the string of the name: the script is not valid. -/
theorem C107_violated : ¬ C107_statement := by
  intro h
  obtain ⟨t, stmts, h1, h2, -⟩ := h 30 [cellQuote] [pysurf1, pysurf2, pysurf3] (by decide) (by decide) (by
    intro c hc _
    obtain rfl : c = cellQuote := by simpa using hc
    exact ⟨good_def1, by unfold PlainBreaks; decide, by decide⟩) pysurfs
  have h3 : (match writePy 30 [cellQuote] [pysurf1, pysurf2, pysurf3] with
      | .ok t => decide (t = (linesOf [] t).flatMap (· ++ ['\n'])) && (linesOf [] t).all (fun l => '\n' ∉ l) && (linesOf [] t).any (fun l => lexLine l = none)
      | .error _ => false) = true := by decide +kernel
  rw [h1] at h3
  simp only [Bool.and_eq_true, decide_eq_true_eq, List.all_eq_true, List.any_eq_true] at h3
  exact not_pyFile (linesOf [] t) h3.1.2 h3.1.1 h3.2 stmts h2

/-- without surfaces an exception is raised -/
theorem C107_nosurf (r : Nat) (cs : List Cell) (t : List Char) : writePy r cs [] ≠ .ok t := by
  unfold writePy
  intro h
  cases h

/-! ## the hypotheses are met -/

theorem model1_py : GoodPy 30 [cellA, cellB, cellC, cellG] [pysurf1, pysurf2, pysurf3] where
  some := by decide
  material := by decide
  surfaces := pysurfs
  cells c hc hw := by
    simp only [List.mem_cons, List.not_mem_nil, or_false] at hc
    rcases hc with rfl | rfl | rfl | rfl
    · exact ⟨good_def1, by unfold PlainBreaks; decide, by unfold PyStr; decide, by decide⟩
    · exact absurd hw (by decide)
    · exact ⟨good_def2, by unfold PlainBreaks; decide, by unfold PyStr; decide, by decide⟩
    · exact absurd hw (by decide)

example : ∃ t stmts, writePy 30 [cellA, cellB, cellC, cellG] [pysurf1, pysurf2, pysurf3] = .ok t ∧ PyFile t stmts ∧ PySays [cellA, cellB, cellC, cellG] [pysurf1, pysurf2, pysurf3] stmts :=
  C107_script_partial _ _ _ model1_py

example : ∃ t stmts, writePy 30 [cellA, cellB, cellC, cellG] [pysurf1, pysurf2, pysurf3] = .ok t ∧ PyFile t stmts ∧ Defined stmts :=
  C107_names_partial _ _ _ model1_py (by
    intro c hc hw k hk
    simp only [List.mem_cons, List.not_mem_nil, or_false] at hc
    rcases hc with rfl | rfl | rfl | rfl
    · simp only [cellA, def1, Seq.Occurs, Seq.OccursL, or_false] at hk
      rcases hk with rfl | rfl
      · exact ⟨pysurf1, by simp, rfl⟩
      · exact ⟨pysurf2, by simp, rfl⟩
    · exact absurd hw (by decide)
    · simp only [cellC, def2, Seq.Occurs, Seq.OccursL, or_false] at hk
      rcases hk with rfl | rfl | rfl
      · exact ⟨pysurf3, by simp, rfl⟩
      · exact ⟨pysurf1, by simp, rfl⟩
      · exact ⟨pysurf2, by simp, rfl⟩
    · exact absurd hw (by decide))

end Geouned.OmcFile
