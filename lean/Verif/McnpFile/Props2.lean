import Verif.McnpFile.Props
/-!
# C102: a model that can be written, and models that cannot
-/
namespace Geouned.McnpFile

open Geouned.Card

/-- numbers are written as `1.00e+00` (blanks in front where there may be some) -/
def fmt1 : Fmt := ⟨fun _ => T " 1.0000e+00", fun _ => T "  1.0000000", fun _ => T "1.000000e+00", fun _ => T "1.0000000e+00", fun _ => T "1.0000000e+00"⟩

/-- a cell of material 3, with a comment of two lines -/
def cellA : Cell :=
  ⟨some 1, 1, 3, some 2, .lst .or 1 [.lst .and 0 [.int 1, .int (-2)], .lst .and 0 [.int (-1), .int 2]], 5, false, true, T "first\nsecond", some (T "Steel"), none, none⟩

/-- a comment between cells -/
def cellB : Cell := ⟨none, 0, 0, none, .lst .and 1 [], 0, false, false, T "VOID CELLS", none, none, none⟩

/-- the graveyard -/
def cellC : Cell := ⟨some 2, 2, 0, none, .lst .and 0 [.int (-3)], 0, true, false, [], some (T "Graveyard"), some 4, some 7⟩

def surf1 : Surf := ⟨1, some (T "PX", [T "1.5"])⟩
def surf2 : Surf := ⟨2, some (T "P", List.replicate 9 (T "2.5"))⟩
def surf3 : Surf := ⟨3, some (T "SO", [T "  100.0"])⟩

def model1 (title : List Char) (cells : List Cell) : Input :=
  ⟨title, true, true, some 5, true, cells, [surf1, surf2, surf3], T "a.stp", T "1.0", T "0.21.2", T "2024-01-01 00:00:00", some (3, 10), (0, 1, 0, 1, 0, 1)⟩

theorem token_of {w : List Char} (h : w ≠ [] ∧ ∀ c ∈ w, c.isAlphanum = true ∨ c ∈ ['.', '+', '-', '/']) : Token w := h

theorem numText_of (n : Nat) {t w : List Char} (h0 : t = List.replicate n ' ' ++ w) (h : w ≠ [] ∧ ∀ c ∈ w, c.isAlphanum = true ∨ c ∈ ['.', '+', '-', '/'])
    (hd : ∃ c ∈ w, c.isDigit = true) : NumText t := ⟨n, w, h0, h, hd⟩

theorem fmt1_ok : Formats fmt1 where
  e4 _ := numText_of 1 (t := T " 1.0000e+00") (w := T "1.0000e+00") (by decide) (by decide) (by decide)
  f7 _ := numText_of 2 (t := T "  1.0000000") (w := T "1.0000000") (by decide) (by decide) (by decide)
  e _ := token_of (w := T "1.000000e+00") (by decide)
  e7 _ := ⟨numText_of 0 (t := T "1.0000000e+00") (w := T "1.0000000e+00") (by decide) (by decide) (by decide), by show (T "1.0000000e+00").length ≤ 40; decide⟩
  weight _ := token_of (w := T "1.0000000e+00") (by decide)

theorem cellA_ok : GoodCell fmt1 cellA where
  comments := by unfold PlainLines; decide
  matInfo := by intro m hm; cases hm; unfold PlainLines; decide
  real := by
    intro _
    refine ⟨by decide, by decide, fun _ => ⟨2, rfl, by decide, by decide⟩, _, _, _, rfl, ?_, ?_, ?_, ?_, ?_⟩
    all_goals simp [Seq.WF, Seq.WFL, Seq.NoBool, Seq.NoBoolL, Text.Full, Text.FullL, Seq.depth, Seq.depthL, Text.Below, Text.BelowL]

theorem cellB_ok : GoodCell fmt1 cellB where
  comments := by unfold PlainLines; decide
  matInfo := by intro m hm; cases hm
  real := fun h => absurd rfl h

theorem cellC_ok : GoodCell fmt1 cellC where
  comments := by unfold PlainLines; decide
  matInfo := by intro m hm; cases hm; unfold PlainLines; decide
  real := by
    intro _
    refine ⟨by decide, by decide, fun h => absurd rfl h, _, _, _, rfl, ?_, ?_, ?_, ?_, ?_⟩
    all_goals simp [Seq.WF, Seq.WFL, Seq.NoBool, Seq.NoBoolL, Text.Full, Text.FullL, Seq.depth, Seq.depthL, Text.Below, Text.BelowL]

theorem surfs_ok (s : Surf) (h : s ∈ [surf1, surf2, surf3]) : GoodSurf s := by
  simp only [List.mem_cons, List.not_mem_nil, or_false] at h
  rcases h with rfl | rfl | rfl
  · refine ⟨by decide, ?_⟩
    intro name v hv
    cases hv
    refine ⟨token_of (by decide), by decide, ?_, Or.inr (Or.inr (Or.inr (by decide)))⟩
    intro t ht
    rw [List.mem_singleton.mp ht]
    exact ⟨numText_of 0 (w := T "1.5") (by decide) (by decide) (by decide), by decide⟩
  · refine ⟨by decide, ?_⟩
    intro name v hv
    cases hv
    refine ⟨token_of (by decide), by decide, ?_, Or.inl (by decide)⟩
    intro t ht
    rw [List.eq_of_mem_replicate ht]
    exact ⟨numText_of 0 (w := T "2.5") (by decide) (by decide) (by decide), by decide⟩
  · refine ⟨by decide, ?_⟩
    intro name v hv
    cases hv
    refine ⟨token_of (by decide), by decide, ?_, Or.inr (Or.inr (Or.inr (by decide)))⟩
    intro t ht
    rw [List.mem_singleton.mp ht]
    exact ⟨numText_of 2 (w := T "100.0") (by decide) (by decide) (by decide), by decide⟩

theorem notStarts {word t : List Char} {x y : Char} {ws ts : List Char} (hw : word = x :: ws) (ht : t = y :: ts) (hy : y ≠ ' ') (hxy : y.toLower ≠ x) : ¬ StartsWith word t := by
  rintro ⟨k, rest, w, h1, h2⟩
  cases k with
  | zero =>
    cases w with
    | nil => rw [hw] at h2; cases h2
    | cons z w =>
      rw [ht] at h1
      simp only [List.replicate_zero, List.nil_append, List.cons_append, List.cons.injEq] at h1
      rw [hw, List.map_cons, List.cons.injEq] at h2
      exact hxy (h1.1 ▸ h2.1)
  | succ k =>
    rw [ht, List.replicate_succ] at h1
    simp only [List.cons_append, List.cons.injEq] at h1
    exact hy h1.1

theorem title_ok : Plain (T "a tank") ∧ ¬ Card.Empty (T "a tank") ∧ ¬ StartsWith "message:".toList (T "a tank") ∧ ¬ StartsWith "continue".toList (T "a tank") :=
  ⟨by unfold Plain; decide, by unfold Card.Empty; decide, notStarts (y := 'a') (x := 'm') rfl rfl (by decide) (by decide),
    notStarts (y := 'a') (x := 'c') rfl rfl (by decide) (by decide)⟩

/-- `Good` is met by a model with solid, comment, graveyard, universe, fill with transformation, three kinds of surface cards, source and volumes -/
theorem model1_good : Good fmt1 (model1 (T "a tank") [cellA, cellB, cellC]) where
  formats := fmt1_ok
  title := title_ok
  step := by unfold Plain; decide
  version := by unfold Plain; decide
  freecad := by unfold Plain; decide
  date := by unfold Plain; decide
  cells := by
    intro c hc
    have : c = cellA ∨ c = cellB ∨ c = cellC := by simpa [model1] using hc
    rcases this with rfl | rfl | rfl
    · exact cellA_ok
    · exact cellB_ok
    · exact cellC_ok
  surfaces := surfs_ok

example : ∃ K, ∀ k, K ≤ k → ∃ (s : List Char) (d : Deck), writeInput fmt1 1000 k (model1 (T "a tank") [cellA, cellB, cellC]) = .ok s ∧ d.Ok ∧ FileOf d.lines s ∧
    Says fmt1 (model1 (T "a tank") [cellA, cellB, cellC]) d := C102_file _ _ model1_good 1000 (by omega)

/-- the cards of that file, as GEOReverse reads them: two cells, three surfaces, nine data cards -/
example : ((writeInput fmt1 30 100 (model1 (T "a tank") [cellA, cellB, cellC])).toOption.bind (fun s => (seen (getCards s)).map (fun l => l.map (·.1))))
    = some ([.cell, .cell] ++ [.surface, .surface, .surface] ++ List.replicate 9 .data) := by decide +kernel

/-! ## what is not written correctly -/

/-- the claim for all titles -/
def C102_statement : Prop :=
  ∀ (f : Fmt) (i : Input) (title : List Char) (r : Nat), Good f { i with title := title } → 30 ≤ r → ∃ K, ∀ k, K ≤ k →
    ∃ (s : List Char) (d : Deck), writeInput f r k i = .ok s ∧ d.Ok ∧ FileOf d.lines s ∧ Says f i d

theorem mem_file {ts : List (List Char)} {s : List Char} (h : FileOf ts s) : ∀ t ∈ ts, (t ++ ['\n']) <:+: s ∨ (t ≠ [] ∧ t <:+ s) := by
  induction h with
  | nil => intro t ht; cases ht
  | last t h0 => intro u hu; rw [List.mem_singleton.mp hu]; exact Or.inr ⟨h0, List.suffix_rfl⟩
  | cons t ts s _ ih =>
    intro u hu
    rcases List.mem_cons.mp hu with rfl | hu
    · exact Or.inl ⟨[], s, by simp⟩
    · rcases ih u hu with hi | ⟨h0, hi⟩
      · refine Or.inl (hi.trans ⟨t ++ ['\n'], [], by simp⟩)
      · exact Or.inr ⟨h0, hi.trans ⟨t ++ ['\n'], by simp⟩⟩

theorem block_mem {d : Deck} {b : Block} (hb : b ∈ d.blocks) {t : List Char} (ht : t ∈ b.lines) : t ∈ d.lines := by
  unfold Deck.lines
  simp only [Deck.blocks, List.mem_cons, List.not_mem_nil, or_false] at hb
  rcases hb with rfl | rfl | rfl <;> simp [ht]

theorem body_mem {c : CardText} {t : List Char} (ht : t ∈ c.body) : t ∈ c.lines := by
  unfold CardText.lines
  rcases List.mem_cons.mp ht with rfl | ht
  · exact List.mem_cons_self
  · obtain ⟨m, hm, rfl⟩ := List.mem_map.mp ht
    exact List.mem_cons_of_mem _ (List.mem_flatMap.mpr ⟨m, hm, by simp⟩)

/-- all ways to divide a file without `&`, without lines of a lone `c` and without tabs into cards according to the rules are what GEOReverse finds -/
theorem rules_unique {s : List Char} (h1 : '&' ∉ s) (h2 : ¬ [' ', 'c', '\n'] <:+: s) (h3 : ¬ [' ', 'C', '\n'] <:+: s) (h4 : s.getLast? = some '\n') (h5 : '\t' ∉ s)
    {d : Deck} (hd : d.Ok) (hf : FileOf d.lines s) : ∃ cs, getCards s = .ok cs ∧ view cs = d.says := by
  have hin : ∀ t ∈ d.lines, ∀ x ∈ t, x ∈ s := by
    intro t ht x hx
    rcases mem_file hf t ht with hi | ⟨_, hi⟩
    · exact hi.subset (by simp [hx])
    · exact hi.subset hx
  refine C79_cards_partial d d.lines s hd (expand_selfs _ fun t ht hx => h5 (hin t ht _ hx)) hf ?_ ?_ h4
  · intro b hb m hm x hx
    have hc : m.2.Ok := by
      simp only [Deck.blocks, List.mem_cons, List.not_mem_nil, or_false] at hb
      rcases hb with rfl | rfl | rfl
      · exact hd.cells.cards m hm
      · exact hd.surfaces.cards m hm
      · exact hd.data.cards m hm
    obtain ⟨j, hj, hjx⟩ := List.getElem_of_mem hx
    have hlines : ∀ t ∈ m.2.body, t ∈ d.lines := fun t ht =>
      block_mem hb (List.mem_append_left _ (List.mem_flatMap.mpr ⟨m, hm, List.mem_append_right _ (body_mem ht)⟩))
    have e2 : m.2.body[j + 1]? = some x.2 := by
      simp [CardText.body, hj, hjx]
    obtain ⟨p, e1⟩ : ∃ p, m.2.body[j]? = some p := by
      have : j < m.2.body.length := by simp [CardText.body]; omega
      exact ⟨_, List.getElem?_eq_getElem this⟩
    rcases hc.cont j p x.2 e1 e2 with h | ⟨rest, h⟩
    · exact h
    · exact absurd (hin p (hlines p (List.mem_of_getElem? e1)) '&' (by rw [h]; simp)) h1
  · intro b hb t ht k hk
    obtain ⟨j, rfl⟩ : ∃ j, k = j + 1 := ⟨k - 1, by omega⟩
    have hs : ∀ x : Char, x ≠ '\n' → t = List.replicate (j + 1) ' ' ++ [x] → [' ', x, '\n'] <:+: s := by
      intro x hx he
      rcases mem_file hf t (block_mem hb ht) with hi | ⟨h0, hi⟩
      · refine List.IsInfix.trans ?_ hi
        exact ⟨List.replicate j ' ', [], by rw [he, List.replicate_succ']; simp⟩
      · exfalso
        obtain ⟨a, ha⟩ := hi
        rw [← ha, List.getLast?_append, he] at h4
        simp at h4
        exact hx h4
    exact ⟨fun he => h2 (hs 'c' (by decide) he), fun he => h3 (hs 'C' (by decide) he)⟩

set_option maxRecDepth 20000 in
theorem title_file (n : Nat) : writeInput fmt1 30 (n + 1) (model1 (T "a tank\n9 0 -1 2") [cellC]) = writeInput fmt1 30 1 (model1 (T "a tank\n9 0 -1 2") [cellC]) := rfl

/-- the text of that file -/
def titleText : List Char :=
  match writeInput fmt1 30 1 (model1 (T "a tank\n9 0 -1 2") [cellC]) with
  | .ok s => s
  | .error _ => []

theorem titleText_facts : '&' ∉ titleText ∧ ¬ [' ', 'c', '\n'] <:+: titleText ∧ ¬ [' ', 'C', '\n'] <:+: titleText ∧ titleText.getLast? = some '\n' ∧ '\t' ∉ titleText := by
  decide +kernel

theorem titleText_cells : (seen (getCards titleText)).map (fun l => (l.filter (fun x => x.1 = .cell)).length) = some 2 := by decide +kernel

/-- **C102 is violated** by a title of two lines: the model has one cell, but whichever way the file is divided into cards according to the rules of MCNP, there are two cell
cards (the second line of the title is one of them). -/
theorem C102_title_violated : Good fmt1 { model1 (T "a tank\n9 0 -1 2") [cellC] with title := T "a tank" } ∧
    ∃ s, (∀ k, 1 ≤ k → writeInput fmt1 30 k (model1 (T "a tank\n9 0 -1 2") [cellC]) = .ok s) ∧
      ∀ d : Deck, d.Ok → FileOf d.lines s → d.cells.cards.length = 2 := by
  refine ⟨?_, titleText, ?_, ?_⟩
  · refine ⟨fmt1_ok, title_ok, model1_good.step, model1_good.version, model1_good.freecad, model1_good.date, ?_, surfs_ok⟩
    intro c hc
    have : c = cellC := by simpa [model1] using hc
    rw [this]
    exact cellC_ok
  · intro k hk
    obtain ⟨n, rfl⟩ : ∃ n, k = n + 1 := ⟨k - 1, by omega⟩
    rw [title_file]
    have e : (match writeInput fmt1 30 1 (model1 (T "a tank\n9 0 -1 2") [cellC]) with | .ok _ => true | .error _ => false) = true := by decide +kernel
    unfold titleText
    split at e
    · rename_i s hs; rw [hs]
    · cases e
  · intro d hd hf
    obtain ⟨cs, h1, h2⟩ := rules_unique titleText_facts.1 titleText_facts.2.1 titleText_facts.2.2.1 titleText_facts.2.2.2.1 titleText_facts.2.2.2.2 hd hf
    have h3 := titleText_cells
    rw [h1] at h3
    simp only [seen, Option.map_some, Option.some.injEq] at h3
    rw [h2] at h3
    unfold Deck.says at h3
    rw [List.filter_append, List.filter_append, List.length_append, List.length_append, List.filter_map, List.filter_map, List.filter_map] at h3
    simpa [Function.comp_def] using h3

/-- a real cell of material 3 without density -/
def cellD : Cell := { cellA with density := none }

/-- **C102 is violated** by a material without density: nothing is written, `TypeError` is raised. -/
theorem C102_density_violated (f : Fmt) (i : Input) (r k : Nat) (c : Cell) (hc : c ∈ i.cells) (h : c.real) (hm : c.material ≠ 0) (hd : c.density = none) :
    ∃ e, writeInput f r k i = .error e := by
  have hcell : ∃ e, writeCell f i r k c = .error e := by
    unfold writeCell cellHeader
    cases hid : c.id with
    | none => exact absurd hid h
    | some n => exact ⟨.typeError, by simp [hm, hd]⟩
  have : ∀ cs : List Cell, c ∈ cs → ∃ e, writeCells f i r k cs = .error e := by
    intro cs
    induction cs with
    | nil => intro h; cases h
    | cons a cs ih =>
      intro hmem
      unfold writeCells
      cases ha : writeCell f i r k a with
      | error e => exact ⟨e, rfl⟩
      | ok t =>
        rcases List.mem_cons.mp hmem with rfl | hmem
        · obtain ⟨e, he⟩ := hcell
          rw [he] at ha
          cases ha
        · obtain ⟨e, he⟩ := ih hmem
          exact ⟨e, by simp [he]⟩
  obtain ⟨e, he⟩ := this i.cells hc
  exact ⟨e, by unfold writeInput; rw [he]⟩

example : (match writeInput fmt1 30 100 (model1 (T "a tank") [cellD]) with | .error .typeError => true | _ => false) = true := by decide +kernel

/-- C102 for all titles is false -/
theorem C102_violated : ¬ C102_statement := by
  intro h
  obtain ⟨h0, s, h1, h2⟩ := C102_title_violated
  obtain ⟨K, hK⟩ := h fmt1 (model1 (T "a tank\n9 0 -1 2") [cellC]) (T "a tank") 30 h0 (by omega)
  obtain ⟨s', d, e1, e2, e3, e4⟩ := hK (K + 1) (by omega)
  rw [h1 (K + 1) (by omega)] at e1
  cases e1
  have h3 := h2 d e2 e3
  have h4 := e4.cells.length_eq
  rw [List.length_map, h3] at h4
  revert h4
  decide

end Geouned.McnpFile
