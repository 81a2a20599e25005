import Verif.PhitsFile.Props
import Verif.McnpFile.Props2
/-!
# C109 and C110: a model that meets the hypotheses, and models that are not written correctly
-/
namespace Geouned.PhitsFile

open Geouned.McnpFile (T surf1 surf2 surf3 IsNum)

def fmtP : Fmt := { McnpFile.fmt1 with str := fun _ => T "1.0" }

theorem fmtP_ok : Formats fmtP := ⟨McnpFile.fmt1_ok.e4, McnpFile.fmt1_ok.f7, McnpFile.fmt1_ok.e, fun _ => by show '\n' ∉ T "1.0"; decide⟩

/-- a solid -/
def solid1 (m : Int) : Cell :=
  { id := some 1, label := 1, material := m, density := some 2, definition := .lst .or 1 [.lst .and 0 [.int 1, .int (-2)], .lst .and 0 [.int (-1), .int 2]], volume := 5,
    void := false, solid := true, comments := T "first\nsecond", matInfo := some (T "Steel"), fill := none, transform := none, enclosure := none }

/-- a comment -/
def note1 : Cell :=
  { id := none, label := 0, material := 0, density := none, definition := .lst .and 1 [], volume := 0, void := false, solid := false, comments := T "VOID CELLS", matInfo := none,
    fill := none, transform := none, enclosure := none }

/-- a void cell -/
def void1 : Cell :=
  { id := some 0, label := 2, material := 0, density := some 0, definition := .lst .and 0 [.int (-1), .int (-2)], volume := 0, void := true, solid := false, comments := [],
    matInfo := some [], fill := none, transform := none, enclosure := none }

/-- inner and outer void -/
def inner1 : Cell :=
  { id := some 0, label := 3, material := 0, density := some 0, definition := .lst .and 1 [.int (-3), .lst .or 0 [.int 1, .int 2]], volume := 0, void := true, solid := false,
    comments := [], matInfo := some (T "Graveyard_in"), fill := none, transform := none, enclosure := none }

def outer1 : Cell :=
  { id := some 1, label := 4, material := 0, density := some 0, definition := .lst .and 0 [.int 3], volume := 0, void := true, solid := false, comments := [],
    matInfo := some (T "Graveyard"), fill := none, transform := none, enclosure := none }

/-- a model; `m` is the material of the solid -/
def modelP (title : List Char) (vm : Option (Int × ℚ)) (m : Int) (step : Option (List Char)) : Input :=
  { title := title, volCARD := true, uni := some 5, dummyMat := true, matFile := [], voidMat := vm, startCell := 1, cells := [solid1 m, note1, void1, inner1, outer1],
    surfaces := [surf1, surf2, surf3], step := T "a.stp", stepText := step, version := T "1.0", freecad := T "0.21.2", date := T "2024-01-01 00:00:00" }

theorem short (d : ℚ) : ShortDensity fmtP d :=
  ⟨by show (T " 1.0000e+00").length ≤ 17; decide, by show (T "  1.0000000").length ≤ 17; decide⟩

theorem good_def {op : Op} {l : Int} {es : List Seq} (h1 : (Seq.lst op l es).WF) (h2 : (Seq.lst op l es).NoBool) (h3 : Text.Full (.lst op l es))
    (h4 : Text.Below (10 ^ 8) (.lst op l es)) (h5 : (Seq.lst op l es).depth ≤ 30) : GoodDef (.lst op l es) := ⟨op, l, es, rfl, h1, h2, h3, h4, h5⟩

/-- the model meets the hypotheses, unified or not -/
theorem modelP_good (step : Option (List Char)) (vm : Option (Int × ℚ)) (hvm : vm = none ∨ vm = some (3, 1)) (uni : Bool) : Good fmtP (modelP (T "a tank") vm 3 step) uni where
  formats := fmtP_ok
  title := by show '\n' ∉ T "a tank"; decide
  step := by show '\n' ∉ T "a.stp"; decide
  version := by show '\n' ∉ T "1.0"; decide
  freecad := by show '\n' ∉ T "0.21.2"; decide
  date := by show '\n' ∉ T "2024-01-01 00:00:00"; decide
  voidMat := by
    intro m d h
    rcases hvm with rfl | rfl
    · cases h
    · cases h
      exact ⟨by decide, by decide, short 1, solid1 3, by simp [modelP], rfl⟩
  cells := by
    intro c hc
    have hc : c = solid1 3 ∨ c = note1 ∨ c = void1 ∨ c = inner1 ∨ c = outer1 := by simpa [modelP] using hc
    rcases hc with rfl | rfl | rfl | rfl | rfl
    · refine ⟨by decide, by decide, Or.inl (by decide), by decide, fun _ _ => ⟨2, rfl, short 2⟩, fun _ _ _ => by decide, fun _ => ?_, fun _ m hm => ?_⟩
      · rw [if_neg (by rintro ⟨_, h⟩; revert h; decide)]
        refine good_def ?_ ?_ ?_ ?_ ?_
        all_goals simp [Seq.WF, Seq.WFL, Seq.NoBool, Seq.NoBoolL, Text.Full, Text.FullL, Seq.depth, Seq.depthL, Text.Below, Text.BelowL]
      · cases hm; decide
    · refine ⟨by decide, by decide, Or.inr rfl, by decide, fun h => absurd h (by decide), fun _ h => absurd h (by decide), fun h => absurd h.1 (by decide), fun _ m hm => by cases hm⟩
    · refine ⟨by decide, by decide, Or.inl (by decide), by decide, fun _ h => absurd rfl h, fun _ _ h => absurd h (by decide), fun _ => ?_, fun _ m hm => ?_⟩
      · rw [if_neg (by rintro ⟨_, h⟩; revert h; decide)]
        refine good_def ?_ ?_ ?_ ?_ ?_
        all_goals simp [Seq.WF, Seq.WFL, Seq.NoBool, Seq.NoBoolL, Text.Full, Text.FullL, Seq.depth, Seq.depthL, Text.Below, Text.BelowL]
      · cases hm; decide
    · refine ⟨by decide, by decide, Or.inl (by decide), by decide, fun _ h => absurd rfl h, fun _ _ h => absurd h (by decide), fun _ => ?_, fun _ m hm => ?_⟩
      · split
        · exact ⟨.and, 1, -3, _, rfl, by decide, by decide⟩
        · refine good_def ?_ ?_ ?_ ?_ ?_
          all_goals simp [Seq.WF, Seq.WFL, Seq.NoBool, Seq.NoBoolL, Text.Full, Text.FullL, Seq.depth, Seq.depthL, Text.Below, Text.BelowL]
      · cases hm; decide
    · refine ⟨by decide, by decide, Or.inl (by decide), by decide, fun _ h => absurd rfl h, fun _ _ h => absurd h (by decide), fun _ => ?_, fun _ m hm => ?_⟩
      · rw [if_neg (by rintro ⟨_, h⟩; revert h; decide)]
        refine good_def ?_ ?_ ?_ ?_ ?_
        all_goals simp [Seq.WF, Seq.WFL, Seq.NoBool, Seq.NoBoolL, Text.Full, Text.FullL, Seq.depth, Seq.depthL, Text.Below, Text.BelowL]
      · cases hm; decide
  surfaces := McnpFile.surfs_ok
  numbered := by
    intro _
    refine ⟨[solid1 3], [void1], [inner1, outer1], rfl, ?_, ?_, Or.inr ⟨inner1, outer1, rfl, rfl, rfl, rfl, rfl⟩, ?_⟩
    · intro c hc; rw [List.mem_singleton.mp hc]; rfl
    · intro c hc; rw [List.mem_singleton.mp hc]; decide
    · intro n c hn
      match n, hn with
      | 0, hn => cases hn; rfl
      | 1, hn => cases hn; rfl
      | 2, hn => cases hn; rfl
      | 3, hn => cases hn; rfl
      | n + 4, hn => simp at hn

theorem modelP_positive (title : List Char) (step : Option (List Char)) : Positive (modelP title (some (3, 1)) 3 step) where
  cells := by
    intro c hc
    have hc : c = solid1 3 ∨ c = note1 ∨ c = void1 ∨ c = inner1 ∨ c = outer1 := by simpa [modelP] using hc
    rcases hc with rfl | rfl | rfl | rfl | rfl <;> decide
  voidMat := by
    intro m d h
    cases h
    decide

/-- a STEP file without and with the label of an enclosure -/
theorem unify_plain : Unify (T "ISO-10303-21; PRODUCT('tank')") := by
  unfold Unify
  rw [← hasLabel_iff, ← hasLabel_iff]
  exact ⟨by decide +kernel, by decide +kernel⟩

theorem unify_label : ¬ Unify (T "PRODUCT('enclosure12_0_')") := by
  unfold Unify
  rw [← hasLabel_iff, ← hasLabel_iff]
  exact fun h => h.1 (by decide +kernel)

example : Written fmtP (modelP (T "a tank") (some (3, 1)) 3 (some (T "ISO-10303-21; PRODUCT('tank')"))) true 1000 :=
  C109_file_partial _ _ _ _ (modelP_good _ _ (Or.inr rfl) true) rfl ⟨fun _ => unify_plain, fun _ => rfl⟩ 1000 (by omega)

example : Written fmtP (modelP (T "a tank") none 3 (some (T "PRODUCT('enclosure12_0_')"))) false 1000 :=
  C109_file_partial _ _ _ _ (modelP_good _ _ (Or.inl rfl) false) rfl ⟨fun h => (by cases h), fun h => absurd h unify_label⟩ 1000 (by omega)

example := C110_fills_partial fmtP (modelP (T "a tank") (some (3, 1)) 3 (some (T "ISO-10303-21; PRODUCT('tank')"))) _ (modelP_good _ _ (Or.inr rfl) true) (modelP_positive _ _) rfl
  unify_plain 1000 (by omega) inner1 outer1 (by simp [modelP]) (by decide) rfl (by simp [modelP]) (by decide) rfl .and 1 (-3) _ rfl
  (by intro σ; simp [outer1, Seq.sem, Seq.semAll, lit])

/-! ## what is not written correctly -/

/-- the sections of a file -/
def sectionsOf (x : Except Fail (List Char × List Cell)) : Option (List (List Char) × List (List Char × List (List Char))) :=
  match x with
  | .ok (s, _) => some (split (Wrap.linesOf s))
  | .error _ => none

/-- C109 for all titles -/
def C109_title_statement : Prop :=
  ∀ (f : Fmt) (i : Input) (title text : List Char) (uni : Bool) (r : Nat), Good f { i with title := title } uni → i.stepText = some text → (uni = true ↔ Unify text) → 30 ≤ r →
    Written f i uni r

/-- **C109, violation.** A title of two lines: the second one is no comment. -/
theorem C109_title_violated : ¬ C109_title_statement := by
  intro h
  obtain ⟨K, hK⟩ := h fmtP (modelP (T "a\ntank") none 3 (some (T "PRODUCT('enclosure12_0_')"))) (T "a tank") _ false 30 (modelP_good _ _ (Or.inl rfl) false) rfl
    ⟨fun h => (by cases h), fun h => absurd h unify_label⟩ (le_refl _)
  obtain ⟨s, cs, h1, bs, ss, ms, vs, h2, _⟩ := hK K (le_refl _)
  have e : writePhits fmtP 30 K (modelP (T "a\ntank") none 3 (some (T "PRODUCT('enclosure12_0_')"))) = writePhits fmtP 30 0 (modelP (T "a\ntank") none 3 (some (T "PRODUCT('enclosure12_0_')"))) := rfl
  rw [e] at h1
  have h3 : (sectionsOf (writePhits fmtP 30 0 (modelP (T "a\ntank") none 3 (some (T "PRODUCT('enclosure12_0_')"))))).map (·.1) = some [T "tank"] := by decide +kernel
  rw [h1] at h3
  simp only [sectionsOf, h2, Option.map_some, Option.some.injEq] at h3
  cases h3

/-- C109 for models of several STEP files -/
def C109_files_statement : Prop := ∀ (f : Fmt) (i : Input) (uni : Bool) (r : Nat), Good f i uni → 30 ≤ r → Written f i uni r

/-- **C109, violation.** If the model comes from several STEP files, there is no file with the joined name: the export fails. -/
theorem C109_files_violated : ¬ C109_files_statement := by
  intro h
  obtain ⟨K, hK⟩ := h fmtP (modelP (T "a tank") none 3 none) false 30 (modelP_good _ _ (Or.inl rfl) false) (le_refl _)
  obtain ⟨s, cs, h1, _⟩ := hK K (le_refl _)
  cases h1

/-- C109 for solids without material -/
def C109_zero_statement : Prop :=
  ∀ (f : Fmt) (i : Input) (m : Int) (text : List Char) (uni : Bool) (r : Nat),
    Good f { i with cells := i.cells.map (fun c => if c.material = 0 ∧ c.real ∧ c.void = false then { c with material := m } else c) } uni →
    i.stepText = some text → (uni = true ↔ Unify text) → 30 ≤ r → Written f i uni r

theorem rows_mats {i : Input} {uni : Bool} {ns : List Int} {rs : List (List (List Char))} (h : List.Forall₂ MatSays ns rs) (hu : ∀ m, m ∈ ns ↔ Used i uni m) (m : Int) :
    (∃ r ∈ rs, MatSays m r) → Used i uni m := by
  rintro ⟨r, hr, hm⟩
  obtain ⟨n, hn, hn'⟩ := forall2_left h hr
  obtain ⟨w, h1, h2⟩ := hm
  obtain ⟨v, g1, g2⟩ := hn'
  rw [h2] at g2
  have hwv : w = v := by simpa using g2
  subst hwv
  unfold IsNum at h1 g1
  rw [h1] at g1
  have : m = n := by simpa using g1
  rw [this]
  exact (hu n).mp hn

/-- **C109, violation.** A solid of material 0, if void cells are unified: it gets a density, and there is a card for a material `M0`. -/
theorem C109_zero_violated : ¬ C109_zero_statement := by
  intro h
  obtain ⟨K, hK⟩ := h fmtP (modelP (T "a tank") none 0 (some (T "ISO-10303-21; PRODUCT('tank')"))) 3 _ true 30 (modelP_good _ _ (Or.inl rfl) true) rfl
    ⟨fun _ => unify_plain, fun _ => rfl⟩ (le_refl _)
  obtain ⟨s, cs, h1, bs, ss, ms, vs, h2, _, _, h4, _⟩ := hK K (le_refl _)
  have e : writePhits fmtP 30 K (modelP (T "a tank") none 0 (some (T "ISO-10303-21; PRODUCT('tank')"))) = writePhits fmtP 30 0 (modelP (T "a tank") none 0 (some (T "ISO-10303-21; PRODUCT('tank')"))) := rfl
  rw [e] at h1
  have h3 : (sectionsOf (writePhits fmtP 30 0 (modelP (T "a tank") none 0 (some (T "ISO-10303-21; PRODUCT('tank')"))))).map (fun x => (x.2.map (fun y => rows y.2))[2]?)
      = some (some [[T "M0", T "H", T "2", T "O", T "1"]]) := by decide +kernel
  rw [h1] at h3
  simp only [sectionsOf, h2, Option.map_some, Option.some.injEq] at h3
  have h3 : rows ms = [[T "M0", T "H", T "2", T "O", T "1"]] := by simpa [modelP] using h3
  obtain ⟨ns, g1, _, g2⟩ := h4 rfl
  obtain ⟨c, _, _, hc⟩ := rows_mats g1 g2 0 ⟨_, by rw [h3]; exact List.mem_singleton.mpr rfl, ['0'], rfl, rfl⟩
  rcases hc with ⟨hc, _⟩ | ⟨_, d, hd⟩
  · exact hc rfl
  · cases hd

/-- C109 for every material of the void -/
def C109_voidMat_statement : Prop :=
  ∀ (f : Fmt) (i : Input) (m : Int) (d : ℚ) (text : List Char) (uni : Bool) (r : Nat), Good f { i with voidMat := none } uni → i.voidMat = some (m, d) → 0 < m → m < 1000 →
    ShortDensity f d → i.stepText = some text → (uni = true ↔ Unify text) → 30 ≤ r → Written f i uni r

/-- **C109, violation.** If no cell has the material of the inner void (`voidMat`), there is no card for it. -/
theorem C109_voidMat_violated : ¬ C109_voidMat_statement := by
  intro h
  obtain ⟨K, hK⟩ := h fmtP (modelP (T "a tank") (some (7, 1)) 3 (some (T "ISO-10303-21; PRODUCT('tank')"))) 7 1 _ true 30 (modelP_good _ none (Or.inl rfl) true) rfl (by decide) (by decide)
    (short 1) rfl ⟨fun _ => unify_plain, fun _ => rfl⟩ (le_refl _)
  obtain ⟨s, cs, h1, bs, ss, ms, vs, h2, _, _, h4, _⟩ := hK K (le_refl _)
  have e : writePhits fmtP 30 K (modelP (T "a tank") (some (7, 1)) 3 (some (T "ISO-10303-21; PRODUCT('tank')"))) = writePhits fmtP 30 0 (modelP (T "a tank") (some (7, 1)) 3 (some (T "ISO-10303-21; PRODUCT('tank')"))) := by with_unfolding_all rfl
  rw [e] at h1
  have h3 : (sectionsOf (writePhits fmtP 30 0 (modelP (T "a tank") (some (7, 1)) 3 (some (T "ISO-10303-21; PRODUCT('tank')"))))).map (fun x => (x.2.map (fun y => rows y.2))[2]?)
      = some (some [[T "M3", T "H", T "2", T "O", T "1"]]) := by decide +kernel
  rw [h1] at h3
  simp only [sectionsOf, h2, Option.map_some, Option.some.injEq] at h3
  have h3 : rows ms = [[T "M3", T "H", T "2", T "O", T "1"]] := by simpa [modelP] using h3
  obtain ⟨ns, g1, _, g2⟩ := h4 rfl
  have hu : Used (modelP (T "a tank") (some (7, 1)) 3 (some (T "ISO-10303-21; PRODUCT('tank')"))) true 7 :=
    ⟨inner1, by simp [modelP], ⟨by decide, fun _ => Or.inr (Or.inl rfl)⟩, Or.inr ⟨rfl, 1, rfl⟩⟩
  obtain ⟨r, hr, w, hw1, hw2⟩ := forall2_right g1 ((g2 7).mpr hu)
  rw [h3, List.mem_singleton] at hr
  rw [hr] at hw2
  have hw3 : w = ['3'] := by
    have := (List.cons.inj hw2).1
    exact (List.cons.inj this).2.symm
  rw [hw3] at hw1
  revert hw1
  unfold IsNum
  decide

/-- C110 for solids without material -/
def C110_zero_statement : Prop :=
  ∀ (f : Fmt) (i : Input) (m : Int) (text : List Char) (r : Nat),
    Good f { i with cells := i.cells.map (fun c => if c.material = 0 ∧ c.real ∧ c.void = false then { c with material := m } else c) } true → Positive i →
    i.stepText = some text → Unify text → 30 ≤ r →
    ∃ K, ∀ k, K ≤ k → ∃ s cells body rest file, writePhits f r k i = .ok (s, cells) ∧ split (Wrap.linesOf s) = ([], ("[CELL]".toList, body) :: rest) ∧ cards body = ([], file)
      ∧ List.Forall₂ (fun c w => number w = some c.label ∧ ∀ n, 2 ≤ n → ∀ σ, Inside file σ n w ↔ Region i c σ) (i.cells.filter (fun c => Shown true c)) file

/-- **C110, violation.** A solid of material 0: its density is read as part of the region. -/
theorem C110_zero_violated : ¬ C110_zero_statement := by
  intro h
  obtain ⟨K, hK⟩ := h fmtP (modelP (T "a tank") none 0 (some (T "ISO-10303-21; PRODUCT('tank')"))) 3 _ 30 (modelP_good _ _ (Or.inl rfl) true) ⟨by
      intro c hc
      have hc : c = solid1 0 ∨ c = note1 ∨ c = void1 ∨ c = inner1 ∨ c = outer1 := by simpa [modelP] using hc
      rcases hc with rfl | rfl | rfl | rfl | rfl <;> decide, fun m d h => by cases h⟩ rfl unify_plain (le_refl _)
  obtain ⟨s, cs, bs, rest, file, h1, h2, h3, h4⟩ := hK K (le_refl _)
  have e : writePhits fmtP 30 K (modelP (T "a tank") none 0 (some (T "ISO-10303-21; PRODUCT('tank')"))) = writePhits fmtP 30 0 (modelP (T "a tank") none 0 (some (T "ISO-10303-21; PRODUCT('tank')"))) := rfl
  rw [e] at h1
  have h5 : (sectionsOf (writePhits fmtP 30 0 (modelP (T "a tank") none 0 (some (T "ISO-10303-21; PRODUCT('tank')"))))).map
      (fun x => (x.2.map (fun y => (cards y.2).2.map (fun w => Text.tokensOf ((regionOf w).filter (fun w => w.head? ≠ some '#')))))[0]?.map List.head?) = some (some (some none)) := by
    decide +kernel
  rw [h1] at h5
  simp only [sectionsOf, h2, Option.map_some, Option.some.injEq] at h5
  simp only [List.map_cons, List.getElem?_cons_zero, Option.map_some, Option.some.injEq, h3] at h5
  have ef : (modelP (T "a tank") none 0 (some (T "ISO-10303-21; PRODUCT('tank')"))).cells.filter (fun c => Shown true c) = [solid1 0, inner1, outer1] := rfl
  rw [ef] at h4
  cases h4 with
  | cons h6 _ =>
    have := (h6.2 2 (le_refl _) (fun n => decide (n = 1))).mpr (by
      unfold Region
      rw [if_neg (by decide)]
      decide)
    unfold Inside at this
    obtain ⟨⟨ts, hts, _⟩, _⟩ := this
    simp only [List.map_cons, List.head?_cons, Option.some.injEq] at h5
    rw [h5] at hts
    cases hts

end Geouned.PhitsFile
