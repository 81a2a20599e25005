import Verif.SurfText.Props
import Verif.Card.Props2
/-!
# C81: a file that is read correctly, and files that are not
-/
namespace Geouned.SurfText
open Geouned.CellText

theorem spelled_of (s : List Char) (hn : '\n' ∉ s) :
    Spelled s (pySplit s) ∧ ∀ cur : List Char, cur ≠ [] → ' ' ∉ cur → Spelled (cur ++ s) (pySplitAux cur s) := by
  induction s with
  | nil =>
    refine ⟨.nil, fun cur hc hb => ?_⟩
    have := Spelled.word cur [] [] hc hb (Or.inl rfl) .nil
    simpa [pySplitAux, hc] using this
  | cons c s ih =>
    obtain ⟨h1, h2⟩ := ih (fun h => hn (List.mem_cons_of_mem _ h))
    have hcn : c ≠ '\n' := fun e => hn (by simp [e])
    by_cases hc : c = ' '
    · subst hc
      have h3 : Spelled (' ' :: s) (pySplit s) := .blank s _ h1
      refine ⟨by simpa [pySplit, pySplitAux, isWhite] using h3, fun cur hcur hb => ?_⟩
      have := Spelled.word cur (' ' :: s) (pySplit s) hcur hb (Or.inr rfl) h3
      simpa [pySplitAux, isWhite, hcur, pySplit] using this
    · have hw : isWhite c = false := by simp [isWhite, hc, hcn]
      refine ⟨?_, fun cur hcur hb => ?_⟩
      · have := h2 [c] (by simp) (by simpa using fun e : ' ' = c => hc e.symm)
        simpa [pySplit, pySplitAux, hw] using this
      · have := h2 (cur ++ [c]) (by simp) (by
          intro h
          rcases List.mem_append.mp h with h | h
          · exact hb h
          · exact hc (List.mem_singleton.mp h).symm)
        simpa [pySplitAux, hw] using this

/-- a line that can be a card -/
def goodLine : List Char → Bool
  | [] => false
  | x :: r => (x :: r).all (fun c => !Card.white c || c = ' ') && !(decide (x = ' ') || decide (x = '$') || decide (x = 'c') || decide (x = 'C') || decide (x.toLower = 'f')) &&
    !((x :: r).any (fun c => decide (c = '&') || decide (c = '$')))

theorem goodLine_spec {t : List Char} (h : goodLine t = true) :
    (⟨t, []⟩ : Card.CardText).Ok ∧ Card.Plain t ∧ '\n' ∉ t ∧ '\t' ∉ t ∧ (⟨t, []⟩ : Card.CardText).says = [t] ∧ ∀ k, 0 < k → t ≠ List.replicate k ' ' ++ ['c'] ∧ t ≠ List.replicate k ' ' ++ ['C'] := by
  cases t with
  | nil => cases h
  | cons x r =>
    simp only [goodLine, Bool.and_eq_true, Bool.not_eq_true', Bool.or_eq_false_iff, decide_eq_false_iff_not, List.all_eq_true, Bool.or_eq_true, decide_eq_true_eq,
      List.any_eq_false, not_or] at h
    obtain ⟨⟨hp, ⟨⟨⟨hx1, hx2⟩, hx3⟩, hx4⟩, hx5⟩, ha⟩ := h
    have hplain : Card.Plain (x :: r) := by
      intro c hc hw
      rcases hp c hc with h | h
      · rw [hw] at h; cases h
      · exact h
    have ha1 : '&' ∉ x :: r := fun h => (ha _ h).1 rfl
    refine ⟨Card.oneLine_ok hplain ⟨hx1, hx2, hx3, hx4, hx5⟩ ha1, hplain, ?_, ?_, ?_, ?_⟩
    · intro h; exact absurd (hplain _ h (by decide)) (by decide)
    · intro h; exact absurd (hplain _ h (by decide)) (by decide)
    · have hcont : Card.content (x :: r) = x :: r := by
        unfold Card.content
        rw [List.takeWhile_eq_self_iff]
        intro c hc
        have := ha c hc
        simp [this.1, this.2]
      unfold Card.CardText.says Card.CardText.body
      simp only [List.map_nil, List.map_cons, hcont]
      rw [List.filter_cons_of_pos]
      · rfl
      · simp [hx1]
    · intro k hk
      cases k with
      | zero => exact absurd hk (by decide)
      | succ k =>
        constructor <;> (intro h; exact hx1 (List.cons.inj h).1)

/-- a file with one cell and the given surface and data cards, one line each -/
def deckOf (surf data : List (List Char)) : Card.Deck :=
  { message := none, title := ['t'], cells := ⟨[([], ⟨['1', ' ', '0', ' ', '-', '1'], []⟩)], []⟩, blank1 := []
    surfaces := ⟨surf.map (fun t => ([], ⟨t, []⟩)), []⟩, blank2 := [], data := ⟨data.map (fun t => ([], ⟨t, []⟩)), []⟩, after := none }

/-- its text -/
def fileOf (surf data : List (List Char)) : List Char := Card.fileText (deckOf surf data).lines

theorem oneLines_ok {l : List (List Char)} (h : ∀ t ∈ l, goodLine t = true) : Card.Block.Ok ⟨l.map (fun t => ([], ⟨t, []⟩)), []⟩ := by
  refine ⟨fun m hm => ?_, fun m hm t ht => ?_, fun t ht => (by cases ht)⟩
  · obtain ⟨t, ht, rfl⟩ := List.mem_map.mp hm
    exact (goodLine_spec (h t ht)).1
  · obtain ⟨u, hu, rfl⟩ := List.mem_map.mp hm
    cases ht

theorem oneLines_lines (l : List (List Char)) : Card.Block.lines ⟨l.map (fun t => ([], ⟨t, []⟩)), []⟩ = l := by
  unfold Card.Block.lines
  induction l with
  | nil => rfl
  | cons t l ih => simpa [Card.CardText.lines] using ih

theorem cell_good : goodLine ['1', ' ', '0', ' ', '-', '1'] = true := by decide

theorem fileText_last {ls : List (List Char)} (h : ls ≠ []) : (Card.fileText ls).getLast? = some '\n' := by
  unfold Card.fileText
  induction ls with
  | nil => exact absurd rfl h
  | cons l ls ih =>
    by_cases h0 : ls = []
    · subst h0; simp
    · rw [List.flatMap_cons, List.getLast?_append, ih h0]; rfl

theorem file_of {surf data : List (List Char)} (hs : ∀ t ∈ surf, goodLine t = true) (hd : ∀ t ∈ data, goodLine t = true) :
    File (deckOf surf data) (fileOf surf data) := by
  have hcells : Card.Block.Ok ⟨[([], ⟨['1', ' ', '0', ' ', '-', '1'], []⟩)], []⟩ :=
    oneLines_ok (l := [['1', ' ', '0', ' ', '-', '1']]) (by intro t ht; rw [List.mem_singleton.mp ht]; exact cell_good)
  have hlines : (deckOf surf data).lines = ['t'] :: (['1', ' ', '0', ' ', '-', '1'] :: [] :: (surf ++ [] :: data)) := by
    unfold Card.Deck.lines deckOf
    rw [oneLines_lines, oneLines_lines]
    simp [Card.Block.lines, Card.CardText.lines]
  refine ⟨⟨fun m hm => (by cases hm), ⟨?_, ?_⟩, fun _ => ⟨?_, ?_⟩, hcells, oneLines_ok hs, oneLines_ok hd, fun c hc => (by cases hc), fun c hc => (by cases hc),
    fun a ha => (by cases ha)⟩, ⟨(deckOf surf data).lines, Card.expand_selfs _ ?_, Card.fileOf_text _⟩, ?_, ?_, ?_⟩
  · show Card.Plain ['t']; unfold Card.Plain; decide
  · show ¬ Card.Empty ['t']; unfold Card.Empty; decide
  · exact Card.notStarts_of (x := 't') (r := []) (w0 := 'm') (by decide) (by decide) (by decide)
  · exact Card.notStarts_of (x := 't') (r := []) (w0 := 'c') (by decide) (by decide) (by decide)
  · rw [hlines]
    intro t ht
    simp only [List.mem_cons, List.mem_append] at ht
    rcases ht with rfl | rfl | rfl | ht | rfl | ht
    · decide
    · decide
    · decide
    · exact (goodLine_spec (hs t ht)).2.2.2.1
    · decide
    · exact (goodLine_spec (hd t ht)).2.2.2.1
  · intro b hb m hm x hx
    simp only [List.mem_cons, List.not_mem_nil, or_false] at hb
    rcases hb with rfl | rfl | rfl
    · rw [List.mem_singleton.mp hm] at hx; cases hx
    · obtain ⟨t, _, rfl⟩ := List.mem_map.mp hm; cases hx
    · obtain ⟨t, _, rfl⟩ := List.mem_map.mp hm; cases hx
  · intro b hb t ht
    simp only [List.mem_cons, List.not_mem_nil, or_false] at hb
    rcases hb with rfl | rfl | rfl
    · have : t = ['1', ' ', '0', ' ', '-', '1'] := by simpa [deckOf, Card.Block.lines, Card.CardText.lines] using ht
      subst this
      exact (goodLine_spec cell_good).2.2.2.2.2
    · have ht' : t ∈ surf := by rw [show (deckOf surf data).surfaces = ⟨surf.map (fun t => ([], ⟨t, []⟩)), []⟩ from rfl, oneLines_lines] at ht; exact ht
      exact (goodLine_spec (hs t ht')).2.2.2.2.2
    · have ht' : t ∈ data := by rw [show (deckOf surf data).data = ⟨data.map (fun t => ([], ⟨t, []⟩)), []⟩ from rfl, oneLines_lines] at ht; exact ht
      exact (goodLine_spec (hd t ht')).2.2.2.2.2
  · exact fileText_last (by rw [hlines]; simp)

/-- the words of one line -/
theorem words_line {W : Type} (f : W → List (List Char)) : ∀ (l : List (List Char)) (ws : List W), (∀ t ∈ l, goodLine t = true) → l.map pySplit = ws.map f →
    List.Forall₂ (fun (m : List (List Char) × Card.CardText) w => CardWords m.2 (f w)) (l.map (fun t => (([] : List (List Char)), (⟨t, []⟩ : Card.CardText)))) ws
  | [], ws, _, h => by
    have : ws = [] := by cases ws with | nil => rfl | cons w ws => cases h
    subst this
    exact .nil
  | t :: l, ws, hg, h => by
    cases ws with
    | nil => cases h
    | cons w ws =>
      obtain ⟨h1, h2⟩ := List.cons.inj h
      refine .cons ⟨[pySplit t], ?_, by rw [h1]; simp⟩ (words_line f l ws (fun u hu => hg u (List.mem_cons_of_mem _ hu)) h2)
      have := goodLine_spec (hg t List.mem_cons_self)
      show List.Forall₂ Spelled (⟨t, []⟩ : Card.CardText).says _
      rw [this.2.2.2.2.1]
      exact .cons (spelled_of t this.2.2.1).1 .nil

/-! ## A file that is read correctly -/

/-- the surface cards `1 so 5.`, `*12 3 C/Z 0 -1.5e1 2` and `3 -4 px 1` -/
def sampleSurf : List SurfCard :=
  [⟨[], ['1'], none, ['s', 'o'], [.num ['5', '.']]⟩,
   ⟨['*'], ['1', '2'], some (false, ['3']), ['C', '/', 'Z'], [.num ['0'], .num ['-', '1', '.', '5', 'e', '1'], .num ['2']]⟩,
   ⟨[], ['3'], some (true, ['4']), ['p', 'x'], [.num ['1']]⟩]

/-- the data cards `*tR3 0 0 1`, `m1 1001 1` and `imp:n 1 2r` -/
def sampleData : List DataCard :=
  [.tr true ['t', 'R'] ['3'] [.num ['0'], .num ['0'], .num ['1']],
   .other ['m', '1'] [['1', '0', '0', '1'], ['1']],
   .other ['i', 'm', 'p', ':', 'n'] [['1'], ['2', 'r']]]

def sampleSurfLines : List (List Char) := ["1 so 5.".toList, "*12 3   C/Z 0 -1.5e1 2".toList, "3 -4 px 1".toList]
def sampleDataLines : List (List Char) := ["*tR3 0 0  1".toList, "m1 1001 1".toList, "imp:n 1 2r".toList]

theorem digits_of' {d : List Char} (h : (decide (d ≠ []) && d.all Char.isDigit) = true) : Digits d := by
  simp only [ne_eq, decide_not, Bool.and_eq_true, Bool.not_eq_true', decide_eq_false_iff_not, List.all_eq_true] at h
  exact h

theorem num0 {d : List Char} (h : (decide (d ≠ []) && d.all Char.isDigit) = true) : Number False d :=
  .plain [] d (Or.inl rfl) (.int d (digits_of' h))

theorem numPoint : Number False ['5', '.'] := .plain [] ['5', '.'] (Or.inl rfl) (.point ['5'] [] (by decide) (by decide) (by decide))

theorem numExp : Number False ['-', '1', '.', '5', 'e', '1'] :=
  .exp ['-'] ['1', '.', '5'] 'e' [] ['1'] (Or.inr (Or.inr rfl)) (.point ['1'] ['5'] (by decide) (by decide) (by decide)) (Or.inl rfl) (Or.inl rfl) (digits_of' (by decide)) (fun h => h.elim)

theorem sampleSurf_ok : ∀ w ∈ sampleSurf, w.Ok ∧ ∀ e ∈ w.entries, ∃ t, e = .num t := by
  intro w hw
  simp only [sampleSurf, List.mem_cons, List.not_mem_nil, or_false] at hw
  rcases hw with rfl | rfl | rfl
  · refine ⟨⟨Or.inl rfl, digits_of' (by decide), fun x hx => (by cases hx), ⟨⟨_, _, rfl, by decide⟩, by decide⟩, ?_, by decide⟩, ?_⟩
    · intro e he; rw [List.mem_singleton.mp he]; exact numPoint
    · intro e he; exact ⟨_, List.mem_singleton.mp he⟩
  · refine ⟨⟨Or.inr (Or.inl rfl), digits_of' (by decide), fun x hx => ?_, ⟨⟨_, _, rfl, by decide⟩, by decide⟩, ?_, by decide⟩, ?_⟩
    · have : (false, ['3']) = x := Option.some.inj hx
      rw [← this]; exact digits_of' (by decide)
    · intro e he
      simp only [List.mem_cons, List.not_mem_nil, or_false] at he
      rcases he with rfl | rfl | rfl
      · exact num0 (by decide)
      · exact numExp
      · exact num0 (by decide)
    · intro e he
      simp only [List.mem_cons, List.not_mem_nil, or_false] at he
      rcases he with rfl | rfl | rfl <;> exact ⟨_, rfl⟩
  · refine ⟨⟨Or.inl rfl, digits_of' (by decide), fun x hx => ?_, ⟨⟨_, _, rfl, by decide⟩, by decide⟩, ?_, by decide⟩, ?_⟩
    · have : (true, ['4']) = x := Option.some.inj hx
      rw [← this]; exact digits_of' (by decide)
    · intro e he; rw [List.mem_singleton.mp he]; exact num0 (by decide)
    · intro e he; exact ⟨_, List.mem_singleton.mp he⟩

theorem harmless_of {w : List Char}
    (h1 : ((w.zip w.tail).all (fun x => !x.1.isDigit || (decide (x.2.toLower ≠ 'r') && decide (x.2.toLower ≠ 'i')))) = true)
    (h2 : hasInfix ['t', 'r'] ((w.take 3).map Char.toLower) = false)
    (h3 : (w.map Char.toLower).head? = some 'm' → w.any Char.isDigit = true)
    (h4 : w.map Char.toLower ≠ ['f'] ∧ w.map Char.toLower ≠ ['f', 'm', 'e', 's', 'h']) : Harmless w := by
  refine ⟨fun i c d hc hd hcd => ?_, fun h => ?_, fun h => ?_, h4⟩
  · have hz : (w.zip w.tail)[i]? = some (c, d) := by
      rw [List.getElem?_zip_eq_some]
      exact ⟨hc, by rw [List.getElem?_tail]; exact hd⟩
    have := List.all_eq_true.mp h1 (c, d) (List.mem_of_getElem? hz)
    simpa [hcd] using this
  · rw [(hasInfix_iff _ _).mpr h] at h2; cases h2
  · obtain ⟨c, hc, hd⟩ := List.any_eq_true.mp (h3 h)
    exact Or.inl ⟨c, hc, hd⟩

theorem sampleData_ok : ∀ w ∈ sampleData, w.Ok ∧ (∀ star word num es, w = .tr star word num es → ∀ e ∈ es, ∃ t, e = .num t) ∧ (∀ n rest, w = .other n rest → Harmless n) := by
  intro w hw
  simp only [sampleData, List.mem_cons, List.not_mem_nil, or_false] at hw
  rcases hw with rfl | rfl | rfl
  · refine ⟨⟨by unfold Same; decide, digits_of' (by decide), by decide, ?_, by decide⟩, ?_, fun _ _ h => (by cases h)⟩
    · intro e he
      simp only [List.mem_cons, List.not_mem_nil, or_false] at he
      rcases he with rfl | rfl | rfl <;> exact num0 (by decide)
    · intro star word num es h e he
      cases h
      simp only [List.mem_cons, List.not_mem_nil, or_false] at he
      rcases he with rfl | rfl | rfl <;> exact ⟨_, rfl⟩
  · refine ⟨⟨[], ['m'], ['1'], rfl, Or.inl rfl, by decide, by decide, fun x hx => ?_, ?_⟩, (fun _ _ _ _ h => by cases h), fun n rest h => ?_⟩
    · have : '1' = x := Option.some.inj hx
      rw [← this]; exact Or.inl (by decide)
    · rintro ⟨h, _⟩; exact absurd h (by unfold Same; decide)
    · cases h; exact harmless_of (by decide) (by decide) (by decide) (by decide)
  · refine ⟨⟨[], ['i', 'm', 'p'], [':', 'n'], rfl, Or.inl rfl, by decide, by decide, fun x hx => ?_, ?_⟩, (fun _ _ _ _ h => by cases h), fun n rest h => ?_⟩
    · have : ':' = x := Option.some.inj hx
      rw [← this]; exact Or.inr (Or.inl rfl)
    · rintro ⟨h, _⟩; exact absurd h (by unfold Same; decide)
    · cases h; exact harmless_of (by decide) (by decide) (by decide) (by decide)

theorem sampleLines_good : (∀ t ∈ sampleSurfLines, goodLine t = true) ∧ ∀ t ∈ sampleDataLines, goodLine t = true := by decide +kernel

/-- the conditions of `C81_cards_partial` hold for this file -/
example : File (deckOf sampleSurfLines sampleDataLines) (fileOf sampleSurfLines sampleDataLines) ∧
    List.Forall₂ (fun m w => CardWords m.2 w.words) (deckOf sampleSurfLines sampleDataLines).surfaces.cards sampleSurf ∧
    List.Forall₂ (fun m w => CardWords m.2 w.words) (deckOf sampleSurfLines sampleDataLines).data.cards sampleData :=
  ⟨file_of sampleLines_good.1 sampleLines_good.2,
   words_line SurfCard.words sampleSurfLines sampleSurf sampleLines_good.1 (by decide +kernel),
   words_line DataCard.words sampleDataLines sampleData sampleLines_good.2 (by decide +kernel)⟩

/-- numbers as texts -/
def textF : Arith (List Char) := ⟨fun t => if t.all (fun c => c.isDigit || decide (c = '.') || decide (c = '+') || decide (c = '-') || decide (c = 'e') || decide (c = 'E')) then some t else none, fun t => t⟩

theorem textF_ok : ∀ t, Number False t → ∃ v, textF.flt t = some v := by
  intro t h
  have hd : ∀ d : List Char, (∀ c ∈ d, c.isDigit = true) → d.all (fun c => c.isDigit || decide (c = '.') || decide (c = '+') || decide (c = '-') || decide (c = 'e') || decide (c = 'E')) = true := by
    intro d h
    exact List.all_eq_true.mpr (fun c hc => by simp [h c hc])
  have hs : ∀ d : List Char, Sign d → d.all (fun c => c.isDigit || decide (c = '.') || decide (c = '+') || decide (c = '-') || decide (c = 'e') || decide (c = 'E')) = true := by
    rintro d (rfl | rfl | rfl) <;> decide
  have hm : ∀ d : List Char, Mantissa d → d.all (fun c => c.isDigit || decide (c = '.') || decide (c = '+') || decide (c = '-') || decide (c = 'e') || decide (c = 'E')) = true := by
    intro d h
    cases h with
    | int _ h => exact hd _ h.2
    | point a b ha hb _ => rw [List.all_append, List.all_cons, hd a ha, hd b hb]; rfl
  refine ⟨t, ?_⟩
  show (if _ then some t else none) = some t
  rw [if_pos]
  cases h with
  | plain s m h1 h2 => rw [List.all_append, hs s h1, hm m h2]; rfl
  | exp s m e g d h1 h2 h3 h4 h5 _ =>
    rw [List.all_append, List.all_append, List.all_cons, List.all_append, hs s h1, hm m h2, hs g h4, hd d h5.2]
    rcases h3 with rfl | rfl <;> rfl

/-- the surfaces that the program reads from a file -/
def readSurf (s : List Char) : Option (List (SurfVal (List Char))) :=
  match Card.getCards s with
  | .ok cs => (match surfaceCards textF cs with | .ok l => some l | .error _ => none)
  | .error _ => none

/-- what the program reads from it -/
example : (readSurf (fileOf sampleSurfLines sampleDataLines)).map (List.map (·.name)) = some [1, 12, 3] ∧
    (readSurf (fileOf sampleSurfLines sampleDataLines)).map (List.map (·.tr)) = some [none, some 3, none] ∧
    (readSurf (fileOf sampleSurfLines sampleDataLines)).map (List.map (·.mn)) = some [['s', 'o'], ['c', '/', 'z'], ['p', 'x']] ∧
    (readSurf (fileOf sampleSurfLines sampleDataLines)).map (List.map (·.coefs)) = some [[['5', '.']], [['0'], ['-', '1', '.', '5', 'e', '1'], ['2']], [['1']]] := by
  decide +kernel

/-! ## Cards that are not read -/

/-- the surface `1 so 1.5-3` (a number as Fortran writes it) raises `ValueError`, as `float("1.5-3")` does -/
theorem C81_fortran_violated : ∃ c : SurfCard, c.Ok ∧ pySplit "1 so 1.5-3".toList = c.words ∧ numbers none c.entries = some ["1.5e-3".toList] ∧
    ∀ (V : Type) (F : Arith V), F.flt "1.5-3".toList = none → splitSurface F (protect "1 so 1.5-3".toList) = .error .value := by
  refine ⟨⟨[], ['1'], none, ['s', 'o'], [.fortran ['1', '.', '5'] [] ['-', '3']]⟩, ?_, by decide +kernel, by decide +kernel, fun V F hF => ?_⟩
  · refine ⟨Or.inl rfl, digits_of' (by decide), fun x hx => (by cases hx), ⟨⟨_, _, rfl, by decide⟩, by decide⟩, ?_, by decide⟩
    intro e he
    rw [List.mem_singleton.mp he]
    exact ⟨[], ['1', '.', '5'], ['-'], ['3'], rfl, Or.inl rfl, .point ['1'] ['5'] (by decide) (by decide) (by decide), rfl, Or.inr (Or.inr rfl), digits_of' (by decide), Or.inl ⟨rfl, by decide⟩⟩
  · have h1 : pySplit (protect "1 so 1.5-3".toList) = [['1'], ['s', 'o'], "1.5-3".toList] := by decide +kernel
    have h2 : bareName ['1'] = ['1'] := by decide
    have h3 : floats F ["1.5-3".toList] = .error .value := by
      rw [floats, pyFloat, hF]; rfl
    unfold splitSurface
    rw [h1]
    dsimp only
    rw [h2, pyInt_digits (digits_of' (by decide))]
    dsimp only
    rw [if_neg (by decide), if_neg (by decide), if_pos (by decide), h3]

/-- the surface `1 s 0 2r 5` (a repetition) raises `ValueError` -/
theorem C81_repetition_violated : ∃ c : SurfCard, c.Ok ∧ pySplit "1 s 0 2r 5".toList = c.words ∧ numbers none c.entries = some [['0'], ['0'], ['0'], ['5']] ∧
    splitSurface textF (protect "1 s 0 2r 5".toList) matches .error .value := by
  refine ⟨⟨[], ['1'], none, ['s'], [.num ['0'], .rep ['2'] 'r', .num ['5']]⟩, ?_, by decide +kernel, by decide +kernel, by decide +kernel⟩
  refine ⟨Or.inl rfl, digits_of' (by decide), fun x hx => (by cases hx), ⟨⟨_, _, rfl, by decide⟩, by decide⟩, ?_, by decide⟩
  intro e he
  simp only [List.mem_cons, List.not_mem_nil, or_false] at he
  rcases he with rfl | rfl | rfl
  · exact num0 (by decide)
  · exact ⟨Or.inr (digits_of' (by decide)), Or.inl rfl⟩
  · exact num0 (by decide)

/-- the data cards `PTRAC` and `MGOPT` are taken as a transformation and a material without a number -/
theorem C81_data_violated : dataValues textF "PTRAC file=asc".toList matches .error .value ∧ dataValues textF "mgopt f 30".toList matches .error .value ∧
    (DataCard.other "PTRAC".toList ["file=asc".toList]).Ok ∧ (DataCard.other "mgopt".toList ["f".toList, "30".toList]).Ok := by
  refine ⟨by decide +kernel, by decide +kernel, ⟨[], ['P', 'T', 'R', 'A', 'C'], [], rfl, Or.inl rfl, by decide, by decide, fun x hx => (by cases hx), ?_⟩,
    ⟨[], ['m', 'g', 'o', 'p', 't'], [], rfl, Or.inl rfl, by decide, by decide, fun x hx => (by cases hx), ?_⟩⟩
  · rintro ⟨h, _⟩; exact absurd h (by unfold Same; decide)
  · rintro ⟨h, _⟩; exact absurd h (by unfold Same; decide)

/-- C81 in full is false: a file with the data card `PTRAC file=asc` cannot be read -/
theorem C81_violated : ¬ C81_statement := by
  intro h
  have hg : ∀ t ∈ ["PTRAC file=asc".toList], goodLine t = true := by decide +kernel
  obtain ⟨cs, h1, ⟨ts, h2, _⟩, _⟩ := h _ textF (deckOf [] ["PTRAC file=asc".toList]) (fileOf [] ["PTRAC file=asc".toList]) []
    [.other "PTRAC".toList ["file=asc".toList]] textF_ok (file_of (fun t ht => (by cases ht)) hg)
    (words_line SurfCard.words [] [] (fun t ht => (by cases ht)) rfl) (fun w hw => (by cases hw))
    (words_line DataCard.words ["PTRAC file=asc".toList] [.other "PTRAC".toList ["file=asc".toList]] hg (by decide +kernel))
    (fun w hw => by rw [List.mem_singleton.mp hw]; exact C81_data_violated.2.2.1)
  have h3 : (match Card.getCards (fileOf [] ["PTRAC file=asc".toList]) with
    | .ok cs => (match transCards textF cs with | .ok _ => true | .error _ => false)
    | .error _ => true) = false := by decide +kernel
  rw [h1] at h3
  dsimp only at h3
  rw [h2] at h3
  cases h3

end Geouned.SurfText
