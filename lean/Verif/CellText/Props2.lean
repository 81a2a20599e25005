import Verif.CellText.Props
/-!
# C80: concrete cards; cards that are read wrongly
-/
namespace Geouned.CellText

/-- numbers as their texts -/
def textArith : Arith (List Char) := ⟨fun t => some t, fun t => 'c' :: 'o' :: 's' :: t⟩

theorem textArith_ok : ∀ t, Number False t → ∃ v, textArith.flt t = some v := fun t _ => ⟨t, rfl⟩

theorem digits_of {t : List Char} (h : (decide (t ≠ []) && t.all Char.isDigit) = true) : Digits t := by
  rw [Bool.and_eq_true, decide_eq_true_eq, List.all_eq_true] at h
  exact h

theorem num {P : Prop} {t : List Char} (h : (decide (t ≠ []) && t.all Char.isDigit) = true) : Number P t := number_digits P (digits_of h)

theorem gap1 : Gap [' '] := .blank _ .nil

/-- a list of two parameters -/
theorem pair_ok {P : Prop} {p q : Param} (hp : p.ValOk P) (hq : q.ValOk P) (ep : p.EqOk) (eq : q.EqOk) (gp : p.gap = [' ']) (gq : q.gap = [])
    (hk : p.kind = q.kind → p.kind = .other) : ParamsOk P [p, q] where
  val := by
    intro x hx
    simp only [List.mem_cons, List.not_mem_nil, or_false] at hx
    rcases hx with rfl | rfl <;> assumption
  eq := by
    intro x hx
    simp only [List.mem_cons, List.not_mem_nil, or_false] at hx
    rcases hx with rfl | rfl <;> assumption
  gap := by
    intro x hx
    simp only [List.mem_cons, List.not_mem_nil, or_false] at hx
    rcases hx with rfl | rfl
    · rw [gp]; exact gap1
    · rw [gq]; exact .nil
  apart := by
    intro x hx
    simp only [List.dropLast_cons_cons, List.dropLast_singleton, List.mem_singleton] at hx
    rw [hx, gp]
    simp
  once := by simpa using hk

theorem single_ok {P : Prop} {p : Param} (hp : p.ValOk P) (ep : p.EqOk) (gp : p.gap = []) : ParamsOk P [p] where
  val := by intro x hx; rw [List.mem_singleton.mp hx]; exact hp
  eq := by intro x hx; rw [List.mem_singleton.mp hx]; exact ep
  gap := by intro x hx; rw [List.mem_singleton.mp hx, gp]; exact .nil
  apart := by intro x hx; cases hx
  once := by simp

theorem none_ok {P : Prop} : ParamsOk P [] :=
  ⟨fun _ h => (by cases h), fun _ h => (by cases h), fun _ h => (by cases h), fun _ h => (by cases h), .nil⟩

/-- the geometry ` -1` -/
theorem geometry1 : GeometryOk [' ', '-', '1'] :=
  ⟨.char _ _ (by decide) (.char _ _ (by decide) (.char _ _ (by decide) .nil)), ⟨_, _, rfl, Or.inl rfl⟩, '1', by simp, by decide⟩

/-- the geometry ` -1 ` -/
theorem geometry2 : GeometryOk [' ', '-', '1', ' '] :=
  ⟨.char _ _ (by decide) (.char _ _ (by decide) (.char _ _ (by decide) (.char _ _ (by decide) .nil))), ⟨_, _, rfl, Or.inl rfl⟩, '1', by simp, by decide⟩

/-- a card `1 0 -1 parameters` -/
def card0 (ps : List Param) : Written := ⟨[], ['1'], [' '], .void [' ', '-', '1', ' '], ps⟩

theorem card0_ok {P : Prop} {ps : List Param} (h : ParamsOk P ps) (hm : ∀ p ∈ ps, p.kind ≠ .mat) : (card0 ps).Ok P where
  blanks := ⟨fun _ h => (by cases h), by simp [card0]⟩
  name := (digits_of (by decide) : Digits ['1'])
  gap := ⟨gap1, by simp [card0]⟩
  head := geometry2
  params := h
  mat := fun p hp hk => absurd hk (hm p hp)
  but := fun h => h.elim

theorem eqOk : ∀ (s : Bool) (k : List Char) (v : PVal) (g : List Char), Param.EqOk ⟨s, k, ['='], v, g⟩ :=
  fun _ _ _ _ => Or.inl ⟨[], [], rfl, fun _ h => (by cases h), .nil⟩

/-- the parameter `U=5` -/
def u5 : Param := ⟨false, ['U'], ['='], .uni ['5'], []⟩

theorem u5_ok {P : Prop} : u5.ValOk P := ⟨by unfold Same; decide, rfl, [], ['5'], rfl, Or.inl rfl, digits_of (by decide)⟩

/-! ## a card with everything -/

/-- `*TRCL=(0 1.5e-3⏎      90 2)` -/
def bigTrcl : Param := ⟨true, ['T', 'r', 'c', 'l'], [' ', '=', ' '], .trcl (.entries [' '] [(['0'], [' ']), (['1', '.', '5', 'e', '-', '3'], ['\n', ' ', ' ', ' ', ' ', ' ', ' ']),
  (['9', '0'], [' ']), (['-', '2'], [])]), [' ']⟩

def bigFill : Param := ⟨false, ['F', 'I', 'L', 'L'], ['='], .fill ['3'] (some ([' '], [], [(['7'], [])])), [' ']⟩

def bigImp : Param := ⟨false, ['i', 'm', 'p', ':', 'n'], ['='], .other [(['1'], [])], [' ']⟩

def bigCard : Written :=
  ⟨[' '], ['1', '2'], [' ', ' '], .material ['4'] [' '] ['-', '8', '.', '5'] [' ', '(', '-', '1', ':', '2', ')', '\n', ' ', ' ', ' ', ' ', ' ', '#', '3', ' '], [bigImp, bigTrcl, bigFill, u5]⟩

theorem num2 : Number True ['-', '2'] := number_signed True (s := ['-']) (Or.inr (Or.inr rfl)) (digits_of (t := ['2']) (by decide))

theorem num15 : Number True ['1', '.', '5', 'e', '-', '3'] :=
  .exp [] ['1', '.', '5'] 'e' ['-'] ['3'] (Or.inl rfl) (.point ['1'] ['5'] (by decide) (by decide) (by decide)) (Or.inl rfl) (Or.inr (Or.inr rfl)) (digits_of (by decide)) (fun _ => by decide)

theorem num85 {P : Prop} : Number P ['-', '8', '.', '5'] := .plain ['-'] ['8', '.', '5'] (Or.inr (Or.inr rfl)) (.point ['8'] ['5'] (by decide) (by decide) (by decide))

theorem bigTrcl_ok : bigTrcl.ValOk True := by
  refine ⟨by unfold Same; decide, gap1, ⟨by decide, ?_, ?_, by decide⟩⟩
  · intro x hx
    simp only [List.mem_cons, List.not_mem_nil, or_false] at hx
    rcases hx with rfl | rfl | rfl | rfl
    · exact num (by decide)
    · exact num15
    · exact num (by decide)
    · exact num2
  · intro x hx
    simp only [List.mem_cons, List.not_mem_nil, or_false] at hx
    rcases hx with rfl | rfl | rfl | rfl
    · exact gap1
    · exact .line _ gap1
    · exact gap1
    · exact .nil

theorem bigFill_ok : bigFill.ValOk True := by
  refine ⟨by unfold Same; decide, digits_of (by decide), ?_⟩
  intro x hx
  cases hx
  refine ⟨gap1, .nil, ⟨by decide, ?_, ?_, by decide⟩, ?_⟩
  · intro y hy; rw [List.mem_singleton.mp hy]; exact num (by decide)
  · intro y hy; rw [List.mem_singleton.mp hy]; exact .nil
  · intro _ y hy; rw [List.mem_singleton.mp hy]; exact digits_of (by decide)

theorem bigImp_ok {P : Prop} : bigImp.ValOk P := by
  refine ⟨rfl, ⟨by decide, ?_, ?_, by decide⟩, ⟨_, _, rfl, by decide⟩, by decide, ?_⟩
  · intro y hy; rw [List.mem_singleton.mp hy]; exact num (by decide)
  · intro y hy; rw [List.mem_singleton.mp hy]; exact .nil
  · unfold Same; decide

theorem mem4 {p a b c d : Param} (h : p ∈ [a, b, c, d]) : p = a ∨ p = b ∨ p = c ∨ p = d := by
  simpa using h

theorem bigCard_ok : bigCard.Ok True where
  blanks := ⟨by unfold Blanks; decide, by decide⟩
  name := digits_of (by decide)
  gap := ⟨.blank _ gap1, by decide⟩
  head := by
    refine ⟨digits_of (by decide), by decide, gap1, by decide, num85, ?_, ⟨_, _, rfl, Or.inl rfl⟩, '1', by simp, by decide⟩
    exact .char _ _ (by decide) (.char _ _ (by decide) (.char _ _ (by decide) (.char _ _ (by decide) (.char _ _ (by decide) (.char _ _ (by decide) (.char _ _ (by decide)
      (.line _ (.char _ _ (by decide) (.char _ _ (by decide) (.char _ _ (by decide) .nil))))))))))
  params :=
    { val := by
        intro p hp
        rcases mem4 hp with rfl | rfl | rfl | rfl
        · exact bigImp_ok
        · exact bigTrcl_ok
        · exact bigFill_ok
        · exact u5_ok
      eq := by
        intro p hp
        rcases mem4 hp with rfl | rfl | rfl | rfl
        · exact eqOk _ _ _ _
        · exact Or.inl ⟨[' '], [' '], rfl, by unfold Blanks; decide, gap1⟩
        · exact eqOk _ _ _ _
        · exact eqOk _ _ _ _
      gap := by
        intro p hp
        rcases mem4 hp with rfl | rfl | rfl | rfl
        · exact gap1
        · exact gap1
        · exact gap1
        · exact .nil
      apart := by
        intro p hp
        have hp' : p = bigImp ∨ p = bigTrcl ∨ p = bigFill := by simpa [bigCard] using hp
        rcases hp' with rfl | rfl | rfl <;> decide
      once := by
        have : [bigImp.kind, bigTrcl.kind, bigFill.kind, u5.kind].Pairwise (fun p q => p = q → p = .other) := by decide
        simpa [bigCard] using this }
  mat := by
    intro p hp hk
    rcases mem4 hp with rfl | rfl | rfl | rfl <;> exact absurd hk (by decide)
  but := fun h => h.elim

theorem noEnds {p : Param} {word : List Char} (h : ∀ i ≤ p.key.length, low (p.key.drop i) ≠ word) : ¬ Ends word p := by
  rintro ⟨a, v, h1, h2⟩
  have := h a.length (by rw [h1]; simp)
  rw [h1, List.drop_left] at this
  exact this h2

theorem bigCard_usual : Usual bigCard where
  gap := by unfold Blanks; decide
  eqs := by
    intro p hp
    rcases mem4 hp with rfl | rfl | rfl | rfl
    · exact ⟨[], [], rfl, fun _ h => (by cases h), .nil, fun h => absurd h (by decide)⟩
    · exact ⟨[' '], [' '], rfl, by unfold Blanks; decide, gap1, fun h => absurd h (by decide)⟩
    · exact ⟨[], [], rfl, fun _ h => (by cases h), .nil, fun h => absurd h (by decide)⟩
    · exact ⟨[], [], rfl, fun _ h => (by cases h), .nil, fun h => absurd h (by decide)⟩
  keys := by
    intro p hp hk
    rcases mem4 hp with rfl | rfl | rfl | rfl
    · exact ⟨noEnds (by decide), noEnds (by decide), noEnds (by decide), by decide, by decide⟩
    · exact absurd hk (by decide)
    · exact absurd hk (by decide)
    · exact absurd hk (by decide)
  uni := by
    intro p hp t ht
    rcases mem4 hp with rfl | rfl | rfl | rfl
    · cases ht
    · cases ht
    · cases ht
    · cases ht; decide
  paren := by
    intro l p r hl t ht
    have hp : p ∈ bigCard.params := by rw [hl]; simp
    rcases mem4 hp with rfl | rfl | rfl | rfl <;> cases ht
  like := by intro w g1 n g2 b g3 h; cases h

/-- the conditions of `C80_card_partial` can be met by a card with material, density, two lines of geometry and four parameters ... -/
example : bigCard.Ok True ∧ Usual bigCard ∧ bigCard.text = ("" ++ " 12  4 -8.5 (-1:2)\n     #3 imp:n=1 *Trcl = ( 0 1.5e-3\n      90 -2) FILL=3 (7) U=5").toList :=
  ⟨bigCard_ok, bigCard_usual, by decide +kernel⟩

/-- ... and it says this -/
example : bigCard.universe = some 5 ∧ bigCard.fill = some 3 ∧ bigCard.material = some 4 := by decide +kernel

/-- a `LIKE` card -/
def likeCard (w : List Char) : Written := ⟨[], ['2'], [' '], .like w [' '] ['1'] [' '] ['B', 'U', 'T'] [' '], [u5]⟩

theorem likeCard_ok {P : Prop} {w : List Char} (hw : Same ['l', 'i', 'k', 'e'] w) : (likeCard w).Ok P where
  blanks := ⟨fun _ h => (by cases h), by simp [likeCard]⟩
  name := (digits_of (by decide) : Digits ['2'])
  gap := ⟨gap1, by simp [likeCard]⟩
  head := ⟨hw, gap1, by decide, digits_of (by decide), gap1, by decide, by unfold Same; decide, gap1, by decide⟩
  params := single_ok u5_ok (eqOk _ _ _ _) rfl
  mat := by intro p hp hk; rw [List.mem_singleton.mp hp] at hk; exact absurd hk (by decide)
  but := fun _ => by simp [likeCard]

theorem likeCard_usual : Usual (likeCard ['l', 'i', 'k', 'e']) where
  gap := by unfold Blanks; decide
  eqs := by
    intro p hp
    rw [List.mem_singleton.mp hp]
    exact ⟨[], [], rfl, fun _ h => (by cases h), .nil, fun h => absurd h (by decide)⟩
  keys := by intro p hp hk; rw [List.mem_singleton.mp hp] at hk; exact absurd hk (by decide)
  uni := by
    intro p hp t ht
    rw [List.mem_singleton.mp hp] at ht
    cases ht; decide
  paren := by
    intro l p r hl t ht
    have hp : p ∈ [u5] := by rw [show [u5] = l ++ p :: r from hl]; simp
    rw [List.mem_singleton.mp hp] at ht
    cases ht
  like := by intro w g1 n g2 b g3 h; cases h; exact ⟨rfl, rfl⟩

/-- the conditions of `C80_card_partial` can be met by a `LIKE` card -/
example : (likeCard ['l', 'i', 'k', 'e']).Ok True ∧ Usual (likeCard ['l', 'i', 'k', 'e']) := ⟨likeCard_ok (by unfold Same; decide), likeCard_usual⟩

/-! ## cards that are read wrongly -/

/-- parts of what is read -/
def readU (text : List Char) : Option (Option Int) := match readCell textArith text with | .ok r => some r.2.u | .error _ => none
def readGeom (text : List Char) : Option (List Char) := match readCell textArith text with | .ok r => some r.2.geom | .error _ => none
def readTr (text : List Char) : Option (Option (TrVal (List Char))) := match readCell textArith text with | .ok r => some r.2.tr | .error _ => none
def readTrcl (text : List Char) : Option (Option (TrVal (List Char))) := match readCell textArith text with | .ok r => some r.2.trcl | .error _ => none
def readErr (text : List Char) : Option Err := match readCell textArith text with | .ok _ => none | .error e => some e

/-- a density with an exponent without sign: the geometry is lost -/
theorem C80_density_violated : ∃ c : Written, c.Ok False ∧ c.text = "1 5 1e1 -1".toList ∧ c.geometry = some " -1".toList ∧ readGeom c.text = some [] := by
  refine ⟨⟨[], ['1'], [' '], .material ['5'] [' '] ['1', 'e', '1'] [' ', '-', '1'], []⟩, ?_, by decide +kernel, by decide +kernel, by decide +kernel⟩
  refine ⟨⟨fun _ h => (by cases h), by decide⟩, digits_of (by decide), ⟨gap1, by decide⟩, ?_, none_ok, fun _ h => (by cases h), fun h => h.elim⟩
  exact ⟨digits_of (by decide), by decide, gap1, by decide,
    .exp [] ['1'] 'e' [] ['1'] (Or.inl rfl) (.int _ (digits_of (by decide))) (Or.inl rfl) (Or.inl rfl) (digits_of (by decide)) (fun h => h.elim), geometry1⟩

/-- entries of `TRCL` with an exponent without sign are cut in two -/
theorem C80_trcl_violated : ∃ c : Written, c.Ok False ∧ c.text = "1 0 -1 trcl=(1e1 0 0)".toList ∧ readTrcl c.text = some (some (.list [['1'], ['1'], ['0'], ['0']])) := by
  refine ⟨card0 [⟨false, ['t', 'r', 'c', 'l'], ['='], .trcl (.entries [] [(['1', 'e', '1'], [' ']), (['0'], [' ']), (['0'], [])]), []⟩],
    card0_ok (single_ok ⟨by unfold Same; decide, .nil, by decide, ?_, ?_, by decide⟩ (eqOk _ _ _ _) rfl) (by decide), by decide +kernel, by decide +kernel⟩
  · intro x hx
    simp only [List.mem_cons, List.not_mem_nil, or_false] at hx
    rcases hx with rfl | rfl | rfl
    · exact .exp [] ['1'] 'e' [] ['1'] (Or.inl rfl) (.int _ (digits_of (by decide))) (Or.inl rfl) (Or.inl rfl) (digits_of (by decide)) (fun h => h.elim)
    · exact num (by decide)
    · exact num (by decide)
  · intro x hx
    simp only [List.mem_cons, List.not_mem_nil, or_false] at hx
    rcases hx with rfl | rfl | rfl
    · exact gap1
    · exact gap1
    · exact .nil

/-- `U 5`: the universe is not seen -/
theorem C80_noequals_violated : ∃ c : Written, c.Ok True ∧ c.text = "1 0 -1 U 5".toList ∧ c.universe = some 5 ∧ readU c.text = some none := by
  refine ⟨card0 [⟨false, ['U'], [' '], .uni ['5'], []⟩], card0_ok (single_ok ?_ (Or.inr ⟨by decide, gap1⟩) rfl) (by decide), by decide +kernel, by decide +kernel, by decide +kernel⟩
  exact ⟨by unfold Same; decide, rfl, [], ['5'], rfl, Or.inl rfl, digits_of (by decide)⟩

/-- `NONU=2 U=5`: the universe is said to be 2 -/
theorem C80_nonu_violated : ∃ c : Written, c.Ok True ∧ c.text = "1 0 -1 NONU=2 U=5".toList ∧ c.universe = some 5 ∧ readU c.text = some (some 2) := by
  refine ⟨card0 [⟨false, ['N', 'O', 'N', 'U'], ['='], .other [(['2'], [])], [' ']⟩, u5], card0_ok (pair_ok ?_ u5_ok (eqOk _ _ _ _) (eqOk _ _ _ _) rfl rfl (by decide)) (by decide),
    by decide +kernel, by decide +kernel, by decide +kernel⟩
  refine ⟨rfl, ⟨by decide, ?_, ?_, by decide⟩, ⟨_, _, rfl, by decide⟩, by decide, by unfold Same; decide⟩
  · intro y hy; rw [List.mem_singleton.mp hy]; exact num (by decide)
  · intro y hy; rw [List.mem_singleton.mp hy]; exact .nil

/-- `U=-5` (a cell of universe 5 that no other cell cuts): the universe is said to be -5 -/
theorem C80_minus_violated : ∃ c : Written, c.Ok True ∧ c.text = "1 0 -1 U=-5".toList ∧ c.universe = some 5 ∧ readU c.text = some (some (-5)) := by
  refine ⟨card0 [⟨false, ['U'], ['='], .uni ['-', '5'], []⟩], card0_ok (single_ok ?_ (eqOk _ _ _ _) rfl) (by decide), by decide +kernel, by decide +kernel, by decide +kernel⟩
  exact ⟨by unfold Same; decide, rfl, ['-'], ['5'], rfl, Or.inr (Or.inr rfl), digits_of (by decide)⟩

/-- `FILL=3 TRCL=(0 0 5)`: the transformation of the cell is also given to the universe that fills it -/
theorem C80_fill_violated : ∃ c : Written, c.Ok True ∧ c.text = "1 0 -1 FILL=3 TRCL=(0 0 5)".toList ∧ c.trParam = some (false, none) ∧
    readTr c.text = some (some (.list [['0'], ['0'], ['5']])) := by
  refine ⟨card0 [⟨false, ['F', 'I', 'L', 'L'], ['='], .fill ['3'] none, [' ']⟩, ⟨false, ['T', 'R', 'C', 'L'], ['='], .trcl (.entries [] [(['0'], [' ']), (['0'], [' ']), (['5'], [])]), []⟩],
    card0_ok (pair_ok ?_ ?_ (eqOk _ _ _ _) (eqOk _ _ _ _) rfl rfl (by decide)) (by decide), by decide +kernel, rfl, by decide +kernel⟩
  · exact ⟨by unfold Same; decide, digits_of (by decide), fun x hx => (by cases hx)⟩
  · refine ⟨by unfold Same; decide, .nil, by decide, ?_, ?_, by decide⟩
    · intro x hx
      simp only [List.mem_cons, List.not_mem_nil, or_false] at hx
      rcases hx with rfl | rfl | rfl <;> exact num (by decide)
    · intro x hx
      simp only [List.mem_cons, List.not_mem_nil, or_false] at hx
      rcases hx with rfl | rfl | rfl
      · exact gap1
      · exact gap1
      · exact .nil

/-- a parameter that begins with `c` (`COSY`) on a line of its own hides the parameters after it -/
theorem C80_cosy_violated : ∃ c : Written, c.Ok True ∧ c.text = "1 0 -1\n     COSY=3 U=5".toList ∧ c.universe = some 5 ∧ readU c.text = some none := by
  refine ⟨⟨[], ['1'], [' '], .void [' ', '-', '1', '\n', ' ', ' ', ' ', ' ', ' '], [⟨false, ['C', 'O', 'S', 'Y'], ['='], .other [(['3'], [])], [' ']⟩, u5]⟩, ?_, by decide +kernel, by decide +kernel,
    by decide +kernel⟩
  refine ⟨⟨fun _ h => (by cases h), by decide⟩, digits_of (by decide), ⟨gap1, by decide⟩, ?_, pair_ok ?_ u5_ok (eqOk _ _ _ _) (eqOk _ _ _ _) rfl rfl (by decide), ?_, fun h => h.elim⟩
  · exact ⟨.char _ _ (by decide) (.char _ _ (by decide) (.char _ _ (by decide) (.line _ .nil))), ⟨_, _, rfl, Or.inl rfl⟩, '1', by simp, by decide⟩
  · refine ⟨rfl, ⟨by decide, ?_, ?_, by decide⟩, ⟨_, _, rfl, by decide⟩, by decide, by unfold Same; decide⟩
    · intro y hy; rw [List.mem_singleton.mp hy]; exact num (by decide)
    · intro y hy; rw [List.mem_singleton.mp hy]; exact .nil
  · intro p hp hk
    have hp' : p = ⟨false, ['C', 'O', 'S', 'Y'], ['='], .other [(['3'], [])], [' ']⟩ ∨ p = u5 := by simpa using hp
    rcases hp' with rfl | rfl <;> exact absurd hk (by decide)

/-- `LIKE` in capital letters raises `ValueError` -/
theorem C80_like_violated : ∃ c : Written, c.Ok True ∧ c.text = "2 LIKE 1 BUT U=5".toList ∧ readErr c.text = some .value :=
  ⟨likeCard ['L', 'I', 'K', 'E'], likeCard_ok (by unfold Same; decide), by decide +kernel, by decide +kernel⟩

/-- the material on another line than the name raises `AttributeError` -/
theorem C80_line_violated : ∃ c : Written, c.Ok True ∧ c.text = "1\n     0 -1 ".toList ∧ readErr c.text = some .attribute := by
  refine ⟨⟨[], ['1'], ['\n', ' ', ' ', ' ', ' ', ' '], .void [' ', '-', '1', ' '], []⟩, ?_, by decide +kernel, by decide +kernel⟩
  exact ⟨⟨fun _ h => (by cases h), by decide⟩, digits_of (by decide), ⟨.line _ .nil, by decide⟩, geometry2, none_ok, fun _ h => (by cases h), fun h => h.elim⟩

/-- C80 in full is false -/
theorem C80_violated : ¬ C80_statement := by
  intro h
  obtain ⟨n, r, h1, _⟩ := h _ textArith (likeCard ['L', 'I', 'K', 'E']) textArith_ok (likeCard_ok (by unfold Same; decide))
  have h2 : readErr (likeCard ['L', 'I', 'K', 'E']).text = some .value := by decide +kernel
  unfold readErr at h2
  rw [h1] at h2
  cases h2

end Geouned.CellText
