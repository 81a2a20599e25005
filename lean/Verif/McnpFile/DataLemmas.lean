import Verif.McnpFile.SurfLemmas
import Mathlib.Data.List.Dedup
/-!
# Lemmas for C102: data cards
-/
namespace Geouned.McnpFile

open Geouned.Card

/-- a card of one line -/
theorem card1 {x : Char} {t : List Char} (h : Tidy (x :: t)) (h0 : x ≠ ' ') (h1 : x ≠ '$') (h2 : x ≠ 'c') (h3 : x ≠ 'C') (hf : x.toLower ≠ 'f') :
    (Piece.card (card (x :: t) [])).Ok ∧ words (card (x :: t) []).says = Wrap.wordsOf (x :: t) := by
  refine ⟨.card _ _ (tidy_first h h0 h1 h2 h3 hf) (fun t ht => by cases ht), ?_⟩
  rw [words_tidy _ _ (by intro u hu; rw [List.mem_singleton] at hu; rw [hu]; exact h)]
  simp

/-- a card that begins with `F4` -/
theorem first_f4 {t : List Char} (h : Tidy ('F' :: '4' :: t)) : First ('F' :: '4' :: t) := by
  refine ⟨h.plain, ⟨'F', _, rfl, by decide⟩, ?_, h.noAmp⟩
  rintro ⟨k, rest, w, he, hw⟩
  cases k with
  | succ k => simp [List.replicate_succ] at he
  | zero =>
    have hl := congrArg List.length hw
    rw [List.length_map] at hl
    obtain ⟨a, b, rfl⟩ := List.length_eq_two.mp hl
    simp at he hw
    rw [← he.2.1] at hw
    exact absurd hw.2 (by decide)

theorem rem_of {t : List Char} (h : Tidy t) : Rem (T "C " ++ t) := by
  refine ⟨?_, Or.inr ⟨t, rfl⟩⟩
  have : Tidy (T "C " ++ t) := .append (by decide) h
  exact this.plain

/-! ## materials -/

theorem materials_spec (cs : List Cell) : (materials cs).Pairwise (· < ·) ∧ ∀ m, m ∈ materials cs ↔ m ≠ 0 ∧ ∃ c ∈ cs, c.real ∧ c.material = m := by
  unfold materials
  constructor
  · have h1 := List.pairwise_insertionSort (· ≤ · : Int → Int → Prop) ((((cs.filter (fun c => c.id.isSome)).map (·.material)).filter (· ≠ 0)).dedup)
    have h2 : (List.insertionSort (· ≤ · : Int → Int → Prop) ((((cs.filter (fun c => c.id.isSome)).map (·.material)).filter (· ≠ 0)).dedup)).Nodup :=
      (List.perm_insertionSort _ _).nodup_iff.mpr (List.nodup_dedup _)
    exact (h1.and h2).imp (fun {a b} h => lt_of_le_of_ne h.1 h.2)
  · intro m
    rw [(List.perm_insertionSort _ _).mem_iff, List.mem_dedup, List.mem_filter, List.mem_map]
    simp only [List.mem_filter, Cell.real, Option.isSome_iff_ne_none, decide_eq_true_eq]
    constructor
    · rintro ⟨⟨c, ⟨h1, h2⟩, h3⟩, h4⟩
      exact ⟨by simpa using h4, c, h1, h2, h3⟩
    · rintro ⟨h4, c, h1, h2, h3⟩
      exact ⟨⟨c, ⟨h1, h2⟩, h3⟩, by simpa using h4⟩

theorem mat_card (m : Int) : (Piece.card (card ('M' :: padRight 6 (Text.strInt m) ++ T " 1001 1") [])).Ok
    ∧ MatSays m (card ('M' :: padRight 6 (Text.strInt m) ++ T " 1001 1") []).says := by
  have ht : Tidy ('M' :: (padRight 6 (Text.strInt m) ++ T " 1001 1")) := .cons (by decide) (.append (tidy_pad (tidy_int m) 6) (by decide))
  obtain ⟨h1, h2⟩ := card1 ht (by decide) (by decide) (by decide) (by decide) (by decide)
  refine ⟨h1, Text.strInt m, isNum_int m, ?_⟩
  rw [List.cons_append, h2]
  have e : 'M' :: (padRight 6 (Text.strInt m) ++ T " 1001 1") = ('M' :: Text.strInt m) ++ (List.replicate (6 - (Text.strInt m).length) ' ' ++ ' ' :: T "1001 1") := by
    simp [padRight, T]
  rw [e, words_token (w := 'M' :: Text.strInt m) (by simp) (by
    intro c hc
    rcases List.mem_cons.mp hc with rfl | hc
    · decide
    · exact Text.strInt_sep m c hc) _ (by
    intro c hc
    cases hn : 6 - (Text.strInt m).length with
    | zero => rw [hn] at hc; cases hc; decide
    | succ n => rw [hn, List.replicate_succ] at hc; cases hc; decide), words_spaces]
  rfl

/-- the cards of the material block -/
theorem mat_pieces (i : Input) : ∃ (ps : List Piece) (mats : List (List (List Char))) (ms : List Int), matBlock i = fileText (ps.flatMap Piece.lines) ∧ (∀ p ∈ ps, p.Ok)
    ∧ ((ps.filterMap Piece.card?).map CardText.says).map words = mats.map words ++ [["MODE".toList, "P".toList], ["VOID".toList], ["NPS".toList, "1e6".toList]]
    ∧ List.Forall₂ MatSays ms mats ∧ ms.Pairwise (· < ·)
    ∧ (if i.dummyMat = true then ∀ m, m ∈ ms ↔ m ≠ 0 ∧ ∃ c ∈ i.cells, c.real ∧ c.material = m else ms = []) := by
  obtain ⟨o1, w1⟩ := card1 (x := 'M') (t := T "ODE P") (by decide) (by decide) (by decide) (by decide) (by decide) (by decide)
  obtain ⟨o2, w2⟩ := card1 (x := 'V') (t := T "OID ") (by decide) (by decide) (by decide) (by decide) (by decide) (by decide)
  obtain ⟨o3, w3⟩ := card1 (x := 'N') (t := T "PS 1e6") (by decide) (by decide) (by decide) (by decide) (by decide) (by decide)
  have hmode : ∀ p ∈ [Piece.card (card (T "MODE P") []), .card (card (T "VOID ") []), .card (card (T "NPS 1e6") [])], p.Ok := by
    intro p hp
    simp only [List.mem_cons, List.not_mem_nil, or_false] at hp
    rcases hp with rfl | rfl | rfl
    · exact o1
    · exact o2
    · exact o3
  have hmw : (([Piece.card (card (T "MODE P") []), .card (card (T "VOID ") []), .card (card (T "NPS 1e6") [])].filterMap Piece.card?).map CardText.says).map words
      = [["MODE".toList, "P".toList], ["VOID".toList], ["NPS".toList, "1e6".toList]] := by
    simp only [List.filterMap_cons, List.filterMap_nil, Piece.card?, List.map_cons, List.map_nil]
    rw [show T "MODE P" = 'M' :: T "ODE P" from rfl, show T "VOID " = 'V' :: T "OID " from rfl, show T "NPS 1e6" = 'N' :: T "PS 1e6" from rfl, w1, w2, w3]
    rfl
  have hml : T "MODE P\nVOID \nNPS 1e6\n" = fileText ([Piece.card (card (T "MODE P") []), .card (card (T "VOID ") []), .card (card (T "NPS 1e6") [])].flatMap Piece.lines) := by
    simp only [List.flatMap_cons, List.flatMap_nil, Piece.lines, card_lines]
    rfl
  unfold matBlock
  dsimp only
  cases hd : i.dummyMat with
  | false =>
    refine ⟨_, [], [], hml, hmode, by rw [hmw]; rfl, .nil, .nil, by simp⟩
  | true =>
    let mc : Int → Piece := fun m => .card (card ('M' :: padRight 6 (Text.strInt m) ++ T " 1001 1") [])
    have hfil : ∀ ms : List Int, (ms.map mc).filterMap Piece.card? = ms.map (fun m => card ('M' :: padRight 6 (Text.strInt m) ++ T " 1001 1") []) := by
      intro ms
      induction ms with
      | nil => rfl
      | cons m ms ih => rw [List.map_cons, List.filterMap_cons]; simp only [mc, Piece.card?]; rw [List.map_cons]; congr 1
    refine ⟨(materials i.cells).map mc ++ (.rem [T "C "] :: [.card (card (T "MODE P") []), .card (card (T "VOID ") []), .card (card (T "NPS 1e6") [])]),
      (materials i.cells).map (fun m => (card ('M' :: padRight 6 (Text.strInt m) ++ T " 1001 1") []).says), materials i.cells, ?_, ?_, ?_, ?_, (materials_spec _).1, ?_⟩
    · rw [if_pos rfl, List.flatMap_append, List.flatMap_cons, fileText_append, fileText_append, ← hml]
      have : ((materials i.cells).map mc).flatMap Piece.lines = (materials i.cells).map (fun m => 'M' :: padRight 6 (Text.strInt m) ++ T " 1001 1") := by
        generalize materials i.cells = l
        induction l with
        | nil => rfl
        | cons m l ih => rw [List.map_cons, List.flatMap_cons, ih]; simp [mc, Piece.lines, card_lines]
      rw [this]
      have e2 : fileText ((materials i.cells).map (fun m => 'M' :: padRight 6 (Text.strInt m) ++ T " 1001 1"))
          = (materials i.cells).flatMap (fun m => 'M' :: padRight 6 (Text.strInt m) ++ T " 1001 1\n") := by
        unfold fileText
        rw [List.flatMap_map]
        congr 1
        funext m
        simp [T]
      rw [e2]
      simp [Piece.lines, fileText, T]
    · intro p hp
      rcases List.mem_append.mp hp with hp | hp
      · obtain ⟨m, -, rfl⟩ := List.mem_map.mp hp
        exact (mat_card m).1
      · rcases List.mem_cons.mp hp with rfl | hp
        · exact .rem _ (by intro t ht; rw [List.mem_singleton] at ht; rw [ht]; exact rem_of tidy_nil)
        · exact hmode p hp
    · rw [List.filterMap_append, hfil, List.filterMap_cons, List.map_append, List.map_append]
      simp only [Piece.card?]
      rw [hmw, List.map_map, List.map_map, List.map_map]
      rfl
    · rw [List.forall₂_map_right_iff, List.forall₂_same]
      exact fun m _ => (mat_card m).2
    · simpa using (materials_spec i.cells).2

/-! ## source -/

theorem e7_word (f : Fmt) (x y : ℚ) (a : List Char) (ha : ∀ c ∈ a, Wrap.isSep c = false) (hne : a ≠ []) :
    Wrap.wordsOf (a ++ ' ' :: (f.e7 x ++ ' ' :: (f.e7 y ++ [' ']))) = a :: (Wrap.wordsOf (f.e7 x) ++ Wrap.wordsOf (f.e7 y)) := by
  rw [words_token hne ha _ (by intro c hc; cases hc; decide), words_space, words_blank_mid, words_blank_mid]
  simp [Wrap.wordsOf, Wrap.wordsFrom]

/-- a card written by `CardLine` -/
theorem extend_card {x y : Char} {t : List Char} (hh : Tidy (x :: y :: t)) (hf : ∀ l, Tidy l → First ((x :: y :: t) ++ ' ' :: l)) (hlen : (x :: y :: t).length + 1 ≤ 80)
    (ds : List (List Char)) (hd : ∀ d ∈ ds, Tidy d ∧ d.length ≤ 40 ∧ ∃ c ∈ d, c ≠ ' ' ∧ c ≠ 'c' ∧ c ≠ 'C') :
    ∃ first rest, Wrap.linesOf ((Wrap.CardLine.new (x :: y :: t) 80 6).extend ds).str = first :: rest ∧ (Piece.card (card first rest)).Ok
      ∧ words (card first rest).says = Wrap.wordsOf (x :: y :: t) ++ ds.flatMap Wrap.wordsOf ∧ ∀ u ∈ first :: rest, u ≠ [] := by
  obtain ⟨l, ls, h1, h2, h3⟩ := extend_lines (size := 80) (tab := 6) (fun c => c ≠ ' ' ∧ c ≠ 'c' ∧ c ≠ 'C') (x :: y :: t) hh.nl ds (fun d hd' => ⟨(hd d hd').1.nl, (hd d hd').2.2⟩)
  have hwords := (Wrap.C34_card (x :: y :: t) 80 6 ds hh.nl hlen (fun d hd' => ⟨(hd d hd').1.nl, by have := (hd d hd').2.1; omega⟩)).1
  have mem : ∀ {l : List Char}, (∀ c ∈ l, c = ' ' ∨ ∃ d ∈ ds, c ∈ d) → Tidy l := by
    intro l hl c hc
    rcases hl c hc with rfl | ⟨d, hd', hc'⟩
    · exact Or.inl rfl
    · exact (hd d hd').1 c hc'
  have hl : Tidy l := mem h2
  have hrest : ∀ m ∈ ls, Tidy m ∧ Cont m := by
    intro m hm
    obtain ⟨r, hr, ⟨c, hc, hp⟩, hr2⟩ := h3 m hm
    have htm : Tidy m := by rw [hr]; exact (tidy_blanks 6).append (mem hr2)
    exact ⟨htm, tidy_cont htm ⟨' ' :: r, by rw [hr]; rfl⟩ ⟨c, by rw [hr]; simp [hc], hp⟩⟩
  refine ⟨_, ls, h1, .card _ _ (hf l hl) (fun m hm => (hrest m hm).2), ?_, ?_⟩
  · rw [words_tidy, ← h1, ← Wrap.words_lines, hwords]
    intro u hu
    rcases List.mem_cons.mp hu with rfl | hu
    · exact hh.append (.cons (by decide) hl)
    · exact (hrest u hu).1
  · intro u hu
    rcases List.mem_cons.mp hu with rfl | hu
    · simp
    · obtain ⟨r, hr, -⟩ := (hrest u hu).2.blanks
      simp

/-- the text of lines, without the last newline character if `b` is false -/
def endText (b : Bool) (ls : List (List Char)) : List Char := if b then fileText ls else (fileText ls).dropLast

/-- is there a newline character at the end -/
def ends (i : Input) : Bool := i.sphere = none || !i.volSDEF || i.volCARD

theorem tallied_eq (cs : List Cell) : tallied cs = cs.filter (fun c => c.real ∧ c.solid = true) := by
  unfold tallied
  congr 1
  funext c
  cases h1 : c.id <;> cases h2 : c.solid <;> simp [Cell.real, h1]

set_option maxHeartbeats 1000000 in
theorem source_pieces {f : Fmt} (hf : Formats f) (i : Input) (hc : ∀ c ∈ i.cells, GoodCell f c) : ∃ ps : List Piece,
    sourceBlock f i = endText (ends i) (ps.flatMap Piece.lines) ∧ (∀ p ∈ ps, p.Ok) ∧ SourceSays f i ((ps.filterMap Piece.card?).map CardText.says)
      ∧ (ends i = false → ∃ pre last, ps.flatMap Piece.lines = pre ++ [last] ∧ last ≠ []) := by
  unfold sourceBlock SourceSays ends
  cases hsp : i.sphere with
  | none => exact ⟨[], rfl, fun p h => (by cases h), rfl, by simp⟩
  | some nr =>
    obtain ⟨n, r⟩ := nr
    dsimp only
    obtain ⟨o1, w1⟩ := card1 (x := 'P') (t := T "RDMP 2J -1") (by decide) (by decide) (by decide) (by decide) (by decide) (by decide)
    cases hv : i.volSDEF with
    | false =>
      obtain ⟨x1, x2, y1, y2, z1, z2⟩ := i.box
      dsimp only
      have hsi : ∀ (a b : ℚ) (t : List Char), Tidy t → Tidy ('S' :: (t ++ ' ' :: (f.e7 a ++ ' ' :: (f.e7 b ++ [' '])))) := by
        intro a b t ht
        exact .cons (by decide) (ht.append (.cons (by decide) ((hf.e7 a).1.tidy.append (.cons (by decide) ((hf.e7 b).1.tidy.append (by decide))))))
      obtain ⟨o2, w2⟩ := card1 (x := 'S') (t := T "DEF PAR=P X=D1 Y=D2 Z=D3 ") (by decide) (by decide) (by decide) (by decide) (by decide) (by decide)
      obtain ⟨o3, w3⟩ := card1 (hsi (x1 * (1 / 10)) (x2 * (1 / 10)) (T "I1") (by decide)) (by decide) (by decide) (by decide) (by decide) (by decide)
      obtain ⟨o4, w4⟩ := card1 (hsi (y1 * (1 / 10)) (y2 * (1 / 10)) (T "I2") (by decide)) (by decide) (by decide) (by decide) (by decide) (by decide)
      obtain ⟨o5, w5⟩ := card1 (hsi (z1 * (1 / 10)) (z2 * (1 / 10)) (T "I3") (by decide)) (by decide) (by decide) (by decide) (by decide) (by decide)
      obtain ⟨o6, w6⟩ := card1 (x := 'S') (t := T "P1 0  1 ") (by decide) (by decide) (by decide) (by decide) (by decide) (by decide)
      obtain ⟨o7, w7⟩ := card1 (x := 'S') (t := T "P2 0  1 ") (by decide) (by decide) (by decide) (by decide) (by decide) (by decide)
      obtain ⟨o8, w8⟩ := card1 (x := 'S') (t := T "P3 0  1 ") (by decide) (by decide) (by decide) (by decide) (by decide) (by decide)
      refine ⟨[.card (card ('P' :: T "RDMP 2J -1") []),
        .rem [T "C " ++ (T "SDEF PAR=P NRM=-1 SUR=" ++ Text.strInt n ++ T " WGT=" ++ f.weight r ++ T " DIR=d1"), T "C " ++ T "SI1 0 1", T "C " ++ T "SP1 -21 1"],
        .card (card ('S' :: T "DEF PAR=P X=D1 Y=D2 Z=D3 ") []),
        .card (card ('S' :: (T "I1" ++ ' ' :: (f.e7 (x1 * (1 / 10)) ++ ' ' :: (f.e7 (x2 * (1 / 10)) ++ [' '])))) []),
        .card (card ('S' :: (T "I2" ++ ' ' :: (f.e7 (y1 * (1 / 10)) ++ ' ' :: (f.e7 (y2 * (1 / 10)) ++ [' '])))) []),
        .card (card ('S' :: (T "I3" ++ ' ' :: (f.e7 (z1 * (1 / 10)) ++ ' ' :: (f.e7 (z2 * (1 / 10)) ++ [' '])))) []),
        .card (card ('S' :: T "P1 0  1 ") []), .card (card ('S' :: T "P2 0  1 ") []), .card (card ('S' :: T "P3 0  1 ") [])], ?_, ?_, ?_, by simp⟩
      · simp [endText, Piece.lines, card_lines, fileText, sdefSphere, sdefBox, T]
      · intro p hp
        simp only [List.mem_cons, List.not_mem_nil, or_false] at hp
        rcases hp with rfl | rfl | rfl | rfl | rfl | rfl | rfl | rfl | rfl
        · exact o1
        · refine .rem _ (fun t ht => ?_)
          simp only [List.mem_cons, List.not_mem_nil, or_false] at ht
          rcases ht with rfl | rfl | rfl
          · exact rem_of (.append (.append (.append (.append (by decide) (tidy_int n)) (by decide)) (hf.weight r).tidy) (by decide))
          · exact rem_of (by decide)
          · exact rem_of (by decide)
        · exact o2
        · exact o3
        · exact o4
        · exact o5
        · exact o6
        · exact o7
        · exact o8
      · rw [if_neg (by simp)]
        simp only [List.filterMap_cons, List.filterMap_nil, Piece.card?, List.map_cons, List.map_nil]
        rw [w1, w2, w3, w4, w5, w6, w7, w8]
        have ec : ∀ (a b : List Char), 'S' :: (a ++ ' ' :: b) = ('S' :: a) ++ ' ' :: b := fun _ _ => rfl
        rw [ec (T "I1"), ec (T "I2"), ec (T "I3"),
          e7_word f _ _ ('S' :: T "I1") (by decide) (by simp), e7_word f _ _ ('S' :: T "I2") (by decide) (by simp), e7_word f _ _ ('S' :: T "I3") (by decide) (by simp)]
        simp only [mul_one_div]
        rfl
    | true =>
      have hbox : ∀ (x1 x2 y1 y2 z1 z2 : ℚ), ∃ ls, (sdefBox f (x1, x2, y1, y2, z1, z2)).flatMap (fun l => T "C " ++ l) = fileText ls ∧ ∀ t ∈ ls, Rem t := by
        intro x1 x2 y1 y2 z1 z2
        have hsi : ∀ (a b : ℚ) (t : List Char), Tidy t → Tidy (t ++ (f.e7 a ++ ' ' :: (f.e7 b ++ [' ']))) := by
          intro a b t ht
          exact ht.append ((hf.e7 a).1.tidy.append (.cons (by decide) ((hf.e7 b).1.tidy.append (by decide))))
        refine ⟨[T "C " ++ T "SDEF PAR=P X=D1 Y=D2 Z=D3 ", T "C " ++ (T "SI1 " ++ (f.e7 (x1 * (1 / 10)) ++ ' ' :: (f.e7 (x2 * (1 / 10)) ++ [' ']))),
          T "C " ++ (T "SI2 " ++ (f.e7 (y1 * (1 / 10)) ++ ' ' :: (f.e7 (y2 * (1 / 10)) ++ [' ']))), T "C " ++ (T "SI3 " ++ (f.e7 (z1 * (1 / 10)) ++ ' ' :: (f.e7 (z2 * (1 / 10)) ++ [' ']))),
          T "C " ++ T "SP1 0  1 ", T "C " ++ T "SP2 0  1 ", T "C " ++ T "SP3 0  1 "], ?_, ?_⟩
        · simp [fileText, sdefBox, T]
        · intro t ht
          simp only [List.mem_cons, List.not_mem_nil, or_false] at ht
          rcases ht with rfl | rfl | rfl | rfl | rfl | rfl | rfl
          · exact rem_of (by decide)
          · exact rem_of (hsi _ _ _ (by decide))
          · exact rem_of (hsi _ _ _ (by decide))
          · exact rem_of (hsi _ _ _ (by decide))
          · exact rem_of (by decide)
          · exact rem_of (by decide)
          · exact rem_of (by decide)
      obtain ⟨bls, hb1, hb2⟩ : ∃ ls, (sdefBox f i.box).flatMap (fun l => T "C " ++ l) = fileText ls ∧ ∀ t ∈ ls, Rem t := by
        obtain ⟨x1, x2, y1, y2, z1, z2⟩ := i.box
        exact hbox x1 x2 y1 y2 z1 z2
      have hgood : ∀ c ∈ tallied i.cells, c.label.natAbs < 10 ^ 8 := by
        intro c hm
        rw [tallied_eq] at hm
        have h1 := List.mem_filter.mp hm
        have h2 : c.real ∧ c.solid = true := by simpa using h1.2
        exact ((hc c h1.1).real h2.1).1
      obtain ⟨f4, f4r, hf4, of4, wf4, -⟩ := extend_card (x := 'F') (y := '4') (t := T ":P ") (by decide)
        (fun l hl => first_f4 (by
          have : Tidy (T "F4:P " ++ ' ' :: l) := .append (by decide) (.cons (by decide) hl)
          exact this)) (by decide)
        ((tallied i.cells).map (fun c => Text.strInt c.label)) (by
          intro d hd
          obtain ⟨c, hc', rfl⟩ := List.mem_map.mp hd
          have := Text.strInt_length (d := 8) (by omega) (hgood c hc')
          exact ⟨tidy_int _, by omega, int_ink _⟩)
      obtain ⟨sd, sdr, hsd, osd, wsd, nesd⟩ := extend_card (x := 'S') (y := 'D') (t := T "4  ") (by decide)
        (fun l hl => tidy_first (x := 'S') (by
          have : Tidy (T "SD4  " ++ ' ' :: l) := .append (by decide) (.cons (by decide) hl)
          exact this) (by decide) (by decide) (by decide) (by decide) (by decide)) (by decide)
        ((tallied i.cells).map (fun c => f.e7 (c.volume * (1 / 1000)))) (by
          intro d hd
          obtain ⟨c, hc', rfl⟩ := List.mem_map.mp hd
          exact ⟨(hf.e7 _).1.tidy, (hf.e7 _).2, (hf.e7 _).1.ink⟩)
      have hw := hf.weight r
      have ts : Tidy ('S' :: (T "DEF PAR=P NRM=-1 SUR=" ++ (Text.strInt n ++ (T " WGT=" ++ (f.weight r ++ T " DIR=d1"))))) :=
        .cons (by decide) (.append (by decide) ((tidy_int n).append (.append (by decide) (hw.tidy.append (by decide)))))
      obtain ⟨o2, w2⟩ := card1 ts (by decide) (by decide) (by decide) (by decide) (by decide)
      obtain ⟨o3, w3⟩ := card1 (x := 'S') (t := T "I1 0 1") (by decide) (by decide) (by decide) (by decide) (by decide) (by decide)
      obtain ⟨o4, w4⟩ := card1 (x := 'S') (t := T "P1 -21 1") (by decide) (by decide) (by decide) (by decide) (by decide) (by decide)
      have hw2 : Wrap.wordsOf ('S' :: (T "DEF PAR=P NRM=-1 SUR=" ++ (Text.strInt n ++ (T " WGT=" ++ (f.weight r ++ T " DIR=d1")))))
          = ["SDEF".toList, "PAR=P".toList, "NRM=-1".toList, "SUR=".toList ++ Text.strInt n, "WGT=".toList ++ f.weight r, "DIR=d1".toList] := by
        have e : 'S' :: (T "DEF PAR=P NRM=-1 SUR=" ++ (Text.strInt n ++ (T " WGT=" ++ (f.weight r ++ T " DIR=d1"))))
            = T "SDEF PAR=P NRM=-1" ++ ' ' :: ((T "SUR=" ++ Text.strInt n) ++ ' ' :: ((T "WGT=" ++ f.weight r) ++ ' ' :: T "DIR=d1")) := by simp [T]
        rw [e, words_blank_mid, words_token (w := T "SUR=" ++ Text.strInt n) (by simp [T]) (nosep_append (by decide) (Text.strInt_sep n)) _ (by intro c hc; cases hc; decide),
          words_space, words_token (w := T "WGT=" ++ f.weight r) (by simp [T]) (nosep_append (by decide) (token_sep hw)) _ (by intro c hc; cases hc; decide), words_space]
        rfl
      have hlab : ∃ labels, List.Forall₂ IsNum labels ((i.cells.filter (fun c => c.real ∧ c.solid = true)).map (·.label))
          ∧ ((tallied i.cells).map (fun c => Text.strInt c.label)).flatMap Wrap.wordsOf = labels := by
        refine ⟨(tallied i.cells).map (fun c => Text.strInt c.label), ?_, ?_⟩
        · rw [tallied_eq, List.forall₂_map_left_iff, List.forall₂_map_right_iff, List.forall₂_same]
          exact fun c _ => isNum_int _
        · rw [List.flatMap_map]
          generalize tallied i.cells = l
          induction l with
          | nil => rfl
          | cons c l ih => rw [List.flatMap_cons, ih, words_int1]; rfl
      obtain ⟨labels, hlab1, hlab2⟩ := hlab
      rw [hlab2] at wf4
      have hvol : ((tallied i.cells).map (fun c => f.e7 (c.volume * (1 / 1000)))).flatMap Wrap.wordsOf
          = (i.cells.filter (fun c => c.real ∧ c.solid = true)).flatMap (fun c => Wrap.wordsOf (f.e7 (c.volume / 1000))) := by
        rw [List.flatMap_map, tallied_eq]
        simp only [mul_one_div]
      rw [hvol] at wsd
      have tf4 : ((Wrap.CardLine.new (T "F4:P ") 80 6).extend ((tallied i.cells).map (fun c => Text.strInt c.label))).str ++ ['\n'] = fileText (f4 :: f4r) := by
        rw [← hf4, fileText_lines]
        rfl
      have tsd : ((Wrap.CardLine.new (T "SD4  ") 80 6).extend ((tallied i.cells).map (fun c => f.e7 (c.volume * (1 / 1000))))).str = (fileText (sd :: sdr)).dropLast := by
        rw [← hsd, fileText_lines]
        simp
        rfl
      cases hvc : i.volCARD with
      | true =>
        refine ⟨[.card (card ('P' :: T "RDMP 2J -1") []), .rem bls,
          .card (card ('S' :: (T "DEF PAR=P NRM=-1 SUR=" ++ (Text.strInt n ++ (T " WGT=" ++ (f.weight r ++ T " DIR=d1"))))) []),
          .card (card ('S' :: T "I1 0 1") []), .card (card ('S' :: T "P1 -21 1") []), .card (card f4 f4r),
          .rem [T "C " ++ T "Cell volume normalization is set in cell cards VOL"]], ?_, ?_, ?_, by simp⟩
        · simp only [if_true, hb1, List.flatMap_cons, List.flatMap_nil, Piece.lines, card_lines, fileText_append, List.append_nil]
          have e : endText (decide (some (n, r) = none) || !true || true) = fileText := by
            funext l; simp [endText]
          rw [e]
          simp only [fileText_append, ← tf4]
          simp [fileText, sdefSphere, T]
        · intro p hp
          simp only [List.mem_cons, List.not_mem_nil, or_false] at hp
          rcases hp with rfl | rfl | rfl | rfl | rfl | rfl | rfl
          · exact o1
          · exact .rem _ hb2
          · exact o2
          · exact o3
          · exact o4
          · exact of4
          · exact .rem _ (fun t ht => by rw [List.mem_singleton] at ht; rw [ht]; exact rem_of (by decide))
        · rw [if_pos rfl]
          refine ⟨Text.strInt n, labels, isNum_int n, hlab1, ?_⟩
          simp only [List.filterMap_cons, List.filterMap_nil, Piece.card?, List.map_cons, List.map_nil]
          rw [w1, w2, w3, w4, wf4, hw2]
          rfl
      | false =>
        refine ⟨[.card (card ('P' :: T "RDMP 2J -1") []), .rem bls,
          .card (card ('S' :: (T "DEF PAR=P NRM=-1 SUR=" ++ (Text.strInt n ++ (T " WGT=" ++ (f.weight r ++ T " DIR=d1"))))) []),
          .card (card ('S' :: T "I1 0 1") []), .card (card ('S' :: T "P1 -21 1") []), .card (card f4 f4r), .card (card sd sdr)], ?_, ?_, ?_, ?_⟩
        · simp only [if_true, hb1, List.flatMap_cons, List.flatMap_nil, Piece.lines, card_lines, List.append_nil]
          have e : endText (decide (some (n, r) = none) || !true || false) = fun l => (fileText l).dropLast := by
            funext l; simp [endText]
          rw [e]
          dsimp only
          have hne : fileText (sd :: sdr) ≠ [] := by simp [fileText]
          simp only [fileText_append, ← tf4]
          simp only [← List.append_assoc]
          rw [List.dropLast_append_of_ne_nil hne, ← tsd]
          simp [fileText, sdefSphere, T]
        · intro p hp
          simp only [List.mem_cons, List.not_mem_nil, or_false] at hp
          rcases hp with rfl | rfl | rfl | rfl | rfl | rfl | rfl
          · exact o1
          · exact .rem _ hb2
          · exact o2
          · exact o3
          · exact o4
          · exact of4
          · exact osd
        · rw [if_pos rfl]
          refine ⟨Text.strInt n, labels, isNum_int n, hlab1, ?_⟩
          simp only [List.filterMap_cons, List.filterMap_nil, Piece.card?, List.map_cons, List.map_nil]
          rw [w1, w2, w3, w4, wf4, wsd, hw2]
          rfl
        · intro _
          simp only [List.flatMap_cons, List.flatMap_nil, Piece.lines, card_lines, List.append_nil]
          obtain ⟨pre, last, hl⟩ : ∃ pre last, sd :: sdr = pre ++ [last] := ⟨_, _, (List.dropLast_append_getLast (by simp)).symm⟩
          refine ⟨['P' :: T "RDMP 2J -1"] ++ (bls ++ ([('S' :: (T "DEF PAR=P NRM=-1 SUR=" ++ (Text.strInt n ++ (T " WGT=" ++ (f.weight r ++ T " DIR=d1")))))]
            ++ (['S' :: T "I1 0 1"] ++ (['S' :: T "P1 -21 1"] ++ ((f4 :: f4r) ++ pre))))), last, ?_, nesd last (by rw [hl]; simp)⟩
          rw [hl]
          simp only [List.append_assoc]

end Geouned.McnpFile
