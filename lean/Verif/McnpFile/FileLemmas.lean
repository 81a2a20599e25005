import Verif.McnpFile.DataLemmas
/-!
# Lemmas for C102: the whole file
-/
namespace Geouned.McnpFile

open Geouned.Card

theorem rem_cons {a b : List Char} (ha : Plain a) (hb : Plain b) : Rem (T "C " ++ (a ++ b)) := by
  refine ⟨fun c hc => ?_, Or.inr ⟨a ++ b, rfl⟩⟩
  rcases List.mem_append.mp hc with hc | hc
  · intro _
    have : c = 'C' ∨ c = ' ' := by simpa [T] using hc
    rcases this with rfl | rfl
    · exact absurd ‹_› (by decide)
    · rfl
  · rcases List.mem_append.mp hc with hc | hc
    · exact ha c hc
    · exact hb c hc

set_option maxRecDepth 20000 in
theorem header_lines {f : Fmt} {i : Input} (h : Good f i) : ∃ ls, header i = fileText (i.title :: ls) ∧ ∀ t ∈ ls, Rem t := by
  refine ⟨[T "C   ______ _______  _____      _     _ __   _ _______ ______  ", T "C  |  ____ |______ |     | ___ |     | | \\  | |______ |     \\ ",
    T "C  |_____| |______ |_____|     |_____| |  \\_| |______ |_____/", T "C " ++ (T "Version : " ++ i.version),
    T "C " ++ (T "FreeCAD Version : " ++ (i.freecad ++ T " ")), T "C", T "C *************************************************************",
    T "C " ++ (T "Original Step file : " ++ i.step), T "C", T "C " ++ (T "Creation Date : " ++ i.date),
    T "C " ++ (T "Solid Cells   : " ++ Text.strInt ((i.cells.filter (fun c => c.id.isSome)).filter (fun c => !c.void)).length),
    T "C " ++ (T "Total Cells   : " ++ Text.strInt (i.cells.filter (fun c => c.id.isSome)).length),
    T "C " ++ (T "Surfaces      : " ++ Text.strInt i.surfaces.length),
    T "C " ++ (T "Materials     : " ++ Text.strInt (((i.cells.filter (fun c => c.id.isSome)).map (·.material)).filter (· ≠ 0)).dedup.length), T "C",
    T "C **************************************************************"], ?_, ?_⟩
  · unfold header fileText T
    simp
  · have lit : ∀ t : List Char, (∀ c ∈ t, white c = true → c = ' ') → (t = ['C'] ∨ t.take 2 = ['C', ' ']) → Rem t := by
      intro t h1 h2
      refine ⟨h1, h2.imp id fun h2 => ?_⟩
      match t, h2 with
      | a :: b :: r, h2 =>
        simp only [List.take_succ_cons, List.take_zero, List.cons.injEq, and_true] at h2
        exact ⟨r, by rw [h2.1, h2.2]⟩
    intro t ht
    simp only [List.mem_cons, List.not_mem_nil, or_false] at ht
    rcases ht with rfl | rfl | rfl | rfl | rfl | rfl | rfl | rfl | rfl | rfl | rfl | rfl | rfl | rfl | rfl | rfl
    · exact lit _ (by decide +kernel) (by decide)
    · exact lit _ (by decide +kernel) (by decide)
    · exact lit _ (by decide +kernel) (by decide)
    · exact rem_cons (by unfold Plain; decide +kernel) h.version
    · refine rem_cons (by unfold Plain; decide +kernel) ?_
      intro c hc
      rcases List.mem_append.mp hc with hc | hc
      · exact h.freecad c hc
      · intro _; simpa [T] using hc
    · exact lit _ (by decide +kernel) (by decide)
    · exact lit _ (by decide +kernel) (by decide)
    · exact rem_cons (by unfold Plain; decide +kernel) h.step
    · exact lit _ (by decide +kernel) (by decide)
    · exact rem_cons (by unfold Plain; decide +kernel) h.date
    · exact rem_cons (by unfold Plain; decide +kernel) (tidy_int _).plain
    · exact rem_cons (by unfold Plain; decide +kernel) (tidy_int _).plain
    · exact rem_cons (by unfold Plain; decide +kernel) (tidy_int _).plain
    · exact rem_cons (by unfold Plain; decide +kernel) (tidy_int _).plain
    · exact lit _ (by decide +kernel) (by decide)
    · exact lit _ (by decide +kernel) (by decide)

theorem dropLast_fileText (pre : List (List Char)) (last : List Char) : (fileText (pre ++ [last])).dropLast = fileText pre ++ last := by
  rw [fileText_append]
  simp only [fileText, List.flatMap_cons, List.flatMap_nil, List.append_nil]
  rw [← List.append_assoc, List.dropLast_concat]

theorem fileOf_last : ∀ (pre : List (List Char)) (last : List Char), last ≠ [] → FileOf (pre ++ [last]) (fileText pre ++ last)
  | [], last, h => .last _ h
  | t :: pre, last, h => by
    have := FileOf.cons t _ _ (fileOf_last pre last h)
    simpa [fileText] using this

set_option maxRecDepth 20000 in
/-- all that is needed of the file -/
theorem file_deck {f : Fmt} {i : Input} (h : Good f i) (r : Nat) (hr : 30 ≤ r) : ∃ K, ∀ k, K ≤ k → ∃ (s : List Char) (d : Deck),
    writeInput f r k i = .ok s ∧ d.Ok ∧ FileOf d.lines s ∧ Says f i d
      ∧ (∀ b ∈ d.blocks, ∀ m ∈ b.cards, ∀ x ∈ m.2.more, Indented x.2)
      ∧ (∀ b ∈ d.blocks, ∀ t ∈ b.lines, ∀ k, 0 < k → t ≠ List.replicate k ' ' ++ ['c'] ∧ t ≠ List.replicate k ' ' ++ ['C'])
      ∧ (ends i = true → s.getLast? = some '\n') ∧ d.after = none
      ∧ List.Forall₂ (Laid f i) (i.cells.filter (fun c => c.real)) (d.cells.cards.map (fun m => m.2.says))
      ∧ ∀ b ∈ d.blocks, ∀ m ∈ b.cards, ∃ first rest, m.2 = card first rest ∧ First first ∧ ∀ t ∈ rest, Cont t := by
  obtain ⟨K, hK⟩ := cells_pieces h.formats i r hr i.cells h.cells
  refine ⟨K, fun k hk => ?_⟩
  obtain ⟨pc, c1, c2, c3⟩ := hK k hk
  obtain ⟨psf, s1, s2, s3⟩ := surfaces_pieces i.surfaces h.surfaces
  obtain ⟨pm, mats, ms, m1, m2, m3, m4, m5, m6⟩ := mat_pieces i
  obtain ⟨pd, d1, d2, d3, d4⟩ := source_pieces h.formats i h.cells
  obtain ⟨hl, h1, h2⟩ := header_lines h
  have hsh : ∀ t ∈ [T "C ##########################################################", T "C                  SURFACE DEFINITION",
      T "C ##########################################################"], Rem t := by
    intro t ht
    simp only [List.mem_cons, List.not_mem_nil, or_false] at ht
    rcases ht with rfl | rfl | rfl
    all_goals exact ⟨by unfold Plain; decide +kernel, Or.inr ⟨_, rfl⟩⟩
  have o1 : ∀ p ∈ Piece.rem hl :: pc, p.Ok := (fun p hp => by
    rcases List.mem_cons.mp hp with rfl | hp
    · exact .rem _ h2
    · exact c2 p hp)
  have b1 := mkBlock_ok o1
  have o2 : ∀ p ∈ Piece.rem [T "C ##########################################################", T "C                  SURFACE DEFINITION",
      T "C ##########################################################"] :: psf, p.Ok := (fun p hp => by
    rcases List.mem_cons.mp hp with rfl | hp
    · exact .rem _ hsh
    · exact s2 p hp)
  have b2 := mkBlock_ok o2
  have o3 : ∀ p ∈ pm ++ pd, p.Ok := fun p hp => (List.mem_append.mp hp).elim (m2 p) (d2 p)
  have b3 := mkBlock_ok o3
  have hemp : Empty [' '] := fun c hc => by simpa using hc
  have e1 : writeInput f r k i = .ok (header i ++ fileText (pc.flatMap Piece.lines)
        ++ T " \nC ##########################################################\nC                  SURFACE DEFINITION\nC ##########################################################\n"
        ++ fileText (psf.flatMap Piece.lines) ++ T " \n" ++ matBlock i ++ sourceBlock f i) := by
    unfold writeInput
    rw [c1, s1]
  refine ⟨_, ⟨none, i.title, mkBlock (.rem hl :: pc), [' '], mkBlock (.rem [T "C ##########################################################",
    T "C                  SURFACE DEFINITION", T "C ##########################################################"] :: psf), [' '], mkBlock (pm ++ pd), none⟩,
    e1, ⟨fun m hm => (by cases hm), ⟨h.title.1, h.title.2.1⟩, fun _ => ⟨h.title.2.2.1, h.title.2.2.2⟩, b1.1, b2.1, b3.1, hemp, hemp, fun a ha => (by cases ha)⟩, ?_,
    ⟨rfl, rfl, ?_, ?_, ?_⟩, ?_, ?_, ?_, rfl, ?_, ?_⟩
  · simp only [Deck.lines, mkBlock_lines, List.flatMap_cons, List.flatMap_append, Piece.lines, List.nil_append, List.append_nil]
    rw [h1, m1, d1]
    cases hb : ends i with
    | true =>
      have := fileOf_text (i.title :: (hl ++ pc.flatMap Piece.lines ++ [' '] :: ([T "C ##########################################################",
        T "C                  SURFACE DEFINITION", T "C ##########################################################"] ++ psf.flatMap Piece.lines
          ++ [' '] :: (pm.flatMap Piece.lines ++ pd.flatMap Piece.lines))))
      refine (congrArg₂ FileOf ?_ ?_).mp this
      · rfl
      · simp [endText, fileText, T]
    | false =>
      obtain ⟨pre, last, hp, hne⟩ := d4 hb
      have := fileOf_last (i.title :: (hl ++ pc.flatMap Piece.lines ++ [' '] :: ([T "C ##########################################################",
        T "C                  SURFACE DEFINITION", T "C ##########################################################"] ++ psf.flatMap Piece.lines
          ++ [' '] :: (pm.flatMap Piece.lines ++ pre)))) last hne
      rw [hp]
      simp only [endText, Bool.false_eq_true, if_false, dropLast_fileText]
      refine (congrArg₂ FileOf ?_ ?_).mp this
      · simp
      · simp [fileText, T]
  · dsimp only
    have : (mkBlock (.rem hl :: pc)).cards.map (fun m => m.2.says) = ((mkBlock (.rem hl :: pc)).cards.map (·.2)).map CardText.says := by rw [List.map_map]; rfl
    rw [this, mkBlock_cards]
    exact c3.imp fun _ _ h => h.1
  · dsimp only
    have : ∀ b : Block, b.cards.map (fun m => m.2.says) = (b.cards.map (·.2)).map CardText.says := fun b => by rw [List.map_map]; rfl
    rw [this, mkBlock_cards]
    exact s3
  · dsimp only
    have : ∀ b : Block, b.cards.map (fun m => m.2.says) = (b.cards.map (·.2)).map CardText.says := fun b => by rw [List.map_map]; rfl
    rw [this, mkBlock_cards]
    refine ⟨mats, (pd.filterMap Piece.card?).map CardText.says, ms, ?_, m4, m5, m6, d3⟩
    rw [List.filterMap_append, List.map_append, List.map_append, m3]
  · intro b hb
    simp only [Deck.blocks, List.mem_cons, List.not_mem_nil, or_false] at hb
    rcases hb with rfl | rfl | rfl
    · exact b1.2.1
    · exact b2.2.1
    · exact b3.2.1
  · intro b hb
    simp only [Deck.blocks, List.mem_cons, List.not_mem_nil, or_false] at hb
    rcases hb with rfl | rfl | rfl
    · exact b1.2.2
    · exact b2.2.2
    · exact b3.2.2
  · intro hb
    rw [d1, hb, m1]
    have key : ∀ ls : List (List Char), fileText ls = [] ∨ (fileText ls).getLast? = some '\n' := by
      intro ls
      rcases List.eq_nil_or_concat ls with rfl | ⟨a, b, rfl⟩
      · exact Or.inl rfl
      · right
        rw [List.concat_eq_append, fileText_append]
        simp [fileText]
    have : ∀ (a : List Char) (ls : List (List Char)), a.getLast? = some '\n' → (a ++ fileText ls).getLast? = some '\n' := by
      intro a ls ha
      rcases key ls with hk | hk
      · rw [hk, List.append_nil]; exact ha
      · rw [List.getLast?_append, hk]; rfl
    refine this _ _ (this _ _ ?_)
    rw [List.getLast?_append]
    rfl
  · dsimp only
    have : (mkBlock (.rem hl :: pc)).cards.map (fun m => m.2.says) = ((mkBlock (.rem hl :: pc)).cards.map (·.2)).map CardText.says := by rw [List.map_map]; rfl
    rw [this, mkBlock_cards]
    exact c3.imp fun _ _ h => h.2
  · intro b hb
    simp only [Deck.blocks, List.mem_cons, List.not_mem_nil, or_false] at hb
    rcases hb with rfl | rfl | rfl
    · exact mkBlock_card o1
    · exact mkBlock_card o2
    · exact mkBlock_card o3

end Geouned.McnpFile
