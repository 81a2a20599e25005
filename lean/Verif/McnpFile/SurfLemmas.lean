import Verif.McnpFile.CellLemmas
/-!
# Lemmas for C102: surface cards, lists of cells and surfaces
-/
namespace Geouned.McnpFile

open Geouned.Card

/-! ## numbers in a line -/

theorem joinB_tidy : ∀ {v : List (List Char)}, (∀ t ∈ v, Tidy t) → Tidy (joinB v)
  | [], _ => tidy_nil
  | [a], h => h a (by simp)
  | a :: b :: l, h => by
    rw [joinB]
    exact (h a (by simp)).append (.cons (by decide) (joinB_tidy (fun t ht => h t (List.mem_cons_of_mem _ ht))))

theorem joinB_words : ∀ v : List (List Char), Wrap.wordsOf (joinB v) = v.flatMap Wrap.wordsOf
  | [] => rfl
  | [a] => by simp [joinB]
  | a :: b :: l => by
    rw [joinB, words_blank_mid, joinB_words (b :: l)]
    simp

theorem joinB_length : ∀ v : List (List Char), (joinB v).length ≤ (v.map (fun t => t.length + 1)).sum - 1
  | [] => by simp [joinB]
  | [a] => by simp [joinB]
  | a :: b :: l => by
    have h := joinB_length (b :: l)
    rw [joinB, List.map_cons, List.sum_cons, List.length_append, List.length_cons]
    simp only [List.map_cons, List.sum_cons] at h ⊢
    omega

theorem joinB_ink {v : List (List Char)} (hv : v ≠ []) (h : ∀ t ∈ v, NumText t) : ∃ c ∈ joinB v, c ≠ ' ' ∧ c ≠ 'c' ∧ c ≠ 'C' := by
  match v, hv, h with
  | [a], _, h => exact (h a (by simp)).ink
  | a :: b :: l, _, h =>
    obtain ⟨c, hc, hp⟩ := (h a (by simp)).ink
    exact ⟨c, by simp [joinB, hc], hp⟩

theorem sum_le {v : List (List Char)} (h : ∀ t ∈ v, t.length ≤ 21) : (v.map (fun t => t.length + 1)).sum ≤ 22 * v.length := by
  induction v with
  | nil => simp
  | cons a v ih =>
    have h1 := h a (by simp)
    have h2 := ih (fun t ht => h t (List.mem_cons_of_mem _ ht))
    simp only [List.map_cons, List.sum_cons, List.length_cons]
    omega

/-- a line with up to three numbers -/
theorem joinB_three {v : List (List Char)} (hv : v.length ≤ 3) (h : ∀ t ∈ v, NumText t ∧ t.length ≤ 21) : (joinB v).length ≤ 65 := by
  have h1 := joinB_length v
  have h2 := sum_le (fun t ht => (h t ht).2)
  omega

/-! ## a text whose lines are known -/

/-- lines that make a surface card -/
theorem lines_card {text first : List Char} {rest : List (List Char)} (hl : Wrap.linesOf text = first :: rest) (hlen : ∀ t ∈ first :: rest, t.length ≤ 80) (hne : text ≠ []) :
    (match Wrap.trim 80 text with
      | .error e => (.error e : M (List Char))
      | .ok t => if t = [] then .ok [] else .ok (t ++ ['\n'])) = .ok (fileText (first :: rest)) := by
  have e : Wrap.trim 80 text = .ok text := by
    unfold Wrap.trim
    dsimp only
    rw [if_pos]
    rw [hl, List.all_eq_true]
    intro t ht
    simpa using hlen t ht
  rw [e]
  dsimp only
  rw [if_neg hne, ← hl, fileText_lines]

theorem surf_card {s : Surf} {name : List Char} {v : List (List Char)} (hs : GoodSurf s) (hc : s.card = some (name, v)) :
    ∃ first rest, writeSurface s = .ok (fileText (first :: rest)) ∧ First first ∧ (∀ t ∈ rest, Cont t) ∧ SurfSays s (card first rest).says
      ∧ ∀ t ∈ first :: rest, Tidy t := by
  obtain ⟨hname, hnl, hnum, hkind⟩ := hs.card name v hc
  have hil := pad_length (n := 6) (Text.strInt_length (d := 8) (by omega) hs.index) (by omega)
  have hv : ∀ t ∈ v, Tidy t := fun t ht => (hnum t ht).1.tidy
  have hsub : ∀ {w : List (List Char)}, (∀ t ∈ w, t ∈ v) → Tidy (joinB w) := fun h => joinB_tidy (fun t ht => hv t (h t ht))
  have tk : ∀ {n : Nat} {w : List (List Char)}, (∀ t ∈ w, t ∈ v) → ∀ t ∈ w.take n, t ∈ v := fun h t ht => h t (List.mem_of_mem_take ht)
  have dr : ∀ {n : Nat} {w : List (List Char)}, (∀ t ∈ w, t ∈ v) → ∀ t ∈ w.drop n, t ∈ v := fun h t ht => h t (List.mem_of_mem_drop ht)
  have hvv : ∀ t ∈ v, t ∈ v := fun _ h => h
  -- the head
  have hhead : ∀ {r : List Char}, Tidy r → First (padRight 6 (Text.strInt s.index) ++ ' ' :: name ++ r) := by
    intro r hr
    have : padRight 6 (Text.strInt s.index) ++ ' ' :: name ++ r = Text.strInt s.index ++ (List.replicate (6 - (Text.strInt s.index).length) ' ' ++ (' ' :: (name ++ r))) := by
      simp [padRight]
    rw [this]
    exact first_int _ ((tidy_blanks _).append (.cons (by decide) (hname.tidy.append hr)))
  have hht : Tidy (padRight 6 (Text.strInt s.index) ++ ' ' :: name) := (tidy_pad (tidy_int _) 6).append (.cons (by decide) hname.tidy)
  have hhw : ∀ (n : Nat) (w : List (List Char)) (m : Nat), Wrap.wordsOf (padRight 6 (Text.strInt s.index) ++ ' ' :: name ++ (List.replicate (n + 1) ' ' ++ (joinB w ++ List.replicate m ' ')))
      = Text.strInt s.index :: name :: w.flatMap Wrap.wordsOf := by
    intro n w m
    have : padRight 6 (Text.strInt s.index) ++ ' ' :: name ++ (List.replicate (n + 1) ' ' ++ (joinB w ++ List.replicate m ' '))
        = padRight 6 (Text.strInt s.index) ++ ' ' :: (name ++ ' ' :: (List.replicate n ' ' ++ (joinB w ++ List.replicate m ' '))) := by
      simp [List.replicate_succ]
    rw [this, words_blank_mid, words_pad, words_int1, words_blank_mid, words_token1 hname, words_spaces, words_blank_end, joinB_words]
    rfl
  have hcw : ∀ (n : Nat) (w : List (List Char)) (m : Nat), Wrap.wordsOf (List.replicate n ' ' ++ (joinB w ++ List.replicate m ' ')) = w.flatMap Wrap.wordsOf := by
    intro n w m
    rw [words_spaces, words_blank_end, joinB_words]
  -- a continuation line
  have hcont : ∀ (n : Nat) {w : List (List Char)} (m : Nat), (∀ t ∈ w, t ∈ v) → w ≠ [] → Cont (List.replicate (n + 5) ' ' ++ (joinB w ++ List.replicate m ' ')) := by
    intro n w m hw hne
    have ht : Tidy (List.replicate (n + 5) ' ' ++ (joinB w ++ List.replicate m ' ')) := (tidy_blanks _).append ((hsub hw).append (tidy_blanks _))
    obtain ⟨c, hc, hp⟩ := joinB_ink hne (fun t ht => (hnum t (hw t ht)).1)
    refine tidy_cont ht ⟨List.replicate n ' ' ++ (joinB w ++ List.replicate m ' '), ?_⟩ ⟨c, by simp [hc], hp⟩
    simp [List.replicate_succ]
  -- what is left: the lines
  suffices h : ∃ (a : Nat) (w : List (List Char)) (b : Nat) (ws : List (Nat × List (List Char) × Nat)),
      v = w ++ ws.flatMap (fun x => x.2.1) ∧ (∀ x ∈ ws, x.2.1 ≠ [])
      ∧ Wrap.linesOf (surfText s.index name v) = (padRight 6 (Text.strInt s.index) ++ ' ' :: name ++ (List.replicate (a + 1) ' ' ++ (joinB w ++ List.replicate b ' '))) ::
          ws.map (fun x => List.replicate (x.1 + 5) ' ' ++ (joinB x.2.1 ++ List.replicate x.2.2 ' '))
      ∧ (∀ t ∈ Wrap.linesOf (surfText s.index name v), t.length ≤ 80) by
    obtain ⟨a, w, b, ws, hvw, hne, hlines, hlen⟩ := h
    have hw : ∀ t ∈ w, t ∈ v := fun t ht => by rw [hvw]; simp [ht]
    have hws : ∀ x ∈ ws, ∀ t ∈ x.2.1, t ∈ v := fun x hx t ht => by
      rw [hvw]; exact List.mem_append_right _ (List.mem_flatMap.mpr ⟨x, hx, ht⟩)
    have htid : ∀ t ∈ (padRight 6 (Text.strInt s.index) ++ ' ' :: name ++ (List.replicate (a + 1) ' ' ++ (joinB w ++ List.replicate b ' '))) ::
        ws.map (fun x => List.replicate (x.1 + 5) ' ' ++ (joinB x.2.1 ++ List.replicate x.2.2 ' ')), Tidy t := by
      intro t ht
      rcases List.mem_cons.mp ht with rfl | ht
      · exact hht.append ((tidy_blanks _).append ((hsub hw).append (tidy_blanks _)))
      · obtain ⟨x, hx, rfl⟩ := List.mem_map.mp ht
        exact (tidy_blanks _).append ((hsub (hws x hx)).append (tidy_blanks _))
    refine ⟨_, ws.map (fun x => List.replicate (x.1 + 5) ' ' ++ (joinB x.2.1 ++ List.replicate x.2.2 ' ')), ?_, hhead ((tidy_blanks (a + 1)).append ((hsub hw).append (tidy_blanks b))), ?_, ?_, ?_⟩
    · unfold writeSurface
      rw [hc]
      dsimp only
      rw [← hlines]
      have hne' : surfText s.index name v ≠ [] := by
        intro h0
        rw [h0] at hlines
        have h1 : (padRight 6 (Text.strInt s.index) ++ ' ' :: name ++ (List.replicate (a + 1) ' ' ++ (joinB w ++ List.replicate b ' '))) = [] := by
          simp [Wrap.linesOf] at hlines
        simp at h1
      have := lines_card (text := surfText s.index name v) hlines (by rw [← hlines]; exact hlen) hne'
      rw [hlines]
      exact this
    · intro t ht
      obtain ⟨x, hx, rfl⟩ := List.mem_map.mp ht
      exact hcont _ _ (hws x hx) (hne x hx)
    · refine ⟨Text.strInt s.index, name, v, hc, isNum_int _, ?_⟩
      rw [words_tidy]
      · rw [List.flatMap_cons, hhw, List.flatMap_map]
        have : ws.flatMap (fun x => Wrap.wordsOf (List.replicate (x.1 + 5) ' ' ++ (joinB x.2.1 ++ List.replicate x.2.2 ' ')))
            = (ws.flatMap (fun x => x.2.1)).flatMap Wrap.wordsOf := by
          rw [List.flatMap_assoc]
          congr 1
          funext x
          exact hcw _ _ _
        rw [this, hvw, List.flatMap_append]
        rfl
      · exact htid
    · exact htid
  -- lines of texts
  have two : ∀ {x y : List Char}, Tidy x → Wrap.linesOf (x ++ '\n' :: y) = x :: Wrap.linesOf y := fun h => Wrap.linesOf_nl _ h.nl _
  have one : ∀ {x : List Char}, Tidy x → Wrap.linesOf x = [x] := fun h => Wrap.linesOf_single h.nl
  have tid : ∀ (a : Nat) {w : List (List Char)} (b : Nat), (∀ t ∈ w, t ∈ v) → Tidy (List.replicate a ' ' ++ (joinB w ++ List.replicate b ' ')) :=
    fun a w b h => (tidy_blanks _).append ((hsub h).append (tidy_blanks _))
  have len3 : ∀ {w : List (List Char)}, w.length ≤ 3 → (∀ t ∈ w, t ∈ v) → (joinB w).length ≤ 65 := fun h1 h2 => joinB_three h1 (fun t ht => hnum t (h2 t ht))
  have m1 : ∀ t ∈ v.take 3, t ∈ v := tk hvv
  have m2 : ∀ t ∈ (v.drop 3).take 3, t ∈ v := tk (dr hvv)
  have m3 : ∀ t ∈ (v.drop 6).take 3, t ∈ v := tk (dr hvv)
  have m4 : ∀ t ∈ v.drop 6, t ∈ v := dr hvv
  have m5 : ∀ t ∈ v.drop 9, t ∈ v := dr hvv
  have m6 : ∀ t ∈ v.drop 3, t ∈ v := dr hvv
  rcases hkind with ⟨rfl, hk⟩ | ⟨rfl, hk⟩ | ⟨htor, hk⟩ | ⟨hq, htor, hk9, hk⟩
  · have e : surfText s.index "P".toList v = (padRight 6 (Text.strInt s.index) ++ ' ' :: "P".toList ++ (List.replicate (2 + 1) ' ' ++ (joinB (v.take 3) ++ List.replicate 1 ' '))) ++ '\n' ::
        ((List.replicate (6 + 5) ' ' ++ (joinB ((v.drop 3).take 3) ++ List.replicate 0 ' ')) ++ '\n' :: (List.replicate (6 + 5) ' ' ++ (joinB (v.drop 6) ++ List.replicate 0 ' '))) := by
      unfold surfText
      dsimp only
      rw [if_pos rfl, if_pos hk]
      simp [T, List.replicate]
    refine ⟨2, v.take 3, 1, [(6, (v.drop 3).take 3, 0), (6, v.drop 6, 0)], ?_, ?_, ?_, ?_⟩
    · simp only [List.flatMap_cons, List.flatMap_nil, List.append_nil]
      rw [show v.drop 6 = (v.drop 3).drop 3 by rw [List.drop_drop], List.take_append_drop, List.take_append_drop]
    · intro x hx h0
      rw [← List.length_eq_zero_iff] at h0
      simp only [List.mem_cons, List.not_mem_nil, or_false] at hx
      rcases hx with rfl | rfl <;> simp at h0 <;> omega
    · rw [e, two (hht.append (tid _ _ m1)), two (tid _ _ m2), one (tid _ _ m4)]
      rfl
    · rw [e, two (hht.append (tid _ _ m1)), two (tid _ _ m2), one (tid _ _ m4)]
      have l1 := len3 (w := v.take 3) (by simp) m1
      have l2 := len3 (w := (v.drop 3).take 3) (by simp) m2
      have l3 := len3 (w := v.drop 6) (by simp; omega) m4
      intro t ht
      simp only [List.mem_cons, List.not_mem_nil, or_false] at ht
      have lP : "P".toList.length = 1 := rfl
      rcases ht with rfl | rfl | rfl <;> simp only [List.length_append, List.length_replicate, List.length_cons] <;> omega
  · have e : surfText s.index "GQ".toList v = (padRight 6 (Text.strInt s.index) ++ ' ' :: "GQ".toList ++ (List.replicate (1 + 1) ' ' ++ (joinB (v.take 3) ++ List.replicate 0 ' '))) ++ '\n' ::
        ((List.replicate (5 + 5) ' ' ++ (joinB ((v.drop 3).take 3) ++ List.replicate 0 ' ')) ++ '\n' :: ((List.replicate (5 + 5) ' ' ++ (joinB ((v.drop 6).take 3) ++ List.replicate 0 ' ')) ++ '\n' ::
          (List.replicate (5 + 5) ' ' ++ (joinB (v.drop 9) ++ List.replicate 1 ' ')))) := by
      unfold surfText
      dsimp only
      rw [if_neg (by decide), if_pos rfl]
      simp [T, List.replicate]
    refine ⟨1, v.take 3, 0, [(5, (v.drop 3).take 3, 0), (5, (v.drop 6).take 3, 0), (5, v.drop 9, 1)], ?_, ?_, ?_, ?_⟩
    · simp only [List.flatMap_cons, List.flatMap_nil, List.append_nil]
      rw [show v.drop 9 = (v.drop 6).drop 3 by rw [List.drop_drop], List.take_append_drop, show v.drop 6 = (v.drop 3).drop 3 by rw [List.drop_drop], List.take_append_drop, List.take_append_drop]
    · intro x hx h0
      rw [← List.length_eq_zero_iff] at h0
      simp only [List.mem_cons, List.not_mem_nil, or_false] at hx
      rcases hx with rfl | rfl | rfl <;> simp at h0 <;> omega
    · rw [e, two (hht.append (tid _ _ m1)), two (tid _ _ m2), two (tid _ _ m3), one (tid _ _ m5)]
      rfl
    · rw [e, two (hht.append (tid _ _ m1)), two (tid _ _ m2), two (tid _ _ m3), one (tid _ _ m5)]
      have l1 := len3 (w := v.take 3) (by simp) m1
      have l2 := len3 (w := (v.drop 3).take 3) (by simp) m2
      have l3 := len3 (w := (v.drop 6).take 3) (by simp) m3
      have l4 := len3 (w := v.drop 9) (by simp; omega) m5
      intro t ht
      simp only [List.mem_cons, List.not_mem_nil, or_false] at ht
      have lP : "GQ".toList.length = 2 := rfl
      rcases ht with rfl | rfl | rfl | rfl <;> simp only [List.length_append, List.length_replicate, List.length_cons] <;> omega
  · have e : surfText s.index name v = (padRight 6 (Text.strInt s.index) ++ ' ' :: name ++ (List.replicate (1 + 1) ' ' ++ (joinB (v.take 3) ++ List.replicate 0 ' '))) ++ '\n' ::
        (List.replicate (6 + 5) ' ' ++ (joinB (v.drop 3) ++ List.replicate 0 ' ')) := by
      unfold surfText
      dsimp only
      rw [if_neg, if_neg, if_pos]
      · simp [T, List.replicate]
      · simpa [T] using htor
      · rintro rfl; revert htor; decide
      · rintro rfl; revert htor; decide
    have lT : name.length = 2 := by
      simp only [List.mem_cons, List.not_mem_nil, or_false] at htor
      rcases htor with rfl | rfl | rfl <;> rfl
    refine ⟨1, v.take 3, 0, [(6, v.drop 3, 0)], ?_, ?_, ?_, ?_⟩
    · simp only [List.flatMap_cons, List.flatMap_nil, List.append_nil]
      rw [List.take_append_drop]
    · intro x hx h0
      rw [← List.length_eq_zero_iff] at h0
      simp only [List.mem_cons, List.not_mem_nil, or_false] at hx
      rcases hx with rfl; simp at h0; omega
    · rw [e, two (hht.append (tid _ _ m1)), one (tid _ _ m6)]
      rfl
    · rw [e, two (hht.append (tid _ _ m1)), one (tid _ _ m6)]
      have l1 := len3 (w := v.take 3) (by simp) m1
      have l2 := len3 (w := v.drop 3) (by simp; omega) m6
      intro t ht
      simp only [List.mem_cons, List.not_mem_nil, or_false] at ht
      rcases ht with rfl | rfl <;> simp only [List.length_append, List.length_replicate, List.length_cons] <;> omega
  · obtain ⟨a, ha, e⟩ : ∃ a, a ≤ 2 ∧ surfText s.index name v = padRight 6 (Text.strInt s.index) ++ ' ' :: name ++ (List.replicate (a + 1) ' ' ++ (joinB v ++ List.replicate 0 ' ')) := by
      by_cases hP : name = T "P"
      · refine ⟨2, by omega, ?_⟩
        unfold surfText
        dsimp only
        rw [if_pos hP, if_neg hk9]
        simp [T, List.replicate]
      · refine ⟨1, by omega, ?_⟩
        unfold surfText
        dsimp only
        rw [if_neg hP, if_neg hq, if_neg]
        · simp [T, List.replicate]
        · simpa [T] using htor
    refine ⟨a, v, 0, [], by simp, by simp, ?_, ?_⟩
    · rw [e, one (hht.append (tid _ _ hvv))]
      rfl
    · rw [e, one (hht.append (tid _ _ hvv))]
      have l1 := joinB_length v
      intro t ht
      simp only [List.mem_cons, List.not_mem_nil, or_false] at ht
      subst ht
      simp only [List.length_append, List.length_replicate, List.length_cons]
      omega

/-! ## lists -/

theorem cells_pieces {f : Fmt} (hf : Formats f) (i : Input) (r : Nat) (hr : 30 ≤ r) : ∀ cs : List Cell, (∀ c ∈ cs, GoodCell f c) →
    ∃ K, ∀ k, K ≤ k → ∃ ps : List Piece, writeCells f i r k cs = .ok (fileText (ps.flatMap Piece.lines)) ∧ (∀ p ∈ ps, p.Ok)
      ∧ List.Forall₂ (fun c t => CellSays f i c t ∧ Laid f i c t) (cs.filter (fun c => c.real)) ((ps.filterMap Piece.card?).map CardText.says)
  | [], _ => ⟨0, fun k _ => ⟨[], rfl, fun p h => (by cases h), .nil⟩⟩
  | c :: cs, h => by
    obtain ⟨K, hK⟩ := cells_pieces hf i r hr cs (fun d hd => h d (List.mem_cons_of_mem _ hd))
    have hc := h c (by simp)
    cases hid : c.id with
    | none =>
      obtain ⟨ls, h1, h2⟩ := commentLine_lines hc.comments
      refine ⟨K, fun k hk => ?_⟩
      obtain ⟨ps, g1, g2, g3⟩ := hK k hk
      refine ⟨.rem ls :: ps, ?_, ?_, ?_⟩
      · unfold writeCells writeCell
        rw [hid]
        dsimp only
        rw [g1]
        dsimp only
        rw [h1, List.flatMap_cons, fileText_append]
        rfl
      · intro p hp
        rcases List.mem_cons.mp hp with rfl | hp
        · exact .rem ls h2
        · exact g2 p hp
      · rw [List.filter_cons_of_neg (by simp [Cell.real, hid])]
        exact g3
    | some n =>
      obtain ⟨K', hK'⟩ := cell_card hf i hid hc r hr
      refine ⟨max K K', fun k hk => ?_⟩
      obtain ⟨ps, g1, g2, g3⟩ := hK k (by omega)
      obtain ⟨first, rest, k1, k2, k3, k4⟩ := hK' k (by omega)
      refine ⟨.card (card first rest) :: ps, ?_, ?_, ?_⟩
      · unfold writeCells
        rw [k1]
        dsimp only
        rw [g1]
        dsimp only
        rw [List.flatMap_cons, fileText_append, Piece.lines, card_lines]
      · intro p hp
        rcases List.mem_cons.mp hp with rfl | hp
        · exact .card first rest k2 k3
        · exact g2 p hp
      · rw [List.filter_cons_of_pos (by simp [Cell.real, hid])]
        exact .cons k4 g3

theorem surfaces_pieces : ∀ ss : List Surf, (∀ s ∈ ss, GoodSurf s) →
    ∃ ps : List Piece, writeSurfaces ss = .ok (fileText (ps.flatMap Piece.lines)) ∧ (∀ p ∈ ps, p.Ok)
      ∧ List.Forall₂ SurfSays (ss.filter (fun s => s.card ≠ none)) ((ps.filterMap Piece.card?).map CardText.says)
  | [], _ => ⟨[], rfl, fun p h => (by cases h), .nil⟩
  | s :: ss, h => by
    obtain ⟨ps, g1, g2, g3⟩ := surfaces_pieces ss (fun d hd => h d (List.mem_cons_of_mem _ hd))
    have hs := h s (by simp)
    cases hc : s.card with
    | none =>
      refine ⟨ps, ?_, g2, ?_⟩
      · unfold writeSurfaces writeSurface
        rw [hc]
        dsimp only
        rw [g1]
        rfl
      · rw [List.filter_cons_of_neg (by simp [hc])]
        exact g3
    | some nv =>
      obtain ⟨name, v⟩ := nv
      obtain ⟨first, rest, k1, k2, k3, k4, -⟩ := surf_card hs hc
      refine ⟨.card (card first rest) :: ps, ?_, ?_, ?_⟩
      · unfold writeSurfaces
        rw [k1]
        dsimp only
        rw [g1]
        dsimp only
        rw [List.flatMap_cons, fileText_append, Piece.lines, card_lines]
      · intro p hp
        rcases List.mem_cons.mp hp with rfl | hp
        · exact .card first rest k2 k3
        · exact g2 p hp
      · rw [List.filter_cons_of_pos (by simp [hc])]
        exact .cons k4 g3

end Geouned.McnpFile
