import Verif.SerpFile.Lemmas2
/-!
# C108: the Serpent file is valid and says exactly what the model is
-/
namespace Geouned.SerpFile

open Geouned.McnpFile

/-! ## surfaces -/

theorem join_percent : ∀ {v : List (List Char)}, (∀ t ∈ v, NumText t) → '%' ∉ joinB v
  | [], _ => by simp [joinB]
  | [a], h => num_percent (h a (by simp))
  | a :: b :: l, h => by
    rw [joinB, List.mem_append, List.mem_cons, not_or, not_or]
    exact ⟨num_percent (h a (by simp)), by decide, join_percent (fun t ht => h t (List.mem_cons_of_mem _ ht))⟩

theorem tab6_words (a b : List Char) : Wrap.wordsOf (a ++ (T "\n      " ++ b)) = Wrap.wordsOf a ++ Wrap.wordsOf b := by
  have : a ++ (T "\n      " ++ b) = a ++ '\n' :: (List.replicate 6 ' ' ++ b) := rfl
  rw [this, words_nl_mid, words_spaces]

theorem surf_words' {n : Int} {name : List Char} {v : List (List Char)} (hv : ∀ t ∈ v, NumText t) (hn : Wrap.wordsOf name = [name]) (hnp : '%' ∉ name)
    (h1 : name ∉ ["ckx", "cky", "ckz", "quadratic"].map String.toList) :
    Wrap.wordsOf (surfText n name v) = "surf".toList :: Text.strInt n :: name :: v.flatMap Wrap.wordsOf ∧ '%' ∉ surfText n name v := by
  have hd : ∀ x, Wrap.wordsOf (T "surf " ++ Text.strInt n ++ ' ' :: name ++ [' '] ++ x) = "surf".toList :: Text.strInt n :: name :: Wrap.wordsOf x := by
    intro x
    have : T "surf " ++ Text.strInt n ++ ' ' :: name ++ [' '] ++ x = T "surf" ++ ' ' :: (Text.strInt n ++ ' ' :: (name ++ ' ' :: x)) := by
      have e : T "surf " = T "surf" ++ [' '] := rfl
      rw [e]
      simp only [List.append_assoc, List.cons_append, List.nil_append]
    rw [this, words_blank_mid, words_blank_mid, words_blank_mid, words_int1, hn]
    rfl
  have hdp : '%' ∉ T "surf " ++ Text.strInt n ++ ' ' :: name ++ [' '] := by
    simp only [List.mem_append, List.mem_cons, not_or]
    exact ⟨⟨⟨by decide, int_percent n⟩, by decide, hnp⟩, by decide, by simp⟩
  have hsub : ∀ w : List (List Char), (∀ t ∈ w, t ∈ v) → '%' ∉ joinB w := fun w h => join_percent (fun t ht => hv t (h t ht))
  unfold surfText
  dsimp only
  generalize T "surf " ++ Text.strInt n ++ ' ' :: name ++ [' '] = H at hd hdp ⊢
  simp only [List.map_cons, List.map_nil, List.mem_cons, List.not_mem_nil, or_false, not_or] at h1
  split
  · refine ⟨?_, ?_⟩
    · rw [List.append_assoc, List.append_assoc, List.append_assoc, List.append_assoc, hd, tab6_words, tab6_words, joinB_words, joinB_words, joinB_words]
      congr 3
      rw [← List.flatMap_append, ← List.flatMap_append]
      congr 1
      conv => rhs; rw [← List.take_append_drop 3 v, ← List.take_append_drop 3 (v.drop 3)]
      rw [List.drop_drop]
    · simp only [List.mem_append, not_or] at hdp ⊢
      exact ⟨⟨⟨⟨⟨hdp, hsub _ (fun t ht => List.mem_of_mem_take ht)⟩, by decide⟩, hsub _ (fun t ht => List.mem_of_mem_drop (List.mem_of_mem_take ht))⟩, by decide⟩,
        hsub _ (fun t ht => List.mem_of_mem_drop ht)⟩
  · rw [if_neg h1.2.2.2, if_neg (by rintro (h | h | h); exacts [h1.1 h, h1.2.1 h, h1.2.2.1 h])]
    split
    · refine ⟨?_, ?_⟩
      · rw [List.append_assoc, List.append_assoc, hd, tab6_words, joinB_words, joinB_words, ← List.flatMap_append, List.take_append_drop]
      · simp only [List.mem_append, not_or] at hdp ⊢
        exact ⟨⟨⟨hdp, hsub _ (fun t ht => List.mem_of_mem_take ht)⟩, by decide⟩, hsub _ (fun t ht => List.mem_of_mem_drop ht)⟩
    · refine ⟨?_, ?_⟩
      · rw [hd, joinB_words]
      · rw [List.mem_append, not_or]
        exact ⟨hdp, hsub v (fun t ht => ht)⟩

theorem names_ok : ∀ name ∈ ["px", "py", "pz", "plane", "cylx", "cyly", "cylz", "sph", "torx", "tory", "torz", "ckx", "cky", "ckz", "quadratic"].map String.toList,
    Wrap.wordsOf name = [name] ∧ '%' ∉ name ∧ name ∉ cardNames := by decide

theorem surfs_piece : ∀ {ss : List Surf}, (∀ s ∈ ss, ∀ name v, s.card = some (name, v) → (∀ t ∈ v, NumText t) ∧
      name ∈ ["px", "py", "pz", "plane", "cylx", "cyly", "cylz", "sph", "torx", "tory", "torz", "ckx", "cky", "ckz", "quadratic"].map String.toList) → (∀ s ∈ ss, Numbered s) →
    ∃ cards, Piece (ss.flatMap writeSurface) cards.flatten ∧ (∀ d ∈ cards, ∃ name rest, d = name :: rest ∧ name ∈ cardNames ∧ ∀ w ∈ rest, w ∉ cardNames)
      ∧ List.Forall₂ SurfSays (ss.filter (fun s => s.card ≠ none)) cards
  | [], _, _ => ⟨[], .nil, by simp, .nil⟩
  | s :: ss, h, hn => by
    obtain ⟨cards, p, n, f⟩ := surfs_piece (fun s hs => h s (List.mem_cons_of_mem _ hs)) (fun s hs => hn s (List.mem_cons_of_mem _ hs))
    rw [List.flatMap_cons]
    cases hc : s.card with
    | none =>
      refine ⟨cards, ?_, n, ?_⟩
      · unfold writeSurface
        rw [hc]
        exact p
      · rw [List.filter_cons_of_neg (by simp [hc])]
        exact f
    | some x =>
      obtain ⟨name, v⟩ := x
      obtain ⟨g1, g2⟩ := h s List.mem_cons_self name v hc
      obtain ⟨k1, k2, k3⟩ := names_ok name g2
      obtain ⟨w1, w2⟩ := surf_words' (n := s.index) g1 k1 k2 (hn s List.mem_cons_self name v hc)
      refine ⟨("surf".toList :: Text.strInt s.index :: name :: v.flatMap Wrap.wordsOf) :: cards, ?_, ?_, ?_⟩
      · unfold writeSurface
        rw [hc, List.flatten_cons]
        have := piece_nl w2
        rw [w1] at this
        exact this.append p
      · intro d hd
        rcases List.mem_cons.mp hd with rfl | hd
        · refine ⟨_, _, rfl, by decide, ?_⟩
          intro w hw
          simp only [List.mem_cons] at hw
          rcases hw with rfl | rfl | hw
          · exact int_notName _
          · exact k3
          · obtain ⟨t, ht, hw⟩ := List.mem_flatMap.mp hw
            exact num_notName (g1 t ht) w hw
        · exact n d hd
      · rw [List.filter_cons_of_pos (by simp [hc])]
        exact .cons ⟨_, name, v, hc, isNum_int _, rfl⟩ f

/-! ## the header -/

set_option maxRecDepth 4000 in
theorem header_piece {i : Input} (hg : Good i) (ht : fileWords i.title = []) : Piece (header i) [] := by
  have intl : ∀ n : Int, '\n' ∉ Text.strInt n := by
    intro n h
    rcases (Text.strInt_word n).2 _ h with h | h
    · exact absurd h (by decide)
    · exact absurd h (by decide)
  have line : ∀ a b : List Char, '\n' ∉ a → '\n' ∉ b → Piece ('%' :: a ++ b ++ ['\n']) [] := by
    intro a b h1 h2
    have : '%' :: a ++ b ++ ['\n'] = '%' :: (a ++ b) ++ ['\n'] := rfl
    rw [this]
    exact piece_comment (by rw [List.mem_append, not_or]; exact ⟨h1, h2⟩)
  have e : header i = (i.title ++ ['\n']) ++ ('%' :: T "   ______ _______  _____      _     _ __   _ _______ ______  " ++ [] ++ ['\n'])
      ++ ('%' :: T "  |  ____ |______ |     | ___ |     | | \\  | |______ |     \\ " ++ [] ++ ['\n'])
      ++ ('%' :: T "  |_____| |______ |_____|     |_____| |  \\_| |______ |_____/" ++ [] ++ ['\n'])
      ++ ('%' :: T " Version : " ++ i.version ++ ['\n']) ++ ('%' :: T " FreeCAD Version : " ++ (i.freecad ++ [' ']) ++ ['\n'])
      ++ ('%' :: [] ++ [] ++ ['\n']) ++ ('%' :: T " *************************************************************" ++ [] ++ ['\n'])
      ++ ('%' :: T " Original Step file : " ++ i.step ++ ['\n']) ++ ('%' :: [] ++ [] ++ ['\n'])
      ++ ('%' :: T " Creation Date : " ++ i.date ++ ['\n'])
      ++ ('%' :: T " Solid Cells   : " ++ Text.strInt ((i.cells.filter (fun c => c.id.isSome)).filter (fun c => !c.void)).length ++ ['\n'])
      ++ ('%' :: T " Total Cells   : " ++ Text.strInt (i.cells.filter (fun c => c.id.isSome)).length ++ ['\n'])
      ++ ('%' :: T " Surfaces      : " ++ Text.strInt i.surfaces.length ++ ['\n'])
      ++ ('%' :: T " Materials     : " ++ Text.strInt (((i.cells.filter (fun c => c.id.isSome)).map (·.material)).filter (· ≠ 0)).dedup.length ++ ['\n'])
      ++ ('%' :: [] ++ [] ++ ['\n']) ++ ('%' :: T " **************************************************************" ++ [] ++ ['\n']) := by
    unfold header T
    simp
  rw [e]
  have h0 := piece_title ht
  have n : '\n' ∉ ([] : List Char) := by simp
  have acc : ∀ {a b : List Char}, Piece a [] → Piece b [] → Piece (a ++ b) [] := fun h h' => h.append h'
  refine acc (acc (acc (acc (acc (acc (acc (acc (acc (acc (acc (acc (acc (acc (acc (acc h0 (line _ _ ?_ n)) (line _ _ ?_ n)) (line _ _ ?_ n)) (line _ _ ?_ hg.version)) (line _ _ ?_ ?_)) (line _ _ n n))
    (line _ _ ?_ n)) (line _ _ ?_ hg.step)) (line _ _ n n)) (line _ _ ?_ hg.date)) (line _ _ ?_ (intl _))) (line _ _ ?_ (intl _))) (line _ _ ?_ (intl _))) (line _ _ ?_ (intl _)))
    (line _ _ n n)) (line _ _ ?_ n)
  all_goals first
    | decide +kernel
    | (rw [List.mem_append, not_or]
       exact ⟨hg.freecad, by decide⟩)

/-! ## the property -/

/-- **C108, part.** The file of a model without universe, whose title is a comment (or blank), whose cells have comments and that has no cones and no cylinders with oblique axis is valid, and its cards say
exactly the model. -/
theorem C108_file_partial : WrittenWell fun i => fileWords i.title = [] ∧ i.uni = none ∧ (∀ c ∈ i.cells, c.real → Commented c) ∧ ∀ s ∈ i.surfaces, Numbered s := by
  rintro i hg ⟨ht, hu, hc, hs⟩ r hr
  obtain ⟨K, hK⟩ := cells_piece hg hu r hr i.cells (fun c h => ⟨h, hc c h⟩)
  obtain ⟨cards', p', n', f'⟩ := surfs_piece hg.surfaces hs
  refine ⟨K, fun k hk => ?_⟩
  obtain ⟨t, cards, e, p, n, f⟩ := hK k hk
  unfold writeInput
  rw [e]
  refine ⟨_, cards ++ cards' ++ [["set".toList, "nps".toList, "1e6".toList], ["set".toList, "bc".toList, "1".toList]], rfl, ⟨?_, ?_⟩, cards, cards', rfl, f, f'⟩
  · have b1 : Piece (T "% --- CELL DEFINITIONS \n") [] := piece_comment (x := T " --- CELL DEFINITIONS ") (by decide)
    have b2 : Piece (T " \n") [] := by
      have := piece_nl (a := [' ']) (by decide)
      exact this
    have b3 : Piece (T "% --- SURFACE DEFINITIONS \n") [] := piece_comment (x := T " --- SURFACE DEFINITIONS ") (by decide)
    have := ((((((header_piece hg ht).append b1).append p).append b2).append b3).append p').append b2
    rw [this]
    have e1 : fileWords (T "\nset nps 1e6\nset bc 1") = [["set".toList, "nps".toList, "1e6".toList], ["set".toList, "bc".toList, "1".toList]].flatten := by decide
    rw [e1, List.flatten_append, List.flatten_append]
    simp only [List.append_assoc, List.append_nil, List.nil_append]
  · intro d hd
    rcases List.mem_append.mp hd with hd | hd
    · rcases List.mem_append.mp hd with hd | hd
      · exact n d hd
      · exact n' d hd
    · simp only [List.mem_cons, List.not_mem_nil, or_false] at hd
      rcases hd with rfl | rfl
      · exact ⟨_, _, rfl, by decide, by decide⟩
      · exact ⟨_, _, rfl, by decide, by decide⟩

end Geouned.SerpFile
